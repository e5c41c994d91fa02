import Verif.Whole.SettleProps
import Verif.Web.Once

/-!
C115, third part: when the handlers of the client send no requests of their own, the transport of the client carries the requests of its calls and nothing else.
-/

namespace Verif.Whole

open Verif.Await Verif.Client Verif.Server Verif.Duplex Verif.Stdio
open Verif.Serve (Prog)

variable {D H : Type} [DblFmt D]

theorem given_own (max : Nat) (h : Request D → Prog D) (sent : Bytes) {e : End D} (he : AloneEnd e) {op : EndOp D} (hop : ∀ q, op ≠ .check q) :
    (e.step max h sent op).given = e.given := by
  cases op with
  | check q => exact absurd rfl (hop q)
  | file n now => simp only [End.step, End.file]; split <;> rfl
  | note n => simp only [End.step, End.note]; split <;> rfl
  | writeFail => exact (writes_aside _ _).given
  | setMax n => exact (writes_aside _ _).given
  | sweep now => rfl
  | cut => rfl
  | close => rfl
  | setTimeout t => rfl
  | push i => exact given_internal max h sent he (.push i)
  | dequeue => exact given_internal max h sent he .dequeue
  | write k => exact given_internal max h sent he (.write k)
  | finish => exact given_internal max h sent he .finish
  | read k => exact given_internal max h sent he (.read k)
  | decode => exact given_internal max h sent he .decode
  | work b => exact given_internal max h sent he (.work b)

theorem alone_run_world {c : Cfg D} (halone : ∀ q, Alone (c.handler q)) (s0 : Self D) (srv : Srv D H) (ops : List (Op D H)) :
    AlonePair ((World.init s0 srv).run c ops).pair := by
  have h := alone_world halone s0 srv (fun t => (ops[t]?).getD (.drop 0)) ops.length
  rw [states_run] at h
  have : before (fun t => (ops[t]?).getD (.drop 0)) ops.length = ops := by
    unfold before
    refine List.ext_getElem? fun n => ?_
    by_cases hn : n < ops.length
    · simp [hn]
    · simp [Nat.le_of_not_lt hn]
  rwa [this] at h

/-- The transport of the client was given the requests of the calls, in the order of their futures. -/
theorem only_world {c : Cfg D} (halone : ∀ q, Alone (c.handler q)) (s0 : Self D) (srv : Srv D H) (ops : List (Op D H)) :
    let w := (World.init s0 srv).run c ops
    w.futs = List.range w.pair.a.given.length ∧ ∀ g ∈ w.pair.a.given, g.id = .str [] := by
  induction ops using snoc_induction with
  | h0 => exact ⟨rfl, fun g hg => nomatch hg⟩
  | h1 ops op ih =>
    obtain ⟨h1, h2⟩ := ih
    intro w
    have hw : w = ((World.init s0 srv).run c ops).step c op := run_snoc c _ ops op
    have hn : ((World.init s0 srv).run c ops).pair.a.p.nextFut = ((World.init s0 srv).run c ops).pair.a.given.length := given_next (good_world c s0 srv ops false)
    have hal := alone_run_world halone s0 srv ops
    rw [hw]
    clear hw w
    generalize (World.init s0 srv).run c ops = w at *
    cases op with
    | go i =>
      simp only [World.step, World.go]
      split
      · split
        · refine ⟨?_, ?_⟩
          · simp only [End.check, List.length_append, List.length_singleton, List.range_succ, h1, hn]
          · intro g hg
            rcases List.mem_append.1 (show g ∈ w.pair.a.given ++ [_] from hg) with hg | hg
            · exact h2 g hg
            · rw [List.mem_singleton.1 hg]; rfl
        · exact ⟨h1, h2⟩
      · exact ⟨h1, h2⟩
    | deliver n =>
      simp only [World.step, World.deliver]
      split
      · split <;> exact ⟨h1, h2⟩
      · exact ⟨h1, h2⟩
    | wire y op =>
      simp only [World.step]
      split
      · exact ⟨h1, h2⟩
      · rename_i hr
        have hg : (w.pair.step c.duplex (y, op)).a.given = w.pair.a.given := by
          show ((w.pair.step c.duplex (y, op)).get false).given = (w.pair.get false).given
          rw [step_get]
          split
          · rename_i hy
            subst hy
            refine given_own _ _ _ (hal false) fun q hq => ?_
            subst hq
            simp [reserved] at hr
          · rfl
        dsimp only
        rw [hg]
        exact ⟨h1, h2⟩
    | serve env =>
      simp only [World.step, World.serve]
      split
      · exact ⟨h1, h2⟩
      · split
        · exact ⟨h1, h2⟩
        · split <;> exact ⟨h1, h2⟩
    | own op => cases op <;> simp only [World.step] <;> (try split) <;> exact ⟨h1, h2⟩
    | call api => exact ⟨h1, h2⟩
    | drop i => exact ⟨h1, h2⟩
    | change u => exact ⟨h1, h2⟩

/-- Every call of the client is one of its operations. -/
theorem call_prog (c : Cfg D) (s0 : Self D) (srv : Srv D H) (ops : List (Op D H)) {i : Nat} {x : CCall D}
    (hx : ((World.init s0 srv).run c ops).client.calls[i]? = some x) : ∃ api, x.prog = body api := by
  obtain ⟨cops, h1, h2, -⟩ := client_run c s0 srv ops
  rw [h1] at hx
  have key : ∀ l : List (COp D), (∀ b, Await.Op.call b ∈ l → ∃ api, b = body api) → ∀ s : CSys D, (∀ (i : Nat) (x : CCall D), s.calls[i]? = some x → ∃ api, x.prog = body api) →
      ∀ (i : Nat) (x : CCall D), (s.run l).calls[i]? = some x → ∃ api, x.prog = body api := by
    intro l
    induction l with
    | nil => exact fun _ s h => h
    | cons op l ih =>
      intro hl s h
      rw [run_cons]
      exact ih (fun b hb => hl b (List.mem_cons_of_mem _ hb)) _
        (progs_step (P := fun b => ∃ api, b = body api) s op (fun b hb => hl b (by rw [hb]; exact List.mem_cons_self ..)) h)
  exact key cops (fun b hb => (h2 b hb).imp fun api h => h.1) (Sys.init s0) (fun i x hx => (nomatch hx)) i x hx

theorem own_of_empty {ids : List RpcId} (h : ∀ i ∈ ids, i = .str []) (hl : ids.length < 2 ^ 32) : OwnTexts ids := by
  refine ⟨fun i j a b ha _ _ hne => absurd ?_ hne, fun i hi c hc => ?_, hl⟩
  · rw [h a (List.mem_of_getElem? ha)]; rfl
  · rw [h i hi] at hc; cases hc

/-- Each request of the client's transport is that of one call. -/
theorem given_call {c : Cfg D} (halone : ∀ q, Alone (c.handler q)) (s0 : Self D) (srv : Srv D H) (ops : List (Op D H)) {n : Nat} {g : Request D}
    (hg : ((World.init s0 srv).run c ops).pair.a.given[n]? = some g) :
    ∃ (i : Nat) (x : CCall D) (api : Api D), ((World.init s0 srv).run c ops).client.calls[i]? = some x ∧ n ∈ sentOf x.path ∧ x.prog = body api ∧ g = asRequest (question api) := by
  have hl := link_world c s0 srv ops
  obtain ⟨ho, -⟩ := only_world halone s0 srv ops
  obtain ⟨cops, g1, -, -⟩ := client_run c s0 srv ops
  have hperm := (inv_run s0 cops).perm
  rw [← g1] at hperm
  have hlt := lt_of_get hg
  have hlt' : n < ((World.init s0 srv).run c ops).client.cells.length := by rw [← hl.len, ho, List.length_range]; exact hlt
  obtain ⟨x, hx, hnx⟩ := List.mem_flatMap.1 (hperm.symm.subset (List.mem_range.2 hlt'))
  obtain ⟨i, hi⟩ := List.getElem?_of_mem hx
  obtain ⟨api, hp⟩ := call_prog c s0 srv ops hi
  obtain ⟨q0, hq0⟩ := Web.mem_sentOf.1 hnx
  have hq := (Web.call_asks s0 cops (by rw [← g1]; exact hi) hp).1 n q0 hq0
  subst hq
  obtain ⟨m, k1, k2⟩ := hl.sent i x n _ hi hq0
  rw [ho, List.getElem?_range hlt] at k1
  cases k1
  rw [hg] at k2
  cases k2
  exact ⟨i, x, api, hi, hnx, hp, rfl⟩

/-- C115, partial. When the handlers of the client send no requests of their own, every use the server made of a tool was asked for by one call of the client, with that name
and these arguments, and no call had a tool run twice; and the ids of the requests do not get in each other's way, so that the other theorems about C115 apply. Missing: traffic the
wire format does not carry (C04 to C06, C15), and more than four thousand million requests. -/
theorem C115_calls_partial (c : Cfg D) (s0 : Self D) (srv : Srv D H) (ops : List (Op D H)) (hc : Carried c (World.init s0 srv) ops) (halone : ∀ q, Alone (c.handler q)) :
    let w := (World.init s0 srv).run c ops
    w.client.cells.length < 2 ^ 32 →
      OwnTexts (w.pair.a.given.map (·.id)) ∧
      ∃ L : List (Run D × Nat), w.srv.runs = srv.runs ++ L.map (·.1) ∧ (L.map (·.2)).Nodup ∧
        ∀ run i, (run, i) ∈ L → ∃ x api, w.client.calls[i]? = some x ∧ x.prog = body api ∧ RunFor run (asRequest (question api)) := by
  intro w few
  obtain ⟨ho, hid⟩ := only_world halone s0 srv ops
  have hown : OwnTexts (w.pair.a.given.map (·.id)) := by
    refine own_of_empty (fun i hi => ?_) ?_
    · obtain ⟨g, h1, rfl⟩ := List.mem_map.1 hi
      exact hid g h1
    · have h1 := (link_world c s0 srv ops).len
      have h2 : w.futs.length = w.pair.a.given.length := by rw [show w.futs = _ from ho, List.length_range]
      rw [List.length_map, ← h2, show w.futs.length = _ from h1]
      exact few
  refine ⟨hown, ?_⟩
  obtain ⟨L, h1, h2, h3⟩ := C115_once_partial c s0 srv ops hc hown
  have hex : ∀ e : Run D × Nat, ∃ i : Nat, e ∈ L → ∃ (x : CCall D) (api : Api D), w.client.calls[i]? = some x ∧ e.2 ∈ sentOf x.path ∧ x.prog = body api ∧ RunFor e.1 (asRequest (question api)) := by
    intro e
    by_cases he : e ∈ L
    · obtain ⟨g, g1, g2⟩ := h3 e.1 e.2 he
      obtain ⟨i, x, api, k1, k2, k3, rfl⟩ := given_call halone s0 srv ops g1
      exact ⟨i, fun _ => ⟨x, api, k1, k2, k3, g2⟩⟩
    · exact ⟨0, fun h => absurd h he⟩
  obtain ⟨who, hwho⟩ := Classical.axiomOfChoice hex
  obtain ⟨cops, g1, -, -⟩ := client_run c s0 srv ops
  refine ⟨L.map fun e => (e.1, who e), by rw [List.map_map]; exact h1, ?_, fun run i hm => ?_⟩
  · rw [List.map_map]
    refine List.pairwise_map.2 ((List.pairwise_map.1 h2).imp_of_mem fun {a b} ha hb hab he => hab ?_)
    obtain ⟨x, api, k1, k2, k3, -⟩ := hwho a ha
    obtain ⟨x', api', k1', k2', k3', -⟩ := hwho b hb
    simp only [Function.comp] at he
    rw [he, k1'] at k1
    cases k1
    exact (Web.call_asks s0 cops (by rw [← g1]; exact k1') k3).2 _ _ k2 k2'
  · obtain ⟨e, he, heq⟩ := List.mem_map.1 hm
    cases heq
    obtain ⟨x, api, k1, -, k3, k4⟩ := hwho e he
    exact ⟨x, api, k1, k3, k4⟩

end Verif.Whole
