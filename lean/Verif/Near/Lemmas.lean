import Verif.Near.Model
import Verif.InMemory.DrainProps
import Verif.Whole.OnlyProps

/-! Helper lemmas for C129: what a step of the client, the pair and the server together does to each of them. -/

namespace Verif.Near

open Verif.Await Verif.Client Verif.Server Verif.InMemory
open Verif.Whole (asRequest asking snoc_induction lt_of_get paths_step cells_step cells_other go_quiet go_asks RunFor dispatch_runs own_runs)
open Verif.Stdio (idText)
open Verif.Duplex (get_prefix)

variable {D H : Type} [DblFmt D]

abbrev NOp (D : Type) := InMemory.Op D

theorem run_nil (w : World D H) : w.run [] = w := rfl

theorem run_snoc (w : World D H) (ops : List (Op D H)) (op : Op D H) : w.run (ops ++ [op]) = (w.run ops).step op := by
  simp [World.run, List.foldl_append]

theorem step_dead {w : World D H} (h : w.dead = true) (op : Op D H) : w.step op = w := by
  unfold World.step; rw [if_pos h]

theorem step_alive {w : World D H} (h : w.dead = false) (op : Op D H) : w.step op = w.act op := by
  unfold World.step; rw [if_neg (by rw [h]; decide)]

/-! ### The client -/

/-- What a step does to the client. -/
inductive ClientMove (s : CSys D) : Op D H → CSys D → Prop
  | stay (op : Op D H) : ClientMove s op s
  | call (api : Api D) : ClientMove s (.call api) (s.step (.call (body api)))
  | go (i : Nat) : ClientMove s (.go i) (s.step (.go i))
  | drop (i : Nat) : ClientMove s (.drop i) (s.step (.drop i))
  | change (u : Self D → Self D) : ClientMove s (.change u) (s.step (.change u))
  | fill (c : Nat) (o : Client.Outcome D) : ClientMove s (.deliver c) (s.step (.fill c o))

theorem client_step (w : World D H) (op : Op D H) : ClientMove w.client op (w.step op).client := by
  unfold World.step
  split
  · exact .stay _
  · cases op with
    | call api => exact .call api
    | go i => simp only [World.act, World.go]; split <;> (try split) <;> exact .go i
    | drop i => exact .drop i
    | change u => exact .change u
    | deliver n =>
      simp only [World.act, World.deliver]
      split
      · split
        · exact .fill n _
        · exact .stay _
      · exact .stay _
    | wire op => simp only [World.act]; split <;> exact .stay _
    | serve i env =>
      simp only [World.act, World.serve]
      split
      · exact .stay _
      · split <;> exact .stay _
    | own op => cases op <;> exact .stay _

/-- The client goes through an execution of its own. -/
theorem client_run (s0 : Self D) (srv : Srv D H) (ops : List (Op D H)) :
    ∃ cops, ((World.init s0 srv).run ops).client = (Sys.init s0).run cops ∧
      (∀ b, Await.Op.call b ∈ cops → ∃ api, b = body api ∧ Op.call api ∈ ops) ∧ (∀ u, Await.Op.change u ∈ cops → Op.change u ∈ ops) := by
  induction ops using snoc_induction with
  | h0 => exact ⟨[], rfl, by simp, by simp⟩
  | h1 ops op ih =>
    obtain ⟨cops, h1, h2, h3⟩ := ih
    rw [run_snoc]
    have hm := client_step ((World.init s0 srv).run ops) op
    have more : ∀ cop : COp D, ((((World.init s0 srv).run ops).step op).client = ((World.init s0 srv).run ops).client.step cop) →
        (∀ b, cop = .call b → ∃ api, b = body api ∧ op = .call api) → (∀ u, cop = .change u → op = .change u) →
        ∃ cops, (((World.init s0 srv).run ops).step op).client = (Sys.init s0).run cops ∧
          (∀ b, Await.Op.call b ∈ cops → ∃ api, b = body api ∧ Op.call api ∈ ops ++ [op]) ∧ (∀ u, Await.Op.change u ∈ cops → Op.change u ∈ ops ++ [op]) := by
      intro cop h4 h5 h6
      refine ⟨cops ++ [cop], ?_, ?_, ?_⟩
      · rw [h4, h1, Await.run_append]; rfl
      · intro b hb
        rcases List.mem_append.1 hb with hb | hb
        · obtain ⟨api, h7, h8⟩ := h2 b hb
          exact ⟨api, h7, List.mem_append_left _ h8⟩
        · obtain ⟨api, h7, h8⟩ := h5 b (List.mem_singleton.1 hb).symm
          exact ⟨api, h7, by rw [h8]; simp⟩
      · intro u hu
        rcases List.mem_append.1 hu with hu | hu
        · exact List.mem_append_left _ (h3 u hu)
        · rw [h6 u (List.mem_singleton.1 hu).symm]; simp
    generalize hs : (((World.init s0 srv).run ops).step op).client = s' at hm more
    cases hm with
    | stay =>
      exact ⟨cops, h1, fun b hb => (h2 b hb).imp fun api h => ⟨h.1, List.mem_append_left _ h.2⟩, fun u hu => List.mem_append_left _ (h3 u hu)⟩
    | call api => exact more _ rfl (fun b hb => by cases hb; exact ⟨api, rfl, rfl⟩) (fun u hu => nomatch hu)
    | go i => exact more _ rfl (fun b hb => nomatch hb) (fun u hu => nomatch hu)
    | drop i => exact more _ rfl (fun b hb => nomatch hb) (fun u hu => nomatch hu)
    | change u => exact more _ rfl (fun b hb => nomatch hb) (fun u' hu => by cases hu; rfl)
    | fill n o => exact more _ rfl (fun b hb => nomatch hb) (fun u hu => nomatch hu)

/-! ### The pair goes through an execution of its own -/

/-- The step of the pair that a step of the system is, if any. -/
def netOf (w : World D H) : Op D H → Option (NOp D)
  | .go i =>
    match asking w.client i with
    | some q => if w.client.ub = false ∧ w.client.alive = true then some (.send false (asRequest q)) else none
    | none => none
  | .wire op => if reserved op then none else some op
  | .serve i env =>
    match w.net.b.jobs[i]? with
    | none => none
    | some q => match (dispatch env w.srv q).1 with | .answer r => some (.reply true i (.resp r)) | _ => none
  | _ => none

def netOps (w : World D H) (op : Op D H) : List (NOp D) := if w.dead then [] else (netOf w op).toList

def trace : World D H → List (Op D H) → List (NOp D)
  | _, [] => []
  | w, op :: ops => netOps w op ++ trace (w.step op) ops

theorem trace_snoc (w : World D H) (ops : List (Op D H)) (op : Op D H) : trace w (ops ++ [op]) = trace w ops ++ netOps (w.run ops) op := by
  induction ops generalizing w with
  | nil => simp [trace, run_nil]
  | cons o ops ih => simp only [List.cons_append, trace, ih, List.append_assoc]; rfl

theorem net_step (w : World D H) (op : Op D H) : (w.step op).net = w.net.run (netOps w op) := by
  cases hd : w.dead with
  | true => rw [step_dead hd]; simp [netOps, hd, Net.run]
  | false =>
    rw [step_alive hd]
    simp only [netOps, hd, Bool.false_eq_true, if_false]
    cases op with
    | go i =>
      simp only [World.act, World.go, netOf]
      cases hq : asking w.client i with
      | none => rfl
      | some q => dsimp only; by_cases hs : w.client.ub = false ∧ w.client.alive = true
                  · rw [if_pos hs, if_pos hs]; rfl
                  · rw [if_neg hs, if_neg hs]; rfl
    | deliver n =>
      simp only [World.act, World.deliver, netOf]
      split
      · split <;> rfl
      · rfl
    | wire op => simp only [World.act, netOf]; split <;> rfl
    | serve i env =>
      simp only [World.act, World.serve, netOf]
      cases hj : w.net.b.jobs[i]? with
      | none => rfl
      | some q => dsimp only; cases hr : (dispatch env w.srv q).1 <;> rfl
    | own op => cases op <;> rfl
    | call api => rfl
    | drop i => rfl
    | change u => rfl

/-- The steps of the pair in an execution, with the two starts. -/
def begun (s0 : Self D) (srv : Srv D H) (ops : List (Op D H)) : List (NOp D) := [.start false, .start true] ++ trace (World.init s0 srv) ops

theorem net_world (s0 : Self D) (srv : Srv D H) (ops : List (Op D H)) :
    ((World.init s0 srv).run ops).net = (Net.init true true).run (begun s0 srv ops) := by
  induction ops using snoc_induction with
  | h0 => rfl
  | h1 ops op ih =>
    rw [run_snoc, net_step, ih, begun, begun, trace_snoc]
    simp [Net.run, List.foldl_append]

/-- What the first of two futures is. -/
structure Grows (e e' : Endpoint D) : Prop where
  asked : e.asked <+: e'.asked
  outcomes : e.tab.outcomes <+: e'.tab.outcomes
  answered : e.answered <+: e'.answered

theorem Grows.rfl {e : Endpoint D} : Grows e e := ⟨List.prefix_rfl, List.prefix_rfl, List.prefix_rfl⟩

theorem Grows.same (e e' : Endpoint D) (h1 : e'.asked = e.asked) (h2 : e'.tab.outcomes = e.tab.outcomes) (h3 : e'.answered = e.answered) : Grows e e' :=
  ⟨by rw [h1]; exact List.prefix_rfl, by rw [h2]; exact List.prefix_rfl, by rw [h3]; exact List.prefix_rfl⟩

theorem Grows.trans {a b c : Endpoint D} (h : Grows a b) (h' : Grows b c) : Grows a c :=
  ⟨h.asked.trans h'.asked, h.outcomes.trans h'.outcomes, h.answered.trans h'.answered⟩

theorem complete_grows (t : PTab (InMemory.Outcome D)) (k : Bytes) (o : InMemory.Outcome D) : t.outcomes <+: (t.complete k o).outcomes := by
  unfold PTab.complete; split
  · exact List.prefix_append _ _
  · exact List.prefix_rfl

theorem grows_upd (s : Net D) (x y : Bool) {f : Endpoint D → Endpoint D} (h : ∀ e, Grows e (f e)) : Grows (s.get y) ((s.upd x f).get y) := by
  rw [get_upd]; split
  · exact h _
  · exact .rfl

theorem grows_push (s : Net D) (x y : Bool) (t : Bytes) : Grows (s.get y) ((s.push x t).get y) := by
  rw [get_push]; split
  · exact Grows.same (s.get y) { s.get y with log := (s.get y).log ++ [t] } rfl rfl rfl
  · exact Grows.same (s.get y) { s.get y with queue := (s.get y).queue ++ [t] } rfl rfl rfl

theorem grows_step (s : Net D) (op : NOp D) (y : Bool) : Grows (s.get y) ((s.step op).get y) := by
  cases op with
  | start x => exact grows_upd s x y fun e => .same _ _ rfl rfl rfl
  | closeFlag x => exact grows_upd s x y fun e => .same _ _ rfl rfl rfl
  | closeFail x => exact grows_upd s x y fun e => ⟨List.prefix_rfl, List.prefix_append _ _, List.prefix_rfl⟩
  | send x r =>
    refine grows_upd s x y fun e => ⟨List.prefix_append _ _, ?_, List.prefix_rfl⟩
    simp only [Endpoint.send, PTab.insert]
    split
    · exact List.prefix_append _ _
    · exact List.prefix_rfl
  | deliver x i =>
    simp only [Net.step, Net.deliver]
    split
    · exact .rfl
    · rename_i key r _
      have h1 : Grows (s.get y) ((s.upd x fun e => { e with sending := e.sending.eraseIdx i }).get y) := grows_upd s x y fun e => .same _ _ rfl rfl rfl
      try dsimp only
      split
      · exact h1.trans (grows_push _ _ _ _)
      · exact h1.trans (grows_upd _ _ _ fun e => ⟨List.prefix_rfl, complete_grows _ _ _, List.prefix_rfl⟩)
  | notify x n =>
    simp only [Net.step, Net.notify]
    split
    · exact grows_push _ _ _ _
    · exact grows_upd s x y fun e => .same _ _ rfl rfl rfl
  | pop x =>
    refine grows_upd s x y fun e => ?_
    obtain ⟨-, h2, h3, -⟩ := pop_frame e
    exact ⟨by rw [h2]; exact List.prefix_rfl, by rw [(tab_pop e).1]; exact List.prefix_rfl, by rw [h3]; exact List.prefix_rfl⟩
  | handle x =>
    refine grows_upd s x y fun e => ?_
    obtain ⟨-, h2, h3, -⟩ := handle_frame e
    refine ⟨by rw [h2]; exact List.prefix_rfl, ?_, by rw [h3]; exact List.prefix_rfl⟩
    unfold Endpoint.handle
    split
    · exact List.prefix_rfl
    · dsimp only
      cases eventOf (D := D) e.hasHandler _ with
      | resolve r => exact complete_grows _ _ _
      | _ => exact List.prefix_rfl
  | reply x i out =>
    simp only [Net.step, Net.reply]
    split
    · exact .rfl
    · rename_i req _
      have h1 : Grows (s.get y) ((s.upd x fun e => { e with jobs := e.jobs.eraseIdx i, answered := e.answered ++ [(req, out)] }).get y) :=
        grows_upd s x y fun e => ⟨List.prefix_rfl, List.prefix_rfl, List.prefix_append _ _⟩
      try dsimp only
      split
      · exact h1.trans (grows_push _ _ _ _)
      · exact h1

theorem grows_run (s : Net D) (ops : List (NOp D)) (y : Bool) : Grows (s.get y) ((s.run ops).get y) := by
  induction ops generalizing s with
  | nil => exact .rfl
  | cons op ops ih => exact (grows_step s op y).trans (ih (s.step op))

theorem grows_world (w : World D H) (op : Op D H) (y : Bool) : Grows (w.net.get y) ((w.step op).net.get y) := by
  rw [net_step]; exact grows_run _ _ _

/-- The futures of the requests are numbered. -/
def Numbered (e : Endpoint D) : Prop := e.tab.nextFut = e.asked.length ∧ ∀ (n m : Nat) (r : Request D), e.asked[n]? = some (m, r) → m = n

theorem tab_next (t : PTab (InMemory.Outcome D)) (k : Bytes) (o : InMemory.Outcome D) : (t.complete k o).nextFut = t.nextFut := by
  unfold PTab.complete; split <;> rfl

theorem numbered_same {e e' : Endpoint D} (h : Numbered e) (h1 : e'.tab.nextFut = e.tab.nextFut) (h2 : e'.asked = e.asked) : Numbered e' := by
  unfold Numbered; rw [h1, h2]; exact h

theorem numbered_upd {s : Net D} {y : Bool} (h : Numbered (s.get y)) (x : Bool) {f : Endpoint D → Endpoint D} (hf : ∀ e, Numbered e → Numbered (f e)) :
    Numbered ((s.upd x f).get y) := by
  rw [get_upd]; split
  · exact hf _ h
  · exact h

theorem numbered_push {s : Net D} {y : Bool} (h : Numbered (s.get y)) (x : Bool) (t : Bytes) : Numbered ((s.push x t).get y) := by
  rw [get_push]; split <;> exact h

theorem numbered_step {s : Net D} {y : Bool} (h : Numbered (s.get y)) (op : NOp D) : Numbered ((s.step op).get y) := by
  cases op with
  | start x => exact numbered_upd h x fun e h => h
  | closeFlag x => exact numbered_upd h x fun e h => h
  | closeFail x => exact numbered_upd h x fun e h => h
  | send x r =>
    refine numbered_upd h x fun e h => ⟨?_, fun n m q hn => ?_⟩
    · simp only [Endpoint.send, PTab.insert, List.length_append, List.length_singleton, h.1]
    · have hn : (e.asked ++ [(e.tab.nextFut, _)])[n]? = some (m, q) := hn
      rcases Nat.lt_or_ge n e.asked.length with hl | hl
      · rw [List.getElem?_append_left hl] at hn; exact h.2 n m q hn
      · rw [List.getElem?_append_right hl] at hn
        cases hk : n - e.asked.length with
        | zero => rw [hk] at hn; cases hn; rw [h.1]; omega
        | succ k => rw [hk] at hn; cases hn
  | deliver x i =>
    simp only [Net.step, Net.deliver]
    split
    · exact h
    · rename_i key r _
      have h1 : Numbered ((s.upd x fun e => { e with sending := e.sending.eraseIdx i }).get y) := numbered_upd h x fun e h => h
      try dsimp only
      split
      · exact numbered_push h1 _ _
      · exact numbered_upd h1 _ fun e h => numbered_same h (tab_next _ _ _) rfl
  | notify x n =>
    simp only [Net.step, Net.notify]
    split
    · exact numbered_push h _ _
    · exact numbered_upd h x fun e h => h
  | pop x =>
    refine numbered_upd h x fun e h => ?_
    exact numbered_same h (by rw [(tab_pop e).1]) (pop_frame e).2.1
  | handle x =>
    refine numbered_upd h x fun e h => ?_
    refine numbered_same h ?_ (handle_frame e).2.1
    unfold Endpoint.handle
    split
    · rfl
    · dsimp only
      cases eventOf (D := D) e.hasHandler _ with
      | resolve r => exact tab_next _ _ _
      | _ => rfl
  | reply x i out =>
    simp only [Net.step, Net.reply]
    split
    · exact h
    · rename_i req _
      have h1 : Numbered ((s.upd x fun e => { e with jobs := e.jobs.eraseIdx i, answered := e.answered ++ [(req, out)] }).get y) := numbered_upd h x fun e h => h
      try dsimp only
      split
      · exact numbered_push h1 _ _
      · exact h1

theorem numbered_run {s : Net D} {y : Bool} (h : Numbered (s.get y)) (ops : List (NOp D)) : Numbered ((s.run ops).get y) := by
  induction ops generalizing s with
  | nil => exact h
  | cons op ops ih => exact ih (numbered_step h op)

theorem numbered_world (s0 : Self D) (srv : Srv D H) (ops : List (Op D H)) (y : Bool) : Numbered (((World.init s0 srv).run ops).net.get y) := by
  rw [net_world]
  refine numbered_run ?_ _
  cases y <;> exact ⟨rfl, fun n m r h => nomatch h⟩

/-! ### Calls and their futures -/

/-- The futures of the calls are those of their requests. -/
structure Link (w : World D H) : Prop where
  len : w.futs.length = w.client.cells.length
  sent : ∀ (i : Nat) (x : CCall D) (n : Nat) (q : Req D), w.client.calls[i]? = some x → Ev.sent n q ∈ x.path →
    ∃ m id, w.futs[n]? = some m ∧ w.net.a.asked[m]? = some (m, ⟨id, q.method, q.params⟩)
  cell : ∀ (n : Nat) (o : Client.Outcome D), w.client.cells[n]? = some (some o) →
    ∃ m so, w.futs[n]? = some m ∧ AMap.get w.net.a.tab.outcomes m = some so ∧ o = seen so

theorem get_grows {l l' : List (Nat × InMemory.Outcome D)} (h : l <+: l') {n : Nat} {o : InMemory.Outcome D} (hg : AMap.get l n = some o) : AMap.get l' n = some o := by
  obtain ⟨k, rfl⟩ := h
  induction l with
  | nil => cases hg
  | cons x l ih =>
    simp only [List.cons_append, AMap.get] at hg ⊢
    split
    · rename_i h1; rw [if_pos h1] at hg; exact hg
    · rename_i h1; rw [if_neg h1] at hg; exact ih hg

theorem Link.keep {w w' : World D H} (h : Link w) (hf : w'.futs = w.futs) (hl : w'.client.cells.length = w.client.cells.length)
    (hg : Grows w.net.a w'.net.a)
    (hp : ∀ (j : Nat) (y : CCall D), w'.client.calls[j]? = some y → ∀ (n : Nat) (q : Req D), Ev.sent n q ∈ y.path →
      ∃ z : CCall D, w.client.calls[j]? = some z ∧ Ev.sent n q ∈ z.path)
    (hc : ∀ (n : Nat) (o : Client.Outcome D), w'.client.cells[n]? = some (some o) → w.client.cells[n]? = some (some o) ∨
      ∃ m so, w.futs[n]? = some m ∧ AMap.get w.net.a.tab.outcomes m = some so ∧ o = seen so) : Link w' := by
  refine ⟨by rw [hf, hl]; exact h.len, fun i x n q hx hq => ?_, fun n o hn => ?_⟩
  · obtain ⟨z, h1, h2⟩ := hp i x hx n q hq
    obtain ⟨m, id, h3, h4⟩ := h.sent i z n q h1 h2
    exact ⟨m, id, by rw [hf]; exact h3, get_prefix hg.asked h4⟩
  · rcases hc n o hn with h1 | ⟨m, so, h1, h2, h3⟩
    · obtain ⟨m, so, h1, h2, h3⟩ := h.cell n o h1
      exact ⟨m, so, by rw [hf]; exact h1, get_grows hg.outcomes h2, h3⟩
    · exact ⟨m, so, by rw [hf]; exact h1, get_grows hg.outcomes h2, h3⟩

theorem link_step {w : World D H} (hnum : Numbered w.net.a) (h : Link w) (op : Op D H) : Link (w.step op) := by
  cases hd : w.dead with
  | true => rw [step_dead hd]; exact h
  | false =>
  have hgr : Grows w.net.a (w.step op).net.a := grows_world w op false
  rw [step_alive hd] at hgr ⊢
  have same : ∀ w' : World D H, w'.futs = w.futs → w'.client = w.client → Grows w.net.a w'.net.a → Link w' := by
    intro w' h1 h2 h3
    exact h.keep h1 (by rw [h2]) h3 (fun j y hy n q hq => ⟨y, by rw [← h2]; exact hy, hq⟩) (fun n o hn => .inl (by rw [← h2]; exact hn))
  have hclient : ∀ (w' : World D H) (cop : COp D), (∀ i, cop ≠ .go i) → (∀ n o, cop ≠ .fill n o) → w'.futs = w.futs → w'.client = w.client.step cop →
      Grows w.net.a w'.net.a → Link w' := by
    intro w' cop h0 h0' h1 h2 h3
    refine h.keep h1 (by rw [h2]; exact cells_step _ _ h0) h3 (fun j y hy n q hq => ?_) (fun n o hn => ?_)
    · rw [h2] at hy; exact paths_step _ _ h0 j y hy n q hq
    · rw [h2] at hn
      rcases cells_other _ _ h0 n o hn with h4 | h4
      · exact .inl h4
      · exact absurd h4 (h0' n o)
  have hnf : ∀ (so : InMemory.Outcome D), ∀ k, ∀ i, (Await.Op.fill k (seen so) : COp D) ≠ .go i := fun _ _ _ h => nomatch h
  cases op with
  | call api => exact hclient _ (.call (body api)) (fun i => nofun) (fun n o => nofun) rfl rfl hgr
  | drop i => exact hclient _ (.drop i) (fun i => nofun) (fun n o => nofun) rfl rfl hgr
  | change u => exact hclient _ (.change u) (fun i => nofun) (fun n o => nofun) rfl rfl hgr
  | wire op => revert hgr; simp only [World.act]; split <;> exact fun hgr => same _ rfl rfl hgr
  | serve i env =>
    revert hgr
    simp only [World.act, World.serve]
    split
    · exact fun hgr => same _ rfl rfl hgr
    · split <;> exact fun hgr => same _ rfl rfl hgr
  | own op => revert hgr; cases op <;> simp only [World.act] <;> exact fun hgr => same _ rfl rfl hgr
  | deliver k =>
    revert hgr
    simp only [World.act, World.deliver]
    split
    · rename_i m hm
      split
      · rename_i so hso
        intro hgr
        refine h.keep rfl (cells_step _ _ (hnf so k)) hgr (fun j y hy n q hq => paths_step _ _ (hnf so k) j y hy n q hq) (fun n o hn => ?_)
        rcases cells_other _ _ (hnf so k) n o hn with h4 | h4
        · exact .inl h4
        · cases h4; exact .inr ⟨m, so, hm, hso, rfl⟩
      · exact fun hgr => same _ rfl rfl hgr
    · exact fun hgr => same _ rfl rfl hgr
  | go i =>
    revert hgr
    simp only [World.act, World.go]
    have quiet : (asking w.client i = none ∨ ¬ (w.client.ub = false ∧ w.client.alive = true)) → Grows w.net.a w.net.a →
        Link ({ w with client := w.client.step (.go i) } : World D H) := by
      intro hq hgr
      obtain ⟨h1, h2⟩ := go_quiet w.client i hq
      exact h.keep rfl (by rw [h1]) hgr h2 (fun n o hn => .inl (by rw [← h1]; exact hn))
    split
    · rename_i q hq
      split
      · rename_i hs
        intro hgr
        obtain ⟨h1, h2⟩ := go_asks w.client i q hq hs
        refine ⟨?_, fun j y n q' hy hq' => ?_, fun n o hn => ?_⟩
        · simp only [List.length_append, h1, h.len]; rfl
        · rcases h2 j y hy n q' hq' with ⟨rfl, rfl⟩ | ⟨z, h3, h4⟩
          · refine ⟨w.net.a.tab.nextFut, (chooseId (.str []) w.net.a.counter).1, ?_, ?_⟩
            · rw [← h.len]; simp
            · show (w.net.a.asked ++ [(w.net.a.tab.nextFut, _)])[w.net.a.tab.nextFut]? = _
              rw [hnum.1]
              simp [asRequest]
          · obtain ⟨m, id, h5, h6⟩ := h.sent j z n q' h3 h4
            exact ⟨m, id, get_prefix (List.prefix_append _ _) h5, get_prefix hgr.asked h6⟩
        · rw [show ({ w with client := w.client.step (.go i), futs := w.futs ++ [w.net.a.tab.nextFut], net := w.net.step (.send false (asRequest q)) } :
              World D H).client.cells = _ from h1] at hn
          have hn' : w.client.cells[n]? = some (some o) := by
            rcases Nat.lt_or_ge n w.client.cells.length with hl | hl
            · rwa [List.getElem?_append_left hl] at hn
            · rw [List.getElem?_append_right hl] at hn
              cases hk : n - w.client.cells.length with
              | zero => rw [hk] at hn; cases hn
              | succ k => rw [hk] at hn; cases hn
          obtain ⟨m, so, h5, h6, h7⟩ := h.cell n o hn'
          exact ⟨m, so, get_prefix (List.prefix_append _ _) h5, get_grows hgr.outcomes h6, h7⟩
      · rename_i hs; exact quiet (.inr hs)
    · rename_i hq; exact quiet (.inl hq)

theorem link_world (s0 : Self D) (srv : Srv D H) (ops : List (Op D H)) : Link ((World.init s0 srv).run ops) := by
  induction ops using snoc_induction with
  | h0 => exact ⟨rfl, fun i x n q hx => (nomatch hx), fun n o hn => (nomatch hn)⟩
  | h1 ops op ih => rw [run_snoc]; exact link_step (numbered_world s0 srv ops false) ih op

/-! ### The pair of the client carries the requests of its calls and no others -/

theorem only_step (w : World D H) (op : Op D H) :
    ((w.step op).futs = w.futs ∧ ∀ nop ∈ netOps w op, ∀ r, nop ≠ .send false r) ∨
    ∃ q, (w.step op).futs = w.futs ++ [w.net.a.tab.nextFut] ∧ netOps w op = [.send false (asRequest q)] := by
  cases hd : w.dead with
  | true => rw [step_dead hd]; exact .inl ⟨rfl, by simp [netOps, hd]⟩
  | false =>
    rw [step_alive hd]
    simp only [netOps, hd, Bool.false_eq_true, if_false]
    cases op with
    | go i =>
      simp only [World.act, World.go, netOf]
      cases hq : asking w.client i with
      | none => exact .inl ⟨rfl, fun _ h => nomatch h⟩
      | some q =>
        try dsimp only
        by_cases hs : w.client.ub = false ∧ w.client.alive = true
        · rw [if_pos hs, if_pos hs]; exact .inr ⟨q, rfl, rfl⟩
        · rw [if_neg hs, if_neg hs]; exact .inl ⟨rfl, fun _ h => nomatch h⟩
    | deliver n =>
      simp only [World.act, World.deliver, netOf]
      left
      split
      · split <;> exact ⟨rfl, fun _ h => nomatch h⟩
      · exact ⟨rfl, fun _ h => nomatch h⟩
    | wire op =>
      simp only [World.act, netOf]
      left
      split
      · exact ⟨rfl, fun _ h => nomatch h⟩
      · rename_i hr
        refine ⟨rfl, fun nop h r e => ?_⟩
        have h := List.mem_singleton.1 h
        subst h
        subst e
        exact hr rfl
    | serve i env =>
      simp only [World.act, World.serve, netOf]
      left
      cases hj : w.net.b.jobs[i]? with
      | none => exact ⟨rfl, fun _ h => nomatch h⟩
      | some q =>
        try dsimp only
        cases hr : (dispatch env w.srv q).1 with
        | answer a =>
          refine ⟨rfl, fun nop h r e => ?_⟩
          have h := List.mem_singleton.1 h
          subst h
          cases e
        | _ => exact ⟨rfl, fun _ h => nomatch h⟩
    | own op => left; cases op <;> exact ⟨rfl, fun _ h => nomatch h⟩
    | call api => exact .inl ⟨rfl, fun _ h => nomatch h⟩
    | drop i => exact .inl ⟨rfl, fun _ h => nomatch h⟩
    | change u => exact .inl ⟨rfl, fun _ h => nomatch h⟩

theorem asked_other (s : Net D) (ops : List (NOp D)) (h : ∀ nop ∈ ops, ∀ r, nop ≠ .send false r) :
    (s.run ops).a.asked = s.a.asked := by
  induction ops generalizing s with
  | nil => rfl
  | cons op ops ih =>
    have h1 := ih (s.step op) fun nop hn => h nop (List.mem_cons_of_mem _ hn)
    exact h1.trans (step_ids s op false fun r => h op (List.mem_cons_self ..) r).2.2

/-- The futures of the calls are all those of the transport, and none of the ids was given by the caller. -/
theorem only_world (s0 : Self D) (srv : Srv D H) (ops : List (Op D H)) :
    ((World.init s0 srv).run ops).futs = List.range ((World.init s0 srv).run ops).net.a.asked.length ∧
      (begun s0 srv ops).filterMap (givenId false) = [] ∧ (begun s0 srv ops).countP (sendsOn false) = ((World.init s0 srv).run ops).futs.length := by
  induction ops using snoc_induction with
  | h0 => exact ⟨rfl, rfl, rfl⟩
  | h1 ops op ih =>
    obtain ⟨h1, h2, h3⟩ := ih
    have hnum := numbered_world s0 srv ops false
    rw [run_snoc]
    have hb : begun s0 srv (ops ++ [op]) = begun s0 srv ops ++ netOps ((World.init s0 srv).run ops) op := by
      simp only [begun, trace_snoc, List.append_assoc]
    rw [hb, List.filterMap_append, List.countP_append, h2, h3, net_step]
    generalize (World.init s0 srv).run ops = w at *
    rcases only_step w op with ⟨g1, g2⟩ | ⟨q, g1, g2⟩
    · refine ⟨by rw [g1, h1, asked_other _ _ g2], ?_, ?_⟩
      · rw [List.nil_append]
        refine List.filterMap_eq_nil_iff.2 fun nop hn => ?_
        cases nop with
        | send x r => cases x with
          | false => exact absurd rfl (g2 _ hn r)
          | true => simp [givenId]
        | _ => rfl
      · rw [g1]
        have : (netOps w op).countP (sendsOn false) = 0 := by
          refine List.countP_eq_zero.2 fun nop hn => ?_
          cases nop with
          | send x r => cases x with
            | false => exact absurd rfl (g2 _ hn r)
            | true => simp [sendsOn]
          | _ => simp [sendsOn]
        omega
    · rw [g2, g1]
      refine ⟨?_, by simp [givenId, asRequest, idText], by simp [sendsOn]⟩
      show _ = List.range (w.net.a.asked ++ [_]).length
      rw [List.length_append, List.length_singleton, List.range_succ, h1]
      have := hnum.1
      rw [show w.net.a.tab.nextFut = _ from this]
      rfl

theorem ownIds_world (s0 : Self D) (srv : Srv D H) (ops : List (Op D H)) (few : ((World.init s0 srv).run ops).client.cells.length < 2 ^ 32) :
    InMemory.OwnIds false (begun s0 srv ops) := by
  obtain ⟨-, h2, h3⟩ := only_world s0 srv ops
  refine ⟨by rw [h2]; exact List.nodup_nil, fun k hk => ?_, by rw [h3, (link_world s0 srv ops).len]; exact few⟩
  rw [h2] at hk; cases hk

/-! ### The answers of the server -/

/-- With the step at this place of the execution the server dispatched this request, in the state it was in, with this answer. -/
def DispatchedAt (w : World D H) (ops : List (Op D H)) (p : Nat) (q : Request D) (env : Env D H) (srv : Srv D H) (r : Response D) : Prop :=
  ∃ i, ops[p]? = some (.serve i env) ∧ (w.run (ops.take p)).net.b.jobs[i]? = some q ∧ (w.run (ops.take p)).srv = srv ∧
    (w.run (ops.take p)).dead = false ∧ (dispatch env srv q).1 = .answer r

theorem DispatchedAt.more {w : World D H} {ops : List (Op D H)} {p : Nat} {q : Request D} {env : Env D H} {srv : Srv D H} {r : Response D}
    (h : DispatchedAt w ops p q env srv r) (op : Op D H) : DispatchedAt w (ops ++ [op]) p q env srv r := by
  obtain ⟨i, h1, h2⟩ := h
  have hl := lt_of_get h1
  refine ⟨i, by rw [List.getElem?_append_left hl]; exact h1, ?_⟩
  rw [List.take_append_of_le_length (Nat.le_of_lt hl)]
  exact h2

theorem dispatched_last {w : World D H} {ops : List (Op D H)} {i : Nat} {env : Env D H} {q : Request D} {r : Response D}
    (hj : (w.run ops).net.b.jobs[i]? = some q) (hd : (w.run ops).dead = false) (hr : (dispatch env (w.run ops).srv q).1 = .answer r) :
    DispatchedAt w (ops ++ [.serve i env]) ops.length q env (w.run ops).srv r := by
  have ht : (ops ++ [Op.serve i env]).take ops.length = ops := by simp
  refine ⟨i, by simp, ?_⟩
  rw [ht]
  exact ⟨hj, rfl, hd, hr⟩

theorem answered_upd (s : Net D) (x : Bool) {f : Endpoint D → Endpoint D} (h : ∀ e, (f e).answered = e.answered ∧ ∀ q ∈ e.jobs, q ∈ (f e).jobs) :
    (s.upd x f).b.answered = s.b.answered ∧ ∀ q ∈ s.b.jobs, q ∈ (s.upd x f).b.jobs := by
  cases x
  · exact ⟨rfl, fun _ h => h⟩
  · exact h s.b

theorem answered_push (s : Net D) (x : Bool) (t : Bytes) : (s.push x t).b.answered = s.b.answered ∧ (s.push x t).b.jobs = s.b.jobs := by
  cases x <;> exact ⟨rfl, rfl⟩

/-- The handlers of the server's side end in `reply` alone. -/
theorem answered_other (s : Net D) (op : NOp D) (h : ∀ i o, op ≠ .reply true i o) :
    (s.step op).b.answered = s.b.answered ∧ ∀ q ∈ s.b.jobs, q ∈ (s.step op).b.jobs := by
  cases op with
  | start x => exact answered_upd s x fun e => ⟨rfl, fun _ h => h⟩
  | closeFlag x => exact answered_upd s x fun e => ⟨rfl, fun _ h => h⟩
  | closeFail x => exact answered_upd s x fun e => ⟨rfl, fun _ h => h⟩
  | send x r => exact answered_upd s x fun e => ⟨rfl, fun _ h => h⟩
  | deliver x i =>
    simp only [Net.step, Net.deliver]
    split
    · exact ⟨rfl, fun _ h => h⟩
    · rename_i key r _
      obtain ⟨h1, h2⟩ := answered_upd s x (f := fun e => { e with sending := e.sending.eraseIdx i }) fun e => ⟨rfl, fun _ h => h⟩
      try dsimp only
      split
      · obtain ⟨h3, h4⟩ := answered_push (s.upd x fun e => { e with sending := e.sending.eraseIdx i }) x (serRequest r)
        exact ⟨h3.trans h1, fun q hq => by rw [h4]; exact h2 q hq⟩
      · obtain ⟨h3, h4⟩ := answered_upd (s.upd x fun e => { e with sending := e.sending.eraseIdx i }) x (f := fun e => { e with tab := e.tab.complete key (.peerGone r.id) })
          fun e => ⟨rfl, fun _ h => h⟩
        exact ⟨h3.trans h1, fun q hq => h4 q (h2 q hq)⟩
  | notify x n =>
    simp only [Net.step, Net.notify]
    split
    · obtain ⟨h3, h4⟩ := answered_push s x (serNotification n)
      exact ⟨h3, fun q hq => by rw [h4]; exact hq⟩
    · exact answered_upd s x fun e => ⟨rfl, fun _ h => h⟩
  | pop x =>
    refine answered_upd s x fun e => ⟨(pop_frame e).2.2.1, fun q hq => ?_⟩
    unfold Endpoint.pop
    split
    · split <;> exact hq
    · exact hq
  | handle x =>
    refine answered_upd s x fun e => ⟨(handle_frame e).2.2.1, fun q hq => ?_⟩
    unfold Endpoint.handle
    split
    · exact hq
    · exact (apply_keys e _).2.2.2.1 q hq
  | reply x i out =>
    cases x with
    | true => exact absurd rfl (h i out)
    | false =>
      simp only [Net.step, Net.reply]
      split
      · exact ⟨rfl, fun _ h => h⟩
      · split <;> exact ⟨rfl, fun _ h => h⟩

theorem reply_b (s : Net D) (i : Nat) (o : HandlerOutcome D) {q : Request D} (h : s.b.jobs[i]? = some q) :
    (s.step (.reply true i o)).b.answered = s.b.answered ++ [(q, o)] ∧ (s.step (.reply true i o)).b.jobs = s.b.jobs.eraseIdx i := by
  simp only [Net.step, Net.reply]
  rw [show (s.get true).jobs[i]? = some q from h]
  try dsimp only
  split <;> exact ⟨rfl, rfl⟩

/-- The answers of the server are changed by `serve` alone. -/
theorem answered_step (w : World D H) (op : Op D H) : (w.step op).net.b.answered = w.net.b.answered ∨
    ∃ i env q r, op = .serve i env ∧ w.dead = false ∧ w.net.b.jobs[i]? = some q ∧ (dispatch env w.srv q).1 = .answer r ∧
      (w.step op).srv = (dispatch env w.srv q).2 ∧ (w.step op).dead = false ∧ (w.step op).net.b.answered = w.net.b.answered ++ [(q, .resp r)] := by
  cases hd : w.dead with
  | true => rw [step_dead hd]; exact .inl rfl
  | false =>
    rw [step_alive hd]
    cases op with
    | call api => exact .inl rfl
    | drop i => exact .inl rfl
    | change u => exact .inl rfl
    | go i =>
      simp only [World.act, World.go]
      split
      · split <;> exact .inl rfl
      · exact .inl rfl
    | deliver n =>
      simp only [World.act, World.deliver]
      split
      · split <;> exact .inl rfl
      · exact .inl rfl
    | wire op =>
      simp only [World.act]
      split
      · exact .inl rfl
      · rename_i hr
        exact .inl (answered_other w.net op fun i o e => hr (by rw [e]; rfl)).1
    | own op => left; cases op <;> rfl
    | serve i env =>
      simp only [World.act, World.serve]
      split
      · exact .inl rfl
      · rename_i q hq
        split
        · rename_i r hr
          exact .inr ⟨i, env, q, r, rfl, trivial, hq, hr, rfl, hd, (reply_b w.net i _ hq).1⟩
        · exact .inl rfl
        · exact .inl rfl

theorem answered_world (s0 : Self D) (srv : Srv D H) (ops : List (Op D H)) (q : Request D) (o : HandlerOutcome D)
    (h : (q, o) ∈ ((World.init s0 srv).run ops).net.b.answered) : ∃ p env σ r, o = .resp r ∧ DispatchedAt (World.init s0 srv) ops p q env σ r := by
  induction ops using snoc_induction with
  | h0 => cases h
  | h1 ops op ih =>
    rw [run_snoc] at h
    rcases answered_step ((World.init s0 srv).run ops) op with h1 | ⟨i, env, q', r, rfl, h1, h2, h3, -, -, h4⟩
    · rw [h1] at h
      obtain ⟨p, env, σ, r, h2, h3⟩ := ih h
      exact ⟨p, env, σ, r, h2, h3.more op⟩
    · rw [h4] at h
      rcases List.mem_append.1 h with h | h
      · obtain ⟨p, env', σ, r, h2, h3⟩ := ih h
        exact ⟨p, env', σ, r, h2, h3.more _⟩
      · cases List.mem_singleton.1 h
        exact ⟨ops.length, env, _, r, rfl, dispatched_last h2 h1 h3⟩

/-! ### The tools the server ran -/

/-- A use of a tool comes with the answer to its request, or with the end of the process. -/
theorem runs_step (w : World D H) (op : Op D H) :
    (w.step op).srv.runs = w.srv.runs ∨
    ∃ (i : Nat) (q : Request D) (run : Run D), w.dead = false ∧ w.net.b.jobs[i]? = some q ∧ RunFor run q ∧ (w.step op).srv.runs = w.srv.runs ++ [run] ∧
      (((w.step op).dead = false ∧ ∃ r, (w.step op).net.b.answered = w.net.b.answered ++ [(q, r)]) ∨ ((w.step op).net = w.net ∧ (w.step op).dead = true)) := by
  cases hd : w.dead with
  | true => rw [step_dead hd]; exact .inl rfl
  | false =>
    rw [step_alive hd]
    cases op with
    | call api => exact .inl rfl
    | drop i => exact .inl rfl
    | change u => exact .inl rfl
    | go i =>
      simp only [World.act, World.go]
      split
      · split <;> exact .inl rfl
      · exact .inl rfl
    | deliver n =>
      simp only [World.act, World.deliver]
      split
      · split <;> exact .inl rfl
      · exact .inl rfl
    | wire op => simp only [World.act]; split <;> exact .inl rfl
    | own op =>
      left
      cases op with
      | request env q => rfl
      | _ => exact own_runs _ _ (fun _ _ h => nomatch h)
    | serve i env =>
      simp only [World.act, World.serve]
      split
      · exact .inl rfl
      · rename_i q hq
        rcases dispatch_runs env w.srv q with h1 | ⟨run, h1, h2⟩
        · left
          split
          · exact h1
          · exact h1
          · rfl
        · split
          · exact .inr ⟨i, q, run, trivial, hq, h1, h2, .inl ⟨hd, _, (reply_b w.net i _ hq).1⟩⟩
          · exact .inr ⟨i, q, run, trivial, hq, h1, h2, .inr ⟨rfl, rfl⟩⟩
          · exact .inl rfl

theorem dead_step (w : World D H) (op : Op D H) (h : w.dead = true) : (w.step op).dead = true := by rw [step_dead h]; exact h

/-- The uses of tools belong to different requests that came to the server. -/
theorem runs_world (s0 : Self D) (srv : Srv D H) (ops : List (Op D H)) :
    let w := (World.init s0 srv).run ops
    ∃ L : List (Run D × Request D), w.srv.runs = srv.runs ++ L.map (·.1) ∧ (∀ e ∈ L, RunFor e.1 e.2) ∧
      ((L.map (·.2)).Sublist (w.net.b.answered.map (·.1)) ∨ (w.dead = true ∧ ∃ (i : Nat) (q : Request D), w.net.b.jobs[i]? = some q ∧ (L.map (·.2)).Sublist (w.net.b.answered.map (·.1) ++ [q]))) := by
  induction ops using snoc_induction with
  | h0 => exact ⟨[], by simp [World.init, run_nil], (fun e he => nomatch he), .inl (List.nil_sublist _)⟩
  | h1 ops op ih =>
    obtain ⟨L, h1, h2, h3⟩ := ih
    rw [run_snoc]
    generalize (World.init s0 srv).run ops = w at *
    cases hd : w.dead with
    | true => rw [step_dead hd]; exact ⟨L, h1, h2, h3⟩
    | false =>
      have h3 : (L.map (·.2)).Sublist (w.net.b.answered.map (·.1)) := by
        rcases h3 with h3 | ⟨h3, -⟩
        · exact h3
        · rw [hd] at h3; cases h3
      have hgr : Grows w.net.b (w.step op).net.b := grows_world w op true
      rcases runs_step w op with g1 | ⟨i, q, run, g1, g2, g3, g4, g5⟩
      · exact ⟨L, by rw [g1]; exact h1, h2, .inl (h3.trans (hgr.answered.sublist.map _))⟩
      · refine ⟨L ++ [(run, q)], by rw [g4, h1]; simp, fun e he => ?_, ?_⟩
        · rcases List.mem_append.1 he with he | he
          · exact h2 e he
          · cases List.mem_singleton.1 he; exact g3
        · rw [List.map_append]
          rcases g5 with ⟨-, r, g5⟩ | ⟨g5, g6⟩
          · left; rw [g5, List.map_append]
            exact h3.append (List.Sublist.refl _)
          · right
            refine ⟨g6, i, q, by rw [g5]; exact g2, ?_⟩
            rw [g5]
            exact h3.append (List.Sublist.refl _)

end Verif.Near
