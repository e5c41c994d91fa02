import Verif.Ask.Calls

/-! Helper lemmas for C130: what a step of the server, the pair and the client together does to each of them. -/

namespace Verif.Ask

open Verif.Await Verif.Client Verif.Server Verif.InMemory
open Verif.Whole (snoc_induction lt_of_get)
open Verif.Near (NOp seen reserved Grows grows_run Numbered numbered_run get_grows asked_other answered_other reply_b)
open Verif.Stdio (idText)
open Verif.Duplex (get_prefix)

variable {D H : Type} [DblFmt D]

theorem run_nil (w : World D H) : w.run [] = w := rfl

theorem run_snoc (w : World D H) (ops : List (Op D H)) (op : Op D H) : w.run (ops ++ [op]) = (w.run ops).step op := by
  simp [World.run, List.foldl_append]

theorem step_dead {w : World D H} (h : w.dead = true) (op : Op D H) : w.step op = w := by
  unfold World.step; rw [if_pos h]

theorem step_alive {w : World D H} (h : w.dead = false) (op : Op D H) : w.step op = w.act op := by
  unfold World.step; rw [if_neg (by rw [h]; decide)]

/-! ### The calls of the server -/

/-- What a step does to the client. -/
inductive ServerMove (s : SSys D) : Op D H → SSys D → Prop
  | stay (op : Op D H) : ServerMove s op s
  | call (api : SApi D) : ServerMove s (.call api) (s.step (.call (sbody api)))
  | go (i : Nat) : ServerMove s (.go i) (s.step (.go i))
  | drop (i : Nat) : ServerMove s (.drop i) (s.step (.drop i))
  | change (u : SSelf D → SSelf D) : ServerMove s (.change u) (s.step (.change u))
  | fill (c : Nat) (o : Client.Outcome D) : ServerMove s (.deliver c) (s.step (.fill c o))

theorem server_step (w : World D H) (op : Op D H) : ServerMove w.server op (w.step op).server := by
  unfold World.step
  split
  · exact .stay _
  · cases op with
    | call api => exact .call api
    | go i => simp only [World.act, World.go]; split <;> (try split) <;> exact .go i
    | drop i => exact .drop i
    | change u => exact .change u
    | deliver n =>
      simp only [World.act, World.deliver]
      split
      · split
        · exact .fill n _
        · exact .stay _
      · exact .stay _
    | wire op => simp only [World.act]; split <;> exact .stay _
    | serve i env =>
      simp only [World.act, World.serve]
      split
      · exact .stay _
      · split <;> exact .stay _
    | own op => cases op <;> exact .stay _

/-- The client goes through an execution of its own. -/
theorem server_run (s0 : SSelf D) (cli : Cli D H) (ops : List (Op D H)) :
    ∃ cops, ((World.init s0 cli).run ops).server = (Sys.init s0).run cops ∧
      (∀ b, Await.Op.call b ∈ cops → ∃ api, b = sbody api ∧ Op.call api ∈ ops) ∧ (∀ u, Await.Op.change u ∈ cops → Op.change u ∈ ops) := by
  induction ops using snoc_induction with
  | h0 => exact ⟨[], rfl, by simp, by simp⟩
  | h1 ops op ih =>
    obtain ⟨cops, h1, h2, h3⟩ := ih
    rw [run_snoc]
    have hm := server_step ((World.init s0 cli).run ops) op
    have more : ∀ cop : SOp D, ((((World.init s0 cli).run ops).step op).server = ((World.init s0 cli).run ops).server.step cop) →
        (∀ b, cop = .call b → ∃ api, b = sbody api ∧ op = .call api) → (∀ u, cop = .change u → op = .change u) →
        ∃ cops, (((World.init s0 cli).run ops).step op).server = (Sys.init s0).run cops ∧
          (∀ b, Await.Op.call b ∈ cops → ∃ api, b = sbody api ∧ Op.call api ∈ ops ++ [op]) ∧ (∀ u, Await.Op.change u ∈ cops → Op.change u ∈ ops ++ [op]) := by
      intro cop h4 h5 h6
      refine ⟨cops ++ [cop], ?_, ?_, ?_⟩
      · rw [h4, h1, Await.run_append]; rfl
      · intro b hb
        rcases List.mem_append.1 hb with hb | hb
        · obtain ⟨api, h7, h8⟩ := h2 b hb
          exact ⟨api, h7, List.mem_append_left _ h8⟩
        · obtain ⟨api, h7, h8⟩ := h5 b (List.mem_singleton.1 hb).symm
          exact ⟨api, h7, by rw [h8]; simp⟩
      · intro u hu
        rcases List.mem_append.1 hu with hu | hu
        · exact List.mem_append_left _ (h3 u hu)
        · rw [h6 u (List.mem_singleton.1 hu).symm]; simp
    generalize hs : (((World.init s0 cli).run ops).step op).server = s' at hm more
    cases hm with
    | stay =>
      exact ⟨cops, h1, fun b hb => (h2 b hb).imp fun api h => ⟨h.1, List.mem_append_left _ h.2⟩, fun u hu => List.mem_append_left _ (h3 u hu)⟩
    | call api => exact more _ rfl (fun b hb => by cases hb; exact ⟨api, rfl, rfl⟩) (fun u hu => nomatch hu)
    | go i => exact more _ rfl (fun b hb => nomatch hb) (fun u hu => nomatch hu)
    | drop i => exact more _ rfl (fun b hb => nomatch hb) (fun u hu => nomatch hu)
    | change u => exact more _ rfl (fun b hb => nomatch hb) (fun u' hu => by cases hu; rfl)
    | fill n o => exact more _ rfl (fun b hb => nomatch hb) (fun u hu => nomatch hu)

/-! ### The pair goes through an execution of its own -/

/-- The step of the pair that a step of the system is, if any. -/
def netOf (w : World D H) : Op D H → Option (NOp D)
  | .go i =>
    match asking w.server i with
    | some q => if w.server.ub = false ∧ w.server.alive = true then some (.send false (asRequest q)) else none
    | none => none
  | .wire op => if reserved op then none else some op
  | .serve i env =>
    match w.net.b.jobs[i]? with
    | none => none
    | some q => match (onRequest env w.cli q).1 with | .answer r => some (.reply true i (.resp r)) | _ => none
  | _ => none

def netOps (w : World D H) (op : Op D H) : List (NOp D) := if w.dead then [] else (netOf w op).toList

def trace : World D H → List (Op D H) → List (NOp D)
  | _, [] => []
  | w, op :: ops => netOps w op ++ trace (w.step op) ops

theorem trace_snoc (w : World D H) (ops : List (Op D H)) (op : Op D H) : trace w (ops ++ [op]) = trace w ops ++ netOps (w.run ops) op := by
  induction ops generalizing w with
  | nil => simp [trace, run_nil]
  | cons o ops ih => simp only [List.cons_append, trace, ih, List.append_assoc]; rfl

theorem net_step (w : World D H) (op : Op D H) : (w.step op).net = w.net.run (netOps w op) := by
  cases hd : w.dead with
  | true => rw [step_dead hd]; simp [netOps, hd, Net.run]
  | false =>
    rw [step_alive hd]
    simp only [netOps, hd, Bool.false_eq_true, if_false]
    cases op with
    | go i =>
      simp only [World.act, World.go, netOf]
      cases hq : asking w.server i with
      | none => rfl
      | some q => dsimp only; by_cases hs : w.server.ub = false ∧ w.server.alive = true
                  · rw [if_pos hs, if_pos hs]; rfl
                  · rw [if_neg hs, if_neg hs]; rfl
    | deliver n =>
      simp only [World.act, World.deliver, netOf]
      split
      · split <;> rfl
      · rfl
    | wire op => simp only [World.act, netOf]; split <;> rfl
    | serve i env =>
      simp only [World.act, World.serve, netOf]
      cases hj : w.net.b.jobs[i]? with
      | none => rfl
      | some q => dsimp only; cases hr : (onRequest env w.cli q).1 <;> rfl
    | own op => cases op <;> rfl
    | call api => rfl
    | drop i => rfl
    | change u => rfl

/-- The steps of the pair in an execution, with the two starts. -/
def begun (s0 : SSelf D) (cli : Cli D H) (ops : List (Op D H)) : List (NOp D) := [.start false, .start true] ++ trace (World.init s0 cli) ops

theorem net_world (s0 : SSelf D) (cli : Cli D H) (ops : List (Op D H)) :
    ((World.init s0 cli).run ops).net = (Net.init true true).run (begun s0 cli ops) := by
  induction ops using snoc_induction with
  | h0 => rfl
  | h1 ops op ih =>
    rw [run_snoc, net_step, ih, begun, begun, trace_snoc]
    simp [Net.run, List.foldl_append]

theorem grows_world (w : World D H) (op : Op D H) (y : Bool) : Grows (w.net.get y) ((w.step op).net.get y) := by
  rw [net_step]; exact grows_run _ _ _

theorem numbered_world (s0 : SSelf D) (cli : Cli D H) (ops : List (Op D H)) (y : Bool) : Numbered (((World.init s0 cli).run ops).net.get y) := by
  rw [net_world]
  refine numbered_run ?_ _
  cases y <;> exact ⟨rfl, fun n m r h => nomatch h⟩

/-! ### Calls and their futures -/

/-- The futures of the calls are those of their requests. -/
structure Link (w : World D H) : Prop where
  len : w.futs.length = w.server.cells.length
  sent : ∀ (i : Nat) (x : SCall D) (n : Nat) (q : SReq D), w.server.calls[i]? = some x → Ev.sent n q ∈ x.path →
    ∃ m id, w.futs[n]? = some m ∧ w.net.a.asked[m]? = some (m, ⟨id, q.method, q.params⟩)
  cell : ∀ (n : Nat) (o : Client.Outcome D), w.server.cells[n]? = some (some o) →
    ∃ m so, w.futs[n]? = some m ∧ AMap.get w.net.a.tab.outcomes m = some so ∧ o = seen so

theorem Link.keep {w w' : World D H} (h : Link w) (hf : w'.futs = w.futs) (hl : w'.server.cells.length = w.server.cells.length)
    (hg : Grows w.net.a w'.net.a)
    (hp : ∀ (j : Nat) (y : SCall D), w'.server.calls[j]? = some y → ∀ (n : Nat) (q : SReq D), Ev.sent n q ∈ y.path →
      ∃ z : SCall D, w.server.calls[j]? = some z ∧ Ev.sent n q ∈ z.path)
    (hc : ∀ (n : Nat) (o : Client.Outcome D), w'.server.cells[n]? = some (some o) → w.server.cells[n]? = some (some o) ∨
      ∃ m so, w.futs[n]? = some m ∧ AMap.get w.net.a.tab.outcomes m = some so ∧ o = seen so) : Link w' := by
  refine ⟨by rw [hf, hl]; exact h.len, fun i x n q hx hq => ?_, fun n o hn => ?_⟩
  · obtain ⟨z, h1, h2⟩ := hp i x hx n q hq
    obtain ⟨m, id, h3, h4⟩ := h.sent i z n q h1 h2
    exact ⟨m, id, by rw [hf]; exact h3, get_prefix hg.asked h4⟩
  · rcases hc n o hn with h1 | ⟨m, so, h1, h2, h3⟩
    · obtain ⟨m, so, h1, h2, h3⟩ := h.cell n o h1
      exact ⟨m, so, by rw [hf]; exact h1, get_grows hg.outcomes h2, h3⟩
    · exact ⟨m, so, by rw [hf]; exact h1, get_grows hg.outcomes h2, h3⟩

theorem link_step {w : World D H} (hnum : Numbered w.net.a) (h : Link w) (op : Op D H) : Link (w.step op) := by
  cases hd : w.dead with
  | true => rw [step_dead hd]; exact h
  | false =>
  have hgr : Grows w.net.a (w.step op).net.a := grows_world w op false
  rw [step_alive hd] at hgr ⊢
  have same : ∀ w' : World D H, w'.futs = w.futs → w'.server = w.server → Grows w.net.a w'.net.a → Link w' := by
    intro w' h1 h2 h3
    exact h.keep h1 (by rw [h2]) h3 (fun j y hy n q hq => ⟨y, by rw [← h2]; exact hy, hq⟩) (fun n o hn => .inl (by rw [← h2]; exact hn))
  have hclient : ∀ (w' : World D H) (cop : SOp D), (∀ i, cop ≠ .go i) → (∀ n o, cop ≠ .fill n o) → w'.futs = w.futs → w'.server = w.server.step cop →
      Grows w.net.a w'.net.a → Link w' := by
    intro w' cop h0 h0' h1 h2 h3
    refine h.keep h1 (by rw [h2]; exact cells_step _ _ h0) h3 (fun j y hy n q hq => ?_) (fun n o hn => ?_)
    · rw [h2] at hy; exact paths_step _ _ h0 j y hy n q hq
    · rw [h2] at hn
      rcases cells_other _ _ h0 n o hn with h4 | h4
      · exact .inl h4
      · exact absurd h4 (h0' n o)
  have hnf : ∀ (so : InMemory.Outcome D), ∀ k, ∀ i, (Await.Op.fill k (seen so) : SOp D) ≠ .go i := fun _ _ _ h => nomatch h
  cases op with
  | call api => exact hclient _ (.call (sbody api)) (fun i => nofun) (fun n o => nofun) rfl rfl hgr
  | drop i => exact hclient _ (.drop i) (fun i => nofun) (fun n o => nofun) rfl rfl hgr
  | change u => exact hclient _ (.change u) (fun i => nofun) (fun n o => nofun) rfl rfl hgr
  | wire op => revert hgr; simp only [World.act]; split <;> exact fun hgr => same _ rfl rfl hgr
  | serve i env =>
    revert hgr
    simp only [World.act, World.serve]
    split
    · exact fun hgr => same _ rfl rfl hgr
    · split <;> exact fun hgr => same _ rfl rfl hgr
  | own op => revert hgr; cases op <;> simp only [World.act] <;> exact fun hgr => same _ rfl rfl hgr
  | deliver k =>
    revert hgr
    simp only [World.act, World.deliver]
    split
    · rename_i m hm
      split
      · rename_i so hso
        intro hgr
        refine h.keep rfl (cells_step _ _ (hnf so k)) hgr (fun j y hy n q hq => paths_step _ _ (hnf so k) j y hy n q hq) (fun n o hn => ?_)
        rcases cells_other _ _ (hnf so k) n o hn with h4 | h4
        · exact .inl h4
        · cases h4; exact .inr ⟨m, so, hm, hso, rfl⟩
      · exact fun hgr => same _ rfl rfl hgr
    · exact fun hgr => same _ rfl rfl hgr
  | go i =>
    revert hgr
    simp only [World.act, World.go]
    have quiet : (asking w.server i = none ∨ ¬ (w.server.ub = false ∧ w.server.alive = true)) → Grows w.net.a w.net.a →
        Link ({ w with server := w.server.step (.go i) } : World D H) := by
      intro hq hgr
      obtain ⟨h1, h2⟩ := go_quiet w.server i hq
      exact h.keep rfl (by rw [h1]) hgr h2 (fun n o hn => .inl (by rw [← h1]; exact hn))
    split
    · rename_i q hq
      split
      · rename_i hs
        intro hgr
        obtain ⟨h1, h2⟩ := go_asks w.server i q hq hs
        refine ⟨?_, fun j y n q' hy hq' => ?_, fun n o hn => ?_⟩
        · simp only [List.length_append, h1, h.len]; rfl
        · rcases h2 j y hy n q' hq' with ⟨rfl, rfl⟩ | ⟨z, h3, h4⟩
          · refine ⟨w.net.a.tab.nextFut, (chooseId (asRequest q').id w.net.a.counter).1, ?_, ?_⟩
            · rw [← h.len]; simp
            · show (w.net.a.asked ++ [(w.net.a.tab.nextFut, _)])[w.net.a.tab.nextFut]? = _
              rw [hnum.1]
              simp [asRequest]
          · obtain ⟨m, id, h5, h6⟩ := h.sent j z n q' h3 h4
            exact ⟨m, id, get_prefix (List.prefix_append _ _) h5, get_prefix hgr.asked h6⟩
        · rw [show ({ w with server := w.server.step (.go i), futs := w.futs ++ [w.net.a.tab.nextFut], net := w.net.step (.send false (asRequest q)) } :
              World D H).server.cells = _ from h1] at hn
          have hn' : w.server.cells[n]? = some (some o) := by
            rcases Nat.lt_or_ge n w.server.cells.length with hl | hl
            · rwa [List.getElem?_append_left hl] at hn
            · rw [List.getElem?_append_right hl] at hn
              cases hk : n - w.server.cells.length with
              | zero => rw [hk] at hn; cases hn
              | succ k => rw [hk] at hn; cases hn
          obtain ⟨m, so, h5, h6, h7⟩ := h.cell n o hn'
          exact ⟨m, so, get_prefix (List.prefix_append _ _) h5, get_grows hgr.outcomes h6, h7⟩
      · rename_i hs; exact quiet (.inr hs)
    · rename_i hq; exact quiet (.inl hq)

theorem link_world (s0 : SSelf D) (cli : Cli D H) (ops : List (Op D H)) : Link ((World.init s0 cli).run ops) := by
  induction ops using snoc_induction with
  | h0 => exact ⟨rfl, fun i x n q hx => (nomatch hx), fun n o hn => (nomatch hn)⟩
  | h1 ops op ih => rw [run_snoc]; exact link_step (numbered_world s0 cli ops false) ih op

/-! ### The pair of the client carries the requests of its calls and no others -/

theorem only_step (w : World D H) (op : Op D H) :
    ((w.step op).futs = w.futs ∧ ∀ nop ∈ netOps w op, ∀ r, nop ≠ .send false r) ∨
    ∃ i q, op = .go i ∧ w.dead = false ∧ asking w.server i = some q ∧ (w.server.ub = false ∧ w.server.alive = true) ∧
      (w.step op).futs = w.futs ++ [w.net.a.tab.nextFut] ∧ netOps w op = [.send false (asRequest q)] := by
  cases hd : w.dead with
  | true => rw [step_dead hd]; exact .inl ⟨rfl, by simp [netOps, hd]⟩
  | false =>
    rw [step_alive hd]
    simp only [netOps, hd, Bool.false_eq_true, if_false]
    cases op with
    | go i =>
      simp only [World.act, World.go, netOf]
      cases hq : asking w.server i with
      | none => exact .inl ⟨rfl, fun _ h => nomatch h⟩
      | some q =>
        try dsimp only
        by_cases hs : w.server.ub = false ∧ w.server.alive = true
        · rw [if_pos hs, if_pos hs]; exact .inr ⟨i, q, rfl, trivial, hq, hs, rfl, rfl⟩
        · rw [if_neg hs, if_neg hs]; exact .inl ⟨rfl, fun _ h => nomatch h⟩
    | deliver n =>
      simp only [World.act, World.deliver, netOf]
      left
      split
      · split <;> exact ⟨rfl, fun _ h => nomatch h⟩
      · exact ⟨rfl, fun _ h => nomatch h⟩
    | wire op =>
      simp only [World.act, netOf]
      left
      split
      · exact ⟨rfl, fun _ h => nomatch h⟩
      · rename_i hr
        refine ⟨rfl, fun nop h r e => ?_⟩
        have h := List.mem_singleton.1 h
        subst h
        subst e
        exact hr rfl
    | serve i env =>
      simp only [World.act, World.serve, netOf]
      left
      cases hj : w.net.b.jobs[i]? with
      | none => exact ⟨rfl, fun _ h => nomatch h⟩
      | some q =>
        try dsimp only
        cases hr : (onRequest env w.cli q).1 with
        | answer a =>
          refine ⟨rfl, fun nop h r e => ?_⟩
          have h := List.mem_singleton.1 h
          subst h
          cases e
        | _ => exact ⟨rfl, fun _ h => nomatch h⟩
    | own op => left; cases op <;> exact ⟨rfl, fun _ h => nomatch h⟩
    | call api => exact .inl ⟨rfl, fun _ h => nomatch h⟩
    | drop i => exact .inl ⟨rfl, fun _ h => nomatch h⟩
    | change u => exact .inl ⟨rfl, fun _ h => nomatch h⟩

/-- The id a request is given by its caller, if any. -/
def nameOf (q : SReq D) : Option Bytes := if q.id.getD [] ≠ [] then some (q.id.getD []) else none

/-- The futures of the calls are all those of the transport, and the ids given by callers are those of the calls. -/
theorem only_world (s0 : SSelf D) (cli : Cli D H) (ops : List (Op D H)) :
    ((World.init s0 cli).run ops).futs = List.range ((World.init s0 cli).run ops).net.a.asked.length ∧
      (begun s0 cli ops).countP (sendsOn false) = ((World.init s0 cli).run ops).futs.length ∧
      ∃ qs : List (SReq D), qs.length = ((World.init s0 cli).run ops).futs.length ∧ (begun s0 cli ops).filterMap (givenId false) = qs.filterMap nameOf ∧
        ∀ (n : Nat) (q : SReq D), qs[n]? = some q → ∃ (i : Nat) (x : SCall D), ((World.init s0 cli).run ops).server.calls[i]? = some x ∧ Ev.sent n q ∈ x.path := by
  induction ops using snoc_induction with
  | h0 => exact ⟨rfl, rfl, [], rfl, rfl, fun n q h => (nomatch h)⟩
  | h1 ops op ih =>
    obtain ⟨h1, h3, qs, h4, h5, h6⟩ := ih
    have hnum := numbered_world s0 cli ops false
    have hlen := (link_world s0 cli ops).len
    rw [run_snoc]
    have hb : begun s0 cli (ops ++ [op]) = begun s0 cli ops ++ netOps ((World.init s0 cli).run ops) op := by
      simp only [begun, trace_snoc, List.append_assoc]
    rw [hb, List.filterMap_append, List.countP_append, h3, h5, net_step]
    generalize (World.init s0 cli).run ops = w at *
    have stays : ∀ (i : Nat) (x : SCall D) (n : Nat) (q : SReq D), w.server.calls[i]? = some x → Ev.sent n q ∈ x.path →
        ∃ (i : Nat) (x : SCall D), (w.step op).server.calls[i]? = some x ∧ Ev.sent n q ∈ x.path := by
      intro i x n q hx hq
      have hm := server_step w op
      generalize (w.step op).server = s' at hm
      cases hm with
      | stay => exact ⟨i, x, hx, hq⟩
      | call api => exact ⟨i, sent_stays _ _ hx hq⟩
      | go j => exact ⟨i, sent_stays _ _ hx hq⟩
      | drop j => exact ⟨i, sent_stays _ _ hx hq⟩
      | change u => exact ⟨i, sent_stays _ _ hx hq⟩
      | fill c o => exact ⟨i, sent_stays _ _ hx hq⟩
    rcases only_step w op with ⟨g1, g2⟩ | ⟨i, q, rfl, hd, hask, hs, g1, g2⟩
    · refine ⟨by rw [g1, h1, asked_other _ _ g2], ?_, qs, by rw [g1]; exact h4, ?_, fun n q hn => ?_⟩
      · rw [g1]
        have : (netOps w op).countP (sendsOn false) = 0 := by
          refine List.countP_eq_zero.2 fun nop hn => ?_
          cases nop with
          | send x r => cases x with
            | false => exact absurd rfl (g2 _ hn r)
            | true => simp [sendsOn]
          | _ => simp [sendsOn]
        omega
      · have : (netOps w op).filterMap (givenId false) = [] := by
          refine List.filterMap_eq_nil_iff.2 fun nop hn => ?_
          cases nop with
          | send x r => cases x with
            | false => exact absurd rfl (g2 _ hn r)
            | true => simp [givenId]
          | _ => rfl
        rw [this, List.append_nil]
      · obtain ⟨i, x, k1, k2⟩ := h6 n q hn
        exact stays i x n q k1 k2
    · rw [g2, g1]
      refine ⟨?_, by simp [sendsOn], qs ++ [q], by simp [h4], ?_, fun n q' hn => ?_⟩
      · show _ = List.range (w.net.a.asked ++ [_]).length
        rw [List.length_append, List.length_singleton, List.range_succ, h1]
        have := hnum.1
        rw [show w.net.a.tab.nextFut = _ from this]
        rfl
      · rw [List.filterMap_append]
        have : givenId false (.send false (asRequest q)) = nameOf q := by simp [givenId, nameOf, asRequest, idText]
        simp only [List.filterMap_cons, List.filterMap_nil, this]
      · rcases Nat.lt_or_ge n qs.length with hl | hl
        · rw [List.getElem?_append_left hl] at hn
          obtain ⟨i', x, k1, k2⟩ := h6 n q' hn
          exact stays i' x n q' k1 k2
        · rw [List.getElem?_append_right hl] at hn
          cases hk : n - qs.length with
          | succ k => rw [hk] at hn; cases hn
          | zero =>
            rw [hk] at hn
            cases hn
            have hn' : n = w.server.cells.length := by rw [← hlen, ← h4]; omega
            obtain ⟨y, k1, k2⟩ := go_sends w.server i q hask hs
            refine ⟨i, y, ?_, by rw [hn']; exact k2⟩
            rw [step_alive hd]
            simp only [World.act, World.go, hask, if_pos hs]
            exact k1

/-- The ids given to sampling requests are the callers' own: each is given once, and none looks like those the transport makes. -/
structure OwnNames (w : World D H) : Prop where
  once : ∀ (i j : Nat) (x y : SCall D) (p p' : SampleReq D) (k : Bytes), k ≠ [] → w.server.calls[i]? = some x → w.server.calls[j]? = some y →
    x.prog = sbody (.sample p (some k)) → y.prog = sbody (.sample p' (some k)) → i = j
  form : ∀ (i : Nat) (x : SCall D) (p : SampleReq D) (k : Bytes), w.server.calls[i]? = some x → x.prog = sbody (.sample p (some k)) → ¬ lit "mem-req-" <+: k

theorem nodup_filterMap {α β : Type} (f : α → Option β) : ∀ (l : List α), (∀ (n m : Nat) (a b : α) (k : β), l[n]? = some a → l[m]? = some b → f a = some k → f b = some k → n = m) →
    (l.filterMap f).Nodup := by
  intro l
  induction l with
  | nil => exact fun _ => List.nodup_nil
  | cons a l ih =>
    intro h
    have ih := ih fun n m x y k hn hm hx hy => by
      have := h (n + 1) (m + 1) x y k hn hm hx hy
      omega
    cases hf : f a with
    | none => rw [List.filterMap_cons_none hf]; exact ih
    | some k =>
      rw [List.filterMap_cons_some hf]
      refine List.nodup_cons.2 ⟨fun hk => ?_, ih⟩
      obtain ⟨b, hb, hb'⟩ := List.mem_filterMap.1 hk
      obtain ⟨m, hm⟩ := List.getElem?_of_mem hb
      have := h 0 (m + 1) a b k rfl hm hf hb'
      omega

theorem call_prog (s0 : SSelf D) (cli : Cli D H) (ops : List (Op D H)) {i : Nat} {x : SCall D}
    (hx : ((World.init s0 cli).run ops).server.calls[i]? = some x) : ∃ api, x.prog = sbody api ∧ Op.call api ∈ ops := by
  obtain ⟨cops, h1, h2, -⟩ := server_run s0 cli ops
  rw [h1] at hx
  have key : ∀ l : List (SOp D), (∀ b, Await.Op.call b ∈ l → ∃ api, b = sbody api ∧ Op.call api ∈ ops) → ∀ s : SSys D,
      (∀ (i : Nat) (x : SCall D), s.calls[i]? = some x → ∃ api, x.prog = sbody api ∧ Op.call api ∈ ops) →
      ∀ (i : Nat) (x : SCall D), (s.run l).calls[i]? = some x → ∃ api, x.prog = sbody api ∧ Op.call api ∈ ops := by
    intro l
    induction l with
    | nil => exact fun _ s h => h
    | cons op l ih =>
      intro hl s h
      rw [run_cons]
      exact ih (fun b hb => hl b (List.mem_cons_of_mem _ hb)) _
        (progs_step (P := fun b => ∃ api, b = sbody api ∧ Op.call api ∈ ops) s op (fun b hb => hl b (by rw [hb]; exact List.mem_cons_self ..)) h)
  exact key cops h2 (Sys.init s0) (fun i x hx => (nomatch hx)) i x hx

/-- What a call has sent, and how often. -/
theorem world_asks (s0 : SSelf D) (cli : Cli D H) (ops : List (Op D H)) {i : Nat} {x : SCall D} {api : SApi D}
    (hx : ((World.init s0 cli).run ops).server.calls[i]? = some x) (hp : x.prog = sbody api) :
    (∀ n q, Ev.sent n q ∈ x.path → q = enquiry api) ∧ ∀ n n', n ∈ sentOf x.path → n' ∈ sentOf x.path → n = n' := by
  obtain ⟨cops, g1, -, -⟩ := server_run s0 cli ops
  exact call_asks s0 cops (by rw [← g1]; exact hx) hp

theorem named {api : SApi D} {k : Bytes} (h : nameOf (enquiry api) = some k) : k ≠ [] ∧ ∃ p, api = .sample p (some k) := by
  unfold nameOf at h
  split at h
  · rename_i hk
    cases h
    refine ⟨hk, ?_⟩
    cases api with
    | sample p id =>
      cases id with
      | none => exact absurd rfl hk
      | some k => exact ⟨p, rfl⟩
    | sampleTask p ttl => cases ttl <;> exact absurd rfl hk
    | elicitTask r ttl => cases ttl <;> exact absurd rfl hk
    | callToolTask n a ttl => cases ttl <;> exact absurd rfl hk
    | _ => exact absurd rfl hk
  · cases h

theorem ownIds_world (s0 : SSelf D) (cli : Cli D H) (ops : List (Op D H)) (hn : OwnNames ((World.init s0 cli).run ops))
    (few : ((World.init s0 cli).run ops).server.cells.length < 2 ^ 32) :
    InMemory.OwnIds false (begun s0 cli ops) := by
  obtain ⟨-, h3, qs, -, h5, h6⟩ := only_world s0 cli ops
  have hname : ∀ (n : Nat) (q : SReq D) (k : Bytes), qs[n]? = some q → nameOf q = some k → ∃ (i : Nat) (x : SCall D) (p : SampleReq D),
      ((World.init s0 cli).run ops).server.calls[i]? = some x ∧ n ∈ sentOf x.path ∧ x.prog = sbody (.sample p (some k)) ∧ k ≠ [] := by
    intro n q k hq hk
    obtain ⟨i, x, k1, k2⟩ := h6 n q hq
    obtain ⟨api, hp, -⟩ := call_prog s0 cli ops k1
    have := (world_asks s0 cli ops k1 hp).1 n q k2
    subst this
    obtain ⟨hne, p, rfl⟩ := named hk
    exact ⟨i, x, p, k1, mem_sentOf.2 ⟨_, k2⟩, hp, hne⟩
  refine ⟨?_, fun k hk => ?_, by rw [h3, (link_world s0 cli ops).len]; exact few⟩
  · rw [h5]
    refine nodup_filterMap _ _ fun n m a b k h7 h8 h9 h10 => ?_
    obtain ⟨i, x, p, k1, k2, k3, k4⟩ := hname n a k h7 h9
    obtain ⟨j, y, p', k1', k2', k3', -⟩ := hname m b k h8 h10
    have := hn.once i j x y p p' k k4 k1 k1' k3 k3'
    subst this
    rw [k1] at k1'
    cases k1'
    exact (world_asks s0 cli ops k1 k3).2 n m k2 k2'
  · rw [h5] at hk
    obtain ⟨q, hq, hq'⟩ := List.mem_filterMap.1 hk
    obtain ⟨n, hn'⟩ := List.getElem?_of_mem hq
    obtain ⟨i, x, p, k1, -, k3, -⟩ := hname n q k hn' hq'
    exact hn.form i x p k k1 k3

/-! ### The answers of the server -/

/-- With the step at this place of the execution the server dispatched this request, in the state it was in, with this answer. -/
def DispatchedAt (w : World D H) (ops : List (Op D H)) (p : Nat) (q : Request D) (env : CliEnv D H) (cli : Cli D H) (r : Response D) : Prop :=
  ∃ i, ops[p]? = some (.serve i env) ∧ (w.run (ops.take p)).net.b.jobs[i]? = some q ∧ (w.run (ops.take p)).cli = cli ∧
    (w.run (ops.take p)).dead = false ∧ (onRequest env cli q).1 = .answer r

theorem DispatchedAt.more {w : World D H} {ops : List (Op D H)} {p : Nat} {q : Request D} {env : CliEnv D H} {cli : Cli D H} {r : Response D}
    (h : DispatchedAt w ops p q env cli r) (op : Op D H) : DispatchedAt w (ops ++ [op]) p q env cli r := by
  obtain ⟨i, h1, h2⟩ := h
  have hl := lt_of_get h1
  refine ⟨i, by rw [List.getElem?_append_left hl]; exact h1, ?_⟩
  rw [List.take_append_of_le_length (Nat.le_of_lt hl)]
  exact h2

theorem dispatched_last {w : World D H} {ops : List (Op D H)} {i : Nat} {env : CliEnv D H} {q : Request D} {r : Response D}
    (hj : (w.run ops).net.b.jobs[i]? = some q) (hd : (w.run ops).dead = false) (hr : (onRequest env (w.run ops).cli q).1 = .answer r) :
    DispatchedAt w (ops ++ [.serve i env]) ops.length q env (w.run ops).cli r := by
  have ht : (ops ++ [Op.serve i env]).take ops.length = ops := by simp
  refine ⟨i, by simp, ?_⟩
  rw [ht]
  exact ⟨hj, rfl, hd, hr⟩

/-- The answers of the server are changed by `serve` alone. -/
theorem answered_step (w : World D H) (op : Op D H) : (w.step op).net.b.answered = w.net.b.answered ∨
    ∃ i env q r, op = .serve i env ∧ w.dead = false ∧ w.net.b.jobs[i]? = some q ∧ (onRequest env w.cli q).1 = .answer r ∧
      (w.step op).cli = (onRequest env w.cli q).2 ∧ (w.step op).dead = false ∧ (w.step op).net.b.answered = w.net.b.answered ++ [(q, .resp r)] := by
  cases hd : w.dead with
  | true => rw [step_dead hd]; exact .inl rfl
  | false =>
    rw [step_alive hd]
    cases op with
    | call api => exact .inl rfl
    | drop i => exact .inl rfl
    | change u => exact .inl rfl
    | go i =>
      simp only [World.act, World.go]
      split
      · split <;> exact .inl rfl
      · exact .inl rfl
    | deliver n =>
      simp only [World.act, World.deliver]
      split
      · split <;> exact .inl rfl
      · exact .inl rfl
    | wire op =>
      simp only [World.act]
      split
      · exact .inl rfl
      · rename_i hr
        exact .inl (answered_other w.net op fun i o e => hr (by rw [e]; rfl)).1
    | own op => left; cases op <;> rfl
    | serve i env =>
      simp only [World.act, World.serve]
      split
      · exact .inl rfl
      · rename_i q hq
        split
        · rename_i r hr
          exact .inr ⟨i, env, q, r, rfl, trivial, hq, hr, rfl, hd, (reply_b w.net i _ hq).1⟩
        · exact .inl rfl
        · exact .inl rfl

theorem answered_world (s0 : SSelf D) (cli : Cli D H) (ops : List (Op D H)) (q : Request D) (o : HandlerOutcome D)
    (h : (q, o) ∈ ((World.init s0 cli).run ops).net.b.answered) : ∃ p env σ r, o = .resp r ∧ DispatchedAt (World.init s0 cli) ops p q env σ r := by
  induction ops using snoc_induction with
  | h0 => cases h
  | h1 ops op ih =>
    rw [run_snoc] at h
    rcases answered_step ((World.init s0 cli).run ops) op with h1 | ⟨i, env, q', r, rfl, h1, h2, h3, -, -, h4⟩
    · rw [h1] at h
      obtain ⟨p, env, σ, r, h2, h3⟩ := ih h
      exact ⟨p, env, σ, r, h2, h3.more op⟩
    · rw [h4] at h
      rcases List.mem_append.1 h with h | h
      · obtain ⟨p, env', σ, r, h2, h3⟩ := ih h
        exact ⟨p, env', σ, r, h2, h3.more _⟩
      · cases List.mem_singleton.1 h
        exact ⟨ops.length, env, _, r, rfl, dispatched_last h2 h1 h3⟩

end Verif.Ask
