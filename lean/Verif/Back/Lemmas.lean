import Verif.Back.Model
import Verif.Share.Props
import Verif.Ask.Calls

/-! Helper lemmas for C134: what a step of the server, the pair and the client together does to each of them. -/

set_option linter.unusedSectionVars false

namespace Verif.Back

open Verif.Await Verif.Client Verif.Server Verif.Shm
open Verif.Whole (snoc_induction lt_of_get)
open Verif.Ask (asRequest asking paths_step cells_step cells_other go_quiet go_asks)
open Verif.Share (NOp seen actor reserved calm_step Idle idle_step idle_run reply_own fits_length)
open Verif.Stdio (idText)
open Verif.Duplex (get_prefix)
open Verif.InMemory (PlainReq PlainNote PlainOut)

variable {D H : Type} [DblFmt D]

theorem run_nil (c : Cfg) (x : Bool) (w : World D H) : w.run c x [] = w := rfl

theorem run_snoc (c : Cfg) (x : Bool) (w : World D H) (ops : List (Op D H)) (op : Op D H) : w.run c x (ops ++ [op]) = (w.run c x ops).step c x op := by
  simp [World.run, List.foldl_append]

/-! ### The server -/

/-- What a step does to the server. -/
inductive ServerMove (s : SSys D) : Op D H → SSys D → Prop
  | stay (op : Op D H) : ServerMove s op s
  | call (api : SApi D) : ServerMove s (.call api) (s.step (.call (sbody api)))
  | go (i : Nat) : ServerMove s (.go i) (s.step (.go i))
  | drop (i : Nat) : ServerMove s (.drop i) (s.step (.drop i))
  | change (u : SSelf D → SSelf D) : ServerMove s (.change u) (s.step (.change u))
  | fill (k : Nat) (o : Client.Outcome D) : ServerMove s (.deliver k) (s.step (.fill k o))

theorem server_step (c : Cfg) (x : Bool) (w : World D H) (op : Op D H) : ServerMove w.server op (w.step c x op).server := by
  cases op with
  | call api => exact .call api
  | go i => simp only [World.step, World.go]; split <;> (try split) <;> (try split) <;> exact .go i
  | drop i => exact .drop i
  | change u => exact .change u
  | deliver n =>
    simp only [World.step, World.deliver]
    split
    · split
      · exact .fill n _
      · exact .stay _
    · exact .stay _
  | file i => simp only [World.step, World.file]; split <;> exact .stay _
  | wire op => simp only [World.step]; split <;> exact .stay _
  | serve i env =>
    simp only [World.step, World.serve]
    split
    · exact .stay _
    · split
      · exact .stay _
      · split <;> exact .stay _
  | own op => simp only [World.step]; split <;> (try split) <;> exact .stay _

/-- The server goes through an execution of its own. -/
theorem server_run (c : Cfg) (x : Bool) (s0 : SSelf D) (cli : Cli D H) (ops : List (Op D H)) :
    ∃ cops, ((World.init c s0 cli).run c x ops).server = (Sys.init s0).run cops ∧
      (∀ b, Await.Op.call b ∈ cops → ∃ api, b = sbody api ∧ Op.call api ∈ ops) ∧ (∀ u, Await.Op.change u ∈ cops → Op.change u ∈ ops) := by
  induction ops using snoc_induction with
  | h0 => exact ⟨[], rfl, by simp, by simp⟩
  | h1 ops op ih =>
    obtain ⟨cops, h1, h2, h3⟩ := ih
    rw [run_snoc]
    have hm := server_step c x ((World.init c s0 cli).run c x ops) op
    have more : ∀ cop : SOp D, ((((World.init c s0 cli).run c x ops).step c x op).server = ((World.init c s0 cli).run c x ops).server.step cop) →
        (∀ b, cop = .call b → ∃ api, b = sbody api ∧ op = .call api) → (∀ u, cop = .change u → op = .change u) →
        ∃ cops, (((World.init c s0 cli).run c x ops).step c x op).server = (Sys.init s0).run cops ∧
          (∀ b, Await.Op.call b ∈ cops → ∃ api, b = sbody api ∧ Op.call api ∈ ops ++ [op]) ∧ (∀ u, Await.Op.change u ∈ cops → Op.change u ∈ ops ++ [op]) := by
      intro cop h4 h5 h6
      refine ⟨cops ++ [cop], ?_, ?_, ?_⟩
      · rw [h4, h1, Await.run_append]; rfl
      · intro b hb
        rcases List.mem_append.1 hb with hb | hb
        · obtain ⟨api, h7, h8⟩ := h2 b hb
          exact ⟨api, h7, List.mem_append_left _ h8⟩
        · obtain ⟨api, h7, h8⟩ := h5 b (List.mem_singleton.1 hb).symm
          exact ⟨api, h7, by rw [h8]; simp⟩
      · intro u hu
        rcases List.mem_append.1 hu with hu | hu
        · exact List.mem_append_left _ (h3 u hu)
        · rw [h6 u (List.mem_singleton.1 hu).symm]; simp
    generalize hs : (((World.init c s0 cli).run c x ops).step c x op).server = s' at hm more
    cases hm with
    | stay =>
      exact ⟨cops, h1, fun b hb => (h2 b hb).imp fun api h => ⟨h.1, List.mem_append_left _ h.2⟩, fun u hu => List.mem_append_left _ (h3 u hu)⟩
    | call api => exact more _ rfl (fun b hb => by cases hb; exact ⟨api, rfl, rfl⟩) (fun u hu => nomatch hu)
    | go i => exact more _ rfl (fun b hb => nomatch hb) (fun u hu => nomatch hu)
    | drop i => exact more _ rfl (fun b hb => nomatch hb) (fun u hu => nomatch hu)
    | change u => exact more _ rfl (fun b hb => nomatch hb) (fun u' hu => by cases hu; rfl)
    | fill n o => exact more _ rfl (fun b hb => nomatch hb) (fun u hu => nomatch hu)

/-! ### The pair goes through an execution of its own -/

/-- The step of the pair that a step of the system is, if any. -/
def netOf (x : Bool) (w : World D H) : Op D H → Option (NOp D)
  | .go i =>
    match asking w.server i with
    | some q => if w.server.ub = false ∧ w.server.alive = true then some (.send x (asRequest q)) else none
    | none => none
  | .file i => match w.waits[i]? with | some _ => some (.file x i) | none => none
  | .wire op => if reserved x op || (w.dead && actor op != x) then none else some op
  | .serve i env =>
    if w.dead then none else
      match (w.net.get (!x)).jobs[i]? with
      | none => none
      | some q => match (onRequest env w.cli q).1 with | .answer r => some (.reply (!x) i (.resp r)) | _ => none
  | _ => none

def netOps (x : Bool) (w : World D H) (op : Op D H) : List (NOp D) := (netOf x w op).toList

theorem netOps_length (x : Bool) (w : World D H) (op : Op D H) : (netOps x w op).length ≤ 1 := by
  unfold netOps
  cases netOf x w op <;> simp

def trace (c : Cfg) (x : Bool) : World D H → List (Op D H) → List (NOp D)
  | _, [] => []
  | w, op :: ops => netOps x w op ++ trace c x (w.step c x op) ops

theorem trace_snoc (c : Cfg) (x : Bool) (w : World D H) (ops : List (Op D H)) (op : Op D H) :
    trace c x w (ops ++ [op]) = trace c x w ops ++ netOps x (w.run c x ops) op := by
  induction ops generalizing w with
  | nil => simp [trace, run_nil]
  | cons o ops ih => simp only [List.cons_append, trace, ih, List.append_assoc]; rfl

theorem trace_length (c : Cfg) (x : Bool) (w : World D H) (ops : List (Op D H)) : (trace c x w ops).length ≤ ops.length := by
  induction ops generalizing w with
  | nil => exact Nat.le_refl _
  | cons o ops ih =>
    have := ih (w.step c x o)
    have := netOps_length x w o
    simp only [trace, List.length_append, List.length_cons]; omega

theorem net_step (c : Cfg) (x : Bool) (w : World D H) (op : Op D H) : (w.step c x op).net = w.net.run c (netOps x w op) := by
  cases op with
  | go i =>
    simp only [World.step, World.go, netOps, netOf]
    cases hq : asking w.server i with
    | none => rfl
    | some q => dsimp only; by_cases hs : w.server.ub = false ∧ w.server.alive = true
                · rw [if_pos hs, if_pos hs]; split <;> rfl
                · rw [if_neg hs, if_neg hs]; rfl
  | file i =>
    simp only [World.step, World.file, netOps, netOf]
    cases w.waits[i]? <;> rfl
  | deliver n =>
    simp only [World.step, World.deliver, netOps, netOf]
    split
    · split <;> rfl
    · rfl
  | wire op => simp only [World.step, netOps, netOf]; split <;> rfl
  | serve i env =>
    simp only [World.step, World.serve, netOps, netOf]
    split
    · rfl
    · cases hj : (w.net.get (!x)).jobs[i]? with
      | none => rfl
      | some q => dsimp only; cases hr : (onRequest env w.cli q).1 <;> rfl
  | own op => simp only [World.step, netOps, netOf]; split <;> (try split) <;> rfl
  | call api => rfl
  | drop i => rfl
  | change u => rfl

/-- The steps of the pair in an execution, with the two starts. -/
def begun (c : Cfg) (x : Bool) (s0 : SSelf D) (cli : Cli D H) (ops : List (Op D H)) : List (NOp D) :=
  [.start false, .start true] ++ trace c x (World.init c s0 cli) ops

theorem net_world (c : Cfg) (x : Bool) (s0 : SSelf D) (cli : Cli D H) (ops : List (Op D H)) :
    ((World.init c s0 cli).run c x ops).net = (Net.init true true).run c (begun c x s0 cli ops) := by
  induction ops using snoc_induction with
  | h0 => rfl
  | h1 ops op ih =>
    rw [run_snoc, net_step, ih, begun, begun, trace_snoc]
    simp [Net.run, List.foldl_append]

theorem begun_length (c : Cfg) (x : Bool) (s0 : SSelf D) (cli : Cli D H) (ops : List (Op D H)) : (begun c x s0 cli ops).length ≤ ops.length + 2 := by
  have := trace_length c x (World.init c s0 cli) ops
  simp only [begun, List.length_append, List.length_cons, List.length_nil]; omega

/-- The server's side sends what the calls ask for and nothing else. -/
theorem netOps_send {x : Bool} {w : World D H} {op : Op D H} {r : Request D} (h : Shm.Op.send x r ∈ netOps x w op) :
    ∃ i q, op = .go i ∧ asking w.server i = some q ∧ (w.server.ub = false ∧ w.server.alive = true) ∧ r = asRequest q := by
  unfold netOps at h
  cases op with
  | go i =>
    simp only [netOf] at h
    split at h
    · rename_i q hq
      split at h
      · rename_i hs
        cases List.mem_singleton.1 (show _ ∈ [_] from h)
        exact ⟨i, q, rfl, hq, hs, rfl⟩
      · cases h
    · cases h
  | wire op =>
    simp only [netOf] at h
    split at h
    · cases h
    · rename_i hr
      have := List.mem_singleton.1 (show _ ∈ [_] from h)
      subst this
      exact absurd (by simp [reserved]) hr
  | file i =>
    simp only [netOf] at h
    split at h
    · cases List.mem_singleton.1 (show _ ∈ [_] from h)
    · cases h
  | serve i env =>
    simp only [netOf] at h
    split at h
    · cases h
    · split at h
      · cases h
      · split at h
        · cases List.mem_singleton.1 (show _ ∈ [_] from h)
        · cases h
  | call api => cases h
  | drop i => cases h
  | change u => cases h
  | deliver n => cases h
  | own op => cases h

theorem tab_world (c : Cfg) (x : Bool) (s0 : SSelf D) (cli : Cli D H) (ops : List (Op D H)) : TabInv ((World.init c s0 cli).run c x ops).net := by
  rw [net_world]; exact tabInv_run (tabInv_init true true) c _

theorem asked_world (c : Cfg) (x : Bool) (s0 : SSelf D) (cli : Cli D H) (ops : List (Op D H)) : AskedInv ((World.init c s0 cli).run c x ops).net := by
  rw [net_world]; exact askedInv_run c true true _

/-! ### Calls and their futures -/

/-- The ids a request may leave with: the one it has, or one the transport makes. -/
def Chosen (q : SReq D) (id : RpcId) : Prop := id = (asRequest q).id ∨ ∃ k, id = .str (lit "shm-req-" ++ natDec k)

theorem chosen_choose (q : SReq D) (n : Nat) : Chosen q (chooseId (asRequest q).id n).1 := by
  cases h : (asRequest q).id with
  | str s =>
    unfold chooseId
    dsimp only
    split
    · exact .inr ⟨_, rfl⟩
    · exact .inl h.symm
  | int k => exact .inl h.symm
  | null => exact .inr ⟨_, rfl⟩

/-- The futures of the calls are those of their requests. -/
structure Link (x : Bool) (w : World D H) : Prop where
  len : w.futs.length = w.server.cells.length
  waits : w.waits.length = (w.net.get x).tickets.length
  waiting : ∀ (i k : Nat), w.waits[i]? = some k → w.futs[k]? = some none
  apart : w.waits.Nodup
  once : ∀ (j k m : Nat), w.futs[j]? = some (some m) → w.futs[k]? = some (some m) → j = k
  below : ∀ (j m : Nat), w.futs[j]? = some (some m) → m < (w.net.get x).tab.nextFut
  sent : ∀ (i : Nat) (z : SCall D) (n : Nat) (q : SReq D), w.server.calls[i]? = some z → Ev.sent n q ∈ z.path →
    (∃ j : Nat, w.waits[j]? = some n ∧ (w.net.get x).tickets[j]? = some (asRequest q)) ∨
    ∃ m, w.futs[n]? = some (some m) ∧ ((∃ id, Chosen q id ∧ (m, ⟨id, q.method, q.params⟩) ∈ (w.net.get x).asked) ∨ ∃ id, (m, Outcome.refused id) ∈ (w.net.get x).tab.outcomes)
  cell : ∀ (n : Nat) (o : Client.Outcome D), w.server.cells[n]? = some (some o) →
    ∃ m so, w.futs[n]? = some (some m) ∧ (m, so) ∈ (w.net.get x).tab.outcomes ∧ o = seen so
  known : ∀ m q, (m, q) ∈ (w.net.get x).asked → ∃ n : Nat, w.futs[n]? = some (some m)

/-- Steps that touch neither the tickets nor the futures of the calls. -/
theorem Link.keep {x : Bool} {w w' : World D H} (h : Link x w) (hf : w'.futs = w.futs) (hw : w'.waits = w.waits) (hl : w'.server.cells.length = w.server.cells.length)
    (hg : Share.Calm (w.net.get x) (w'.net.get x))
    (hp : ∀ (j : Nat) (y : SCall D), w'.server.calls[j]? = some y → ∀ (n : Nat) (q : SReq D), Ev.sent n q ∈ y.path →
      ∃ z : SCall D, w.server.calls[j]? = some z ∧ Ev.sent n q ∈ z.path)
    (hc : ∀ (n : Nat) (o : Client.Outcome D), w'.server.cells[n]? = some (some o) → w.server.cells[n]? = some (some o) ∨
      ∃ m so, w.futs[n]? = some (some m) ∧ (m, so) ∈ (w.net.get x).tab.outcomes ∧ o = seen so) : Link x w' := by
  obtain ⟨more, ho, -⟩ := hg.outcomes
  have hmem : ∀ p ∈ (w.net.get x).tab.outcomes, p ∈ (w'.net.get x).tab.outcomes := fun p hp => by rw [ho]; exact List.mem_append_left _ hp
  refine ⟨by rw [hf, hl]; exact h.len, by rw [hw, hg.tickets]; exact h.waits, by rw [hw, hf]; exact h.waiting, by rw [hw]; exact h.apart, by rw [hf]; exact h.once,
    by rw [hf, hg.next]; exact h.below, fun i z n q hz hq => ?_, fun n o hn => ?_, by rw [hg.asked, hf]; exact h.known⟩
  · obtain ⟨z', h1, h2⟩ := hp i z hz n q hq
    rcases h.sent i z' n q h1 h2 with ⟨j, h3, h4⟩ | ⟨m, h3, h4 | h4⟩
    · exact .inl ⟨j, by rw [hw]; exact h3, by rw [hg.tickets]; exact h4⟩
    · exact .inr ⟨m, by rw [hf]; exact h3, .inl (by rw [hg.asked]; exact h4)⟩
    · exact .inr ⟨m, by rw [hf]; exact h3, .inr (h4.imp fun _ h => hmem _ h)⟩
  · rcases hc n o hn with h1 | ⟨m, so, h1, h2, h3⟩
    · obtain ⟨m, so, h1, h2, h3⟩ := h.cell n o h1
      exact ⟨m, so, by rw [hf]; exact h1, hmem _ h2, h3⟩
    · exact ⟨m, so, by rw [hf]; exact h1, hmem _ h2, h3⟩

/-- A new request enters `SendRequest`. -/
theorem Link.enter {c : Cfg} {x : Bool} {w : World D H} (h : Link x w) {i : Nat} {q : SReq D} (hq : asking w.server i = some q)
    (hs : w.server.ub = false ∧ w.server.alive = true) : Link x (w.go c x i) := by
  obtain ⟨h1, h2⟩ := go_asks w.server i q hq hs
  have hcell : ∀ (n : Nat) (o : Client.Outcome D), (w.server.step (.go i)).cells[n]? = some (some o) → w.server.cells[n]? = some (some o) := by
    intro n o hn
    rw [h1] at hn
    rcases Nat.lt_or_ge n w.server.cells.length with hl | hl
    · rwa [List.getElem?_append_left hl] at hn
    · rw [List.getElem?_append_right hl] at hn
      cases hk : n - w.server.cells.length with
      | zero => rw [hk] at hn; cases hn
      | succ k => rw [hk] at hn; cases hn
  have last : ∀ {o : Option Nat} {j : Nat} {v : Option Nat}, (w.futs ++ [o])[j]? = some v → w.futs[j]? = some v ∨ (j = w.futs.length ∧ v = o) := by
    intro o j v hj
    rcases Nat.lt_or_ge j w.futs.length with hl | hl
    · rw [List.getElem?_append_left hl] at hj; exact .inl hj
    · rw [List.getElem?_append_right hl] at hj
      cases hk : j - w.futs.length with
      | zero => rw [hk] at hj; cases hj; exact .inr ⟨by omega, rfl⟩
      | succ k => rw [hk] at hj; cases hj
  have pre : ∀ (o : Option Nat) {j : Nat} {v : Option Nat}, w.futs[j]? = some v → (w.futs ++ [o])[j]? = some v := fun o j v hj => get_prefix (List.prefix_append _ _) hj
  unfold World.go
  rw [hq]
  dsimp only
  rw [if_pos hs]
  have hnet : ((w.net.step c (.send x (asRequest q))).get x) = (w.net.get x).send (asRequest q) := get_upd_same _ _ _
  split
  · rename_i hcon
    have he : (w.net.get x).send (asRequest q) = { w.net.get x with tickets := (w.net.get x).tickets ++ [asRequest q] } := by
      unfold Endpoint.send; rw [if_pos hcon]
    refine ⟨by simp only [List.length_append, h1, h.len]; rfl, ?_, ?_, ?_, ?_, ?_, ?_, ?_, ?_⟩
    · show (w.waits ++ [_]).length = _
      rw [hnet, he]
      simp only [List.length_append, h.waits]; rfl
    · intro j k hj
      have hj : (w.waits ++ [w.futs.length])[j]? = some k := hj
      show (w.futs ++ [none])[k]? = _
      rcases Nat.lt_or_ge j w.waits.length with hl | hl
      · rw [List.getElem?_append_left hl] at hj
        exact pre _ (h.waiting j k hj)
      · rw [List.getElem?_append_right hl] at hj
        cases hk : j - w.waits.length with
        | zero => rw [hk] at hj; cases hj; simp
        | succ k => rw [hk] at hj; cases hj
    · show (w.waits ++ [_]).Nodup
      rw [List.nodup_append]
      refine ⟨h.apart, by simp, fun a ha b hb hab => ?_⟩
      cases List.mem_singleton.1 hb
      obtain ⟨j, hj⟩ := List.getElem?_of_mem ha
      have := lt_of_get (h.waiting j a hj)
      omega
    · intro j k m hj hk
      rcases last hj with hj | ⟨-, hj⟩
      · rcases last hk with hk | ⟨-, hk⟩
        · exact h.once j k m hj hk
        · cases hk
      · cases hj
    · intro j m hj
      rw [hnet, he]
      rcases last hj with hj | ⟨-, hj⟩
      · exact h.below j m hj
      · cases hj
    · intro j z n q' hz hq'
      rw [hnet, he]
      rcases h2 j z hz n q' hq' with ⟨rfl, rfl⟩ | ⟨z', h3, h4⟩
      · refine .inl ⟨w.waits.length, ?_, ?_⟩
        · show (w.waits ++ [_])[_]? = _
          rw [← h.len]; simp
        · show ((w.net.get x).tickets ++ [_])[_]? = _
          rw [h.waits]; simp
      · rcases h.sent j z' n q' h3 h4 with ⟨k, h5, h6⟩ | ⟨m, h5, h6⟩
        · exact .inl ⟨k, get_prefix (List.prefix_append _ _) h5, get_prefix (List.prefix_append _ _) h6⟩
        · exact .inr ⟨m, pre _ h5, h6⟩
    · intro n o hn
      rw [hnet, he]
      obtain ⟨m, so, h5, h6⟩ := h.cell n o (hcell n o hn)
      exact ⟨m, so, pre _ h5, h6⟩
    · intro m g hg
      rw [hnet, he] at hg
      obtain ⟨n, hn⟩ := h.known m g hg
      exact ⟨n, pre _ hn⟩
  · rename_i hcon
    have he : (w.net.get x).send (asRequest q) = { w.net.get x with tab := (w.net.get x).tab.immediate (.refused (asRequest q).id) } := by
      unfold Endpoint.send; rw [if_neg hcon]
    have hlt : ∀ (j m : Nat), w.futs[j]? = some (some m) → m < (w.net.get x).tab.nextFut := h.below
    refine ⟨by simp only [List.length_append, h1, h.len]; rfl, ?_, ?_, h.apart, ?_, ?_, ?_, ?_, ?_⟩
    · rw [hnet, he]; exact h.waits
    · exact fun j k hj => pre _ (h.waiting j k hj)
    · intro j k m hj hk
      rcases last hj with hj | ⟨g1, hj⟩
      · rcases last hk with hk | ⟨-, hk⟩
        · exact h.once j k m hj hk
        · cases hk; exact absurd (hlt j _ hj) (Nat.lt_irrefl _)
      · cases hj
        rcases last hk with hk | ⟨g2, -⟩
        · exact absurd (hlt k _ hk) (Nat.lt_irrefl _)
        · rw [g1, g2]
    · intro j m hj
      rw [hnet, he]
      show m < (w.net.get x).tab.nextFut + 1
      rcases last hj with hj | ⟨-, hj⟩
      · exact Nat.lt_succ_of_lt (h.below j m hj)
      · cases hj; exact Nat.lt_succ_self _
    · intro j z n q' hz hq'
      rw [hnet, he]
      rcases h2 j z hz n q' hq' with ⟨rfl, rfl⟩ | ⟨z', h3, h4⟩
      · refine .inr ⟨(w.net.get x).tab.nextFut, ?_, .inr ⟨(asRequest q').id, ?_⟩⟩
        · show (w.futs ++ [_])[_]? = _
          rw [← h.len]; simp
        · exact List.mem_append_right _ (List.mem_singleton.2 rfl)
      · rcases h.sent j z' n q' h3 h4 with ⟨k, h5, h6⟩ | ⟨m, h5, h6 | h6⟩
        · exact .inl ⟨k, h5, h6⟩
        · exact .inr ⟨m, pre _ h5, .inl h6⟩
        · exact .inr ⟨m, pre _ h5, .inr (h6.imp fun _ h => List.mem_append_left _ h)⟩
    · intro n o hn
      rw [hnet, he]
      obtain ⟨m, so, h5, h6, h7⟩ := h.cell n o (hcell n o hn)
      exact ⟨m, so, pre _ h5, List.mem_append_left _ h6, h7⟩
    · intro m g hg
      rw [hnet, he] at hg
      obtain ⟨n, hn⟩ := h.known m g hg
      exact ⟨n, pre _ hn⟩

/-- A request gets its future. -/
theorem Link.filed {c : Cfg} {x : Bool} {w : World D H} (h : Link x w) (i : Nat) : Link x (w.file c x i) := by
  unfold World.file
  split
  · rename_i k hk
    have hnet : ((w.net.step c (.file x i)).get x) = (w.net.get x).file i := get_upd_same _ _ _
    have hlt : i < (w.net.get x).tickets.length := by rw [← h.waits]; exact lt_of_get hk
    obtain ⟨r, hr⟩ : ∃ r, (w.net.get x).tickets[i]? = some r := ⟨_, List.getElem?_eq_getElem hlt⟩
    have hkl := lt_of_get (h.waiting i k hk)
    have he : (w.net.get x).file i = { w.net.get x with
        tickets := (w.net.get x).tickets.eraseIdx i, counter := (chooseId r.id (w.net.get x).counter).2,
        tab := (w.net.get x).tab.insert (idText (chooseId r.id (w.net.get x).counter).1) .broken,
        sending := (w.net.get x).sending ++ [(idText (chooseId r.id (w.net.get x).counter).1, { r with id := (chooseId r.id (w.net.get x).counter).1 })],
        asked := (w.net.get x).asked ++ [((w.net.get x).tab.nextFut, { r with id := (chooseId r.id (w.net.get x).counter).1 })] } := by
      unfold Endpoint.file; rw [hr]
    have hout : ∀ p ∈ (w.net.get x).tab.outcomes, p ∈ ((w.net.get x).file i).tab.outcomes := by
      intro p hp
      rw [he]
      show p ∈ ((w.net.get x).tab.insert _ _).outcomes
      unfold PTab.insert
      dsimp only
      split
      · exact List.mem_append_left _ hp
      · exact hp
    have hset : ∀ {j m : Nat}, (w.futs.set k (some (w.net.get x).tab.nextFut))[j]? = some (some m) →
        (j = k ∧ m = (w.net.get x).tab.nextFut) ∨ (j ≠ k ∧ w.futs[j]? = some (some m)) := by
      intro j m hj
      by_cases hjk : k = j
      · subst hjk
        rw [List.getElem?_set_self hkl] at hj
        cases hj; exact .inl ⟨rfl, rfl⟩
      · rw [List.getElem?_set_ne hjk] at hj
        exact .inr ⟨fun e => hjk e.symm, hj⟩
    have keepF : ∀ {j m : Nat}, w.futs[j]? = some (some m) → (w.futs.set k (some (w.net.get x).tab.nextFut))[j]? = some (some m) := by
      intro j m hj
      have hjk : k ≠ j := fun e => by rw [← e, h.waiting i k hk] at hj; cases hj
      rw [List.getElem?_set_ne hjk]; exact hj
    have erased : ∀ {α : Type} {l : List α} {j : Nat} {a : α}, (l.eraseIdx i)[j]? = some a → ∃ j', j' ≠ i ∧ l[j']? = some a := by
      intro α l j a hj
      rw [List.getElem?_eraseIdx] at hj
      split at hj
      · exact ⟨j, by omega, hj⟩
      · exact ⟨j + 1, by omega, hj⟩
    refine ⟨by simp only [List.length_set]; exact h.len, ?_, ?_, ?_, ?_, ?_, ?_, ?_, ?_⟩
    · show (w.waits.eraseIdx i).length = _
      rw [hnet, he]
      show _ = ((w.net.get x).tickets.eraseIdx i).length
      rw [List.length_eraseIdx_of_lt (lt_of_get hk), List.length_eraseIdx_of_lt hlt, h.waits]
    · intro j k' hj
      obtain ⟨j', h1, h2⟩ := erased (show (w.waits.eraseIdx i)[j]? = some k' from hj)
      have hne : k ≠ k' := by
        intro e
        subst e
        exact h1 ((List.getElem?_inj (lt_of_get h2) h.apart).1 (h2.trans hk.symm))
      show (w.futs.set k _)[k']? = _
      rw [List.getElem?_set_ne hne]
      exact h.waiting j' k' h2
    · exact h.apart.sublist (List.eraseIdx_sublist ..)
    · intro j j' m h1 h2
      rcases hset h1 with ⟨rfl, rfl⟩ | ⟨h3, h4⟩
      · rcases hset h2 with ⟨rfl, -⟩ | ⟨-, h5⟩
        · rfl
        · exact absurd (h.below _ _ h5) (Nat.lt_irrefl _)
      · rcases hset h2 with ⟨rfl, rfl⟩ | ⟨-, h5⟩
        · exact absurd (h.below _ _ h4) (Nat.lt_irrefl _)
        · exact h.once _ _ _ h4 h5
    · intro j m h1
      rw [hnet, he]
      show m < (w.net.get x).tab.nextFut + 1
      rcases hset h1 with ⟨-, rfl⟩ | ⟨-, h4⟩
      · exact Nat.lt_succ_self _
      · exact Nat.lt_succ_of_lt (h.below _ _ h4)
    · intro j z n q hz hq
      rcases h.sent j z n q hz hq with ⟨a, h1, h2⟩ | ⟨m, h1, h2⟩
      · by_cases ha : a = i
        · subst ha
          rw [hk] at h1
          cases h1
          rw [hr] at h2
          cases h2
          refine .inr ⟨_, List.getElem?_set_self hkl, .inl ⟨(chooseId (asRequest q).id (w.net.get x).counter).1, chosen_choose q _, ?_⟩⟩
          rw [hnet, he]
          exact List.mem_append_right _ (List.mem_singleton.2 rfl)
        · rw [hnet, he]
          rcases Nat.lt_or_gt_of_ne ha with hlt' | hgt
          · refine .inl ⟨a, ?_, ?_⟩
            · show (w.waits.eraseIdx i)[a]? = _
              rw [List.getElem?_eraseIdx, if_pos hlt']; exact h1
            · show ((w.net.get x).tickets.eraseIdx i)[a]? = _
              rw [List.getElem?_eraseIdx, if_pos hlt']; exact h2
          · have hs : a - 1 + 1 = a := by omega
            refine .inl ⟨a - 1, ?_, ?_⟩
            · show (w.waits.eraseIdx i)[a - 1]? = _
              rw [List.getElem?_eraseIdx, if_neg (by omega), hs]; exact h1
            · show ((w.net.get x).tickets.eraseIdx i)[a - 1]? = _
              rw [List.getElem?_eraseIdx, if_neg (by omega), hs]; exact h2
      · refine .inr ⟨m, keepF h1, ?_⟩
        rw [hnet]
        rcases h2 with ⟨id, h2⟩ | h2
        · exact .inl ⟨id, by rw [he]; exact ⟨h2.1, List.mem_append_left _ h2.2⟩⟩
        · exact .inr (h2.imp fun _ h => hout _ h)
    · intro n o hn
      rw [hnet]
      obtain ⟨m, so, h5, h6, h7⟩ := h.cell n o hn
      exact ⟨m, so, keepF h5, hout _ h6, h7⟩
    · intro m g hg
      rw [hnet, he] at hg
      rcases List.mem_append.1 hg with hg | hg
      · obtain ⟨n, hn⟩ := h.known m g hg
        exact ⟨n, keepF hn⟩
      · cases List.mem_singleton.1 hg
        exact ⟨k, List.getElem?_set_self hkl⟩
  · exact h

theorem link_step {c : Cfg} {x : Bool} {w : World D H} (h : Link x w) (op : Op D H) : Link x (w.step c x op) := by
  have same : ∀ w' : World D H, w'.futs = w.futs → w'.waits = w.waits → w'.server = w.server → Share.Calm (w.net.get x) (w'.net.get x) → Link x w' := by
    intro w' h1 h1' h2 h3
    exact h.keep h1 h1' (by rw [h2]) h3 (fun j y hy n q hq => ⟨y, by rw [← h2]; exact hy, hq⟩) (fun n o hn => .inl (by rw [← h2]; exact hn))
  have hserver : ∀ (w' : World D H) (cop : SOp D), (∀ i, cop ≠ .go i) → (∀ n o, cop ≠ .fill n o) → w'.futs = w.futs → w'.waits = w.waits → w'.server = w.server.step cop →
      w'.net = w.net → Link x w' := by
    intro w' cop h0 h0' h1 h1' h2 h3
    refine h.keep h1 h1' (by rw [h2]; exact cells_step _ _ h0) (by rw [h3]; exact .rfl) (fun j y hy n q hq => ?_) (fun n o hn => ?_)
    · rw [h2] at hy; exact paths_step _ _ h0 j y hy n q hq
    · rw [h2] at hn
      rcases cells_other _ _ h0 n o hn with h4 | h4
      · exact .inl h4
      · exact absurd h4 (h0' n o)
  have hnf : ∀ (so : Shm.Outcome D), ∀ k, ∀ i, (Await.Op.fill k (seen so) : SOp D) ≠ .go i := fun _ _ _ h => nomatch h
  cases op with
  | call api => exact hserver _ (.call (sbody api)) (fun i => nofun) (fun n o => nofun) rfl rfl rfl rfl
  | drop i => exact hserver _ (.drop i) (fun i => nofun) (fun n o => nofun) rfl rfl rfl rfl
  | change u => exact hserver _ (.change u) (fun i => nofun) (fun n o => nofun) rfl rfl rfl rfl
  | wire op =>
    simp only [World.step]
    split
    · exact h
    · rename_i hr
      refine same _ rfl rfl rfl (calm_step c w.net op x (fun r e => hr ?_) fun i e => hr ?_)
      · rw [e]; simp [reserved]
      · rw [e]; simp [reserved]
  | file i => exact h.filed i
  | serve i env =>
    simp only [World.step, World.serve]
    split
    · exact h
    · split
      · exact h
      · split
        · exact same _ rfl rfl rfl (calm_step c w.net _ x (fun r e => nomatch e) fun i e => nomatch e)
        · exact same _ rfl rfl rfl .rfl
        · exact h
  | own op =>
    simp only [World.step]
    split
    · exact h
    · split
      · exact h
      · exact same _ rfl rfl rfl .rfl
  | deliver k =>
    simp only [World.step, World.deliver]
    split
    · rename_i m hm
      split
      · rename_i so hso
        refine h.keep rfl rfl (cells_step _ _ (hnf so k)) .rfl (fun j y hy n q hq => paths_step _ _ (hnf so k) j y hy n q hq) (fun n o hn => ?_)
        rcases cells_other _ _ (hnf so k) n o hn with h4 | h4
        · exact .inl h4
        · cases h4; exact .inr ⟨m, so, hm, AMap.get_some_mem hso, rfl⟩
      · exact h
    · exact h
  | go i =>
    have quiet : (asking w.server i = none ∨ ¬ (w.server.ub = false ∧ w.server.alive = true)) →
        Link x ({ w with server := w.server.step (.go i) } : World D H) := by
      intro hq
      obtain ⟨h1, h2⟩ := go_quiet w.server i hq
      exact h.keep rfl rfl (by rw [h1]) .rfl h2 (fun n o hn => .inl (by rw [← h1]; exact hn))
    show Link x (w.go c x i)
    cases hq : asking w.server i with
    | none =>
      unfold World.go
      rw [hq]
      exact quiet (.inl hq)
    | some q =>
      by_cases hs : w.server.ub = false ∧ w.server.alive = true
      · exact h.enter hq hs
      · unfold World.go
        rw [hq]
        dsimp only
        rw [if_neg hs]
        exact quiet (.inr hs)

theorem link_world (c : Cfg) (x : Bool) (s0 : SSelf D) (cli : Cli D H) (ops : List (Op D H)) : Link x ((World.init c s0 cli).run c x ops) := by
  induction ops using snoc_induction with
  | h0 =>
    refine ⟨rfl, ?_, fun i k h => (nomatch h), List.nodup_nil, fun j k m h => (nomatch h), fun j m h => (nomatch h), fun i z n q hz => (nomatch hz),
      fun n o hn => (nomatch hn), fun m q h => ?_⟩
    · cases x <;> rfl
    · have : (m, q) ∈ (((World.init c s0 cli : World D H).net).get x).asked := h
      have h0 : (((World.init c s0 cli : World D H).net).get x).asked = [] := by cases x <;> rfl
      rw [h0] at this; cases this
  | h1 ops op ih => rw [run_snoc]; exact link_step ih op

end Verif.Back
