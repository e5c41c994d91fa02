import Verif.Http.LinkProps

/-! Helper lemmas for the requests of the server: their ids, and what may complete them. -/

set_option linter.unusedSectionVars false

namespace Verif

open Http
open InMemory (PlainReq PlainNote PlainOut replyFor_classified replyFor_id)

variable {D : Type} [DblFmt D]

/-! ### The ids of the requests of the server -/

/-- The id of a request text. -/
def msgKey (D : Type) [DblFmt D] (b : Bytes) : Option Bytes :=
  if classify b = .request then (deRequest (D := D) b).map (fun q => keyText q.id) else none

theorem msgKey_request {q : Request D} (hq : PlainReq q) : msgKey D (serRequest q) = some (keyText q.id) := by
  unfold msgKey
  rw [if_pos (C15_request_classified q hq.1 hq.2.1 hq.2.2.2), C04_request_roundtrip_wire q hq.1.ok hq.2.1.noQuote hq.2.2.1 hq.2.2.2]
  rfl

theorem msgKey_note {n : Notification D} (hn : PlainNote n) : msgKey D (serNotification n) = none := by
  unfold msgKey
  rw [if_neg (by rw [C15_notification_classified n hn.1 hn.2.2]; intro e; cases e)]

/-- The ids given to the requests of the server. -/
def srvGiven (ops : List (HsOp D)) : List Bytes :=
  ops.filterMap (fun op => match op with | .take (.request r) => if keyText r.id = [] then none else some (keyText r.id) | _ => none)

/-- The requests of the server have ids of their own, or none, and not of the form the server makes. -/
structure OwnSrvIds (ops : List (HsOp D)) : Prop where
  distinct : (srvGiven ops).Nodup
  form : ∀ k ∈ srvGiven ops, ¬ lit "http-server-req-" <+: k

def srvMade (i : Nat) : Bytes := lit "http-server-req-" ++ natDec i

theorem srvMade_inj {i j : Nat} (h : srvMade i = srvMade j) : i = j := by
  have := congrArg digitsVal (List.append_cancel_left h)
  rwa [digitsVal_natDec, digitsVal_natDec] at this

def foundKey : SendStage D → Option Bytes
  | .found _ (.request r) => if keyText r.id = [] then none else some (keyText r.id)
  | _ => none

def filedKey : SendStage D → Option Bytes
  | .filed _ p => msgKey D p
  | _ => none

def foundKeys (s : Hs D) : List Bytes := s.sends.filterMap foundKey
def queuesOf (s : Hs D) : List (List (Nat × Bytes)) := s.objs.map (·.queue)
def keysIn (D : Type) [DblFmt D] (q : List (List (Nat × Bytes))) : List Bytes := q.flatten.filterMap (fun e => msgKey D e.2)
def eventKeys (s : Hs D) : List Bytes := s.events.filterMap (fun e => msgKey D e.2.1.2)
def filedKeys (s : Hs D) : List Bytes := s.sends.filterMap filedKey ++ (keysIn D (queuesOf s) ++ eventKeys s)

structure SrvIds (ops : List (HsOp D)) (s : Hs D) : Prop where
  nodup : (foundKeys s ++ filedKeys s).Nodup
  made : ∀ k ∈ filedKeys s, k ∈ srvGiven ops ∨ ∃ i, i ≤ s.counter ∧ k = srvMade i
  found : ∀ k ∈ foundKeys s, k ∈ srvGiven ops
  sent : ∀ x ∈ s.objs, ∀ n k, (n, k) ∈ x.pend.sent → k ∈ filedKeys s
  noBroken : ∀ x ∈ s.objs, ∀ y ∈ x.pend.outcomes, y.2 ≠ .broken

theorem srvIds_init : SrvIds [] (Hs.init : Hs D) := by
  refine ⟨List.nodup_nil, ?_, ?_, ?_, ?_⟩
  · intro k h; cases h
  · intro k h; cases h
  · intro k h; cases h
  · intro k h; cases h

theorem modify_split {α : Type} {l : List α} {o : Nat} {x : α} (h : l[o]? = some x) :
    ∃ a b, l = a ++ x :: b ∧ ∀ f, l.modify o f = a ++ f x :: b := by
  induction l generalizing o with
  | nil => cases h
  | cons y l ih =>
    cases o with
    | zero =>
      simp only [List.getElem?_cons_zero, Option.some.injEq] at h
      subst h
      exact ⟨[], l, rfl, fun f => by simp⟩
    | succ o =>
      rw [List.getElem?_cons_succ] at h
      obtain ⟨a, b, e, h1⟩ := ih h
      exact ⟨y :: a, b, by rw [e]; rfl, fun f => by rw [List.modify_succ_cons, h1 f]; rfl⟩

theorem modify_none {α : Type} {l : List α} {o : Nat} (h : l[o]? = none) (f : α → α) : l.modify o f = l := by
  apply List.ext_getElem?
  intro i
  rw [modify_get]
  by_cases e : o = i
  · subst e; rw [h]; rfl
  · simp [e]

theorem modify_queues {l : List (Sess D)} (o : Nat) {f : Sess D → Sess D} (hf : ∀ x, (f x).queue = x.queue) :
    (l.modify o f).map (·.queue) = l.map (·.queue) := by
  apply List.ext_getElem?
  intro i
  rw [List.getElem?_map, modify_get, List.getElem?_map, Option.map_map]
  congr 1
  funext x
  show (if o = i then f x else x).queue = x.queue
  split
  · exact hf x
  · rfl

theorem stop_queues (s : Hs D) : queuesOf s.stop = queuesOf s := by
  unfold queuesOf Hs.stop
  apply List.ext_getElem?
  intro i
  rw [List.getElem?_map, stop_objs, List.getElem?_map, Option.map_map]
  congr 1
  funext x
  show (if _ then x.close _ else x).queue = x.queue
  split <;> rfl

theorem keysIn_push (a b : List (List (Nat × Bytes))) (q : List (Nat × Bytes)) (e : Nat × Bytes) :
    (keysIn D (a ++ (q ++ [e]) :: b)).Perm ((msgKey D e.2).toList ++ keysIn D (a ++ q :: b)) := by
  unfold keysIn
  simp only [List.flatten_append, List.flatten_cons, List.filterMap_append]
  have : [e].filterMap (fun e => msgKey D e.2) = (msgKey D e.2).toList := by
    rw [List.filterMap_cons, List.filterMap_nil]
    cases msgKey D e.2 <;> rfl
  rw [this]
  generalize (msgKey D e.2).toList = k
  generalize a.flatten.filterMap _ = A
  generalize q.filterMap _ = Q
  generalize b.flatten.filterMap _ = B
  rw [List.append_assoc Q k B]
  refine (List.Perm.append_left A (List.perm_append_comm_assoc Q k B)).trans ?_
  exact List.perm_append_comm_assoc A k (Q ++ B)

theorem keysIn_pop (a b : List (List (Nat × Bytes))) (q : List (Nat × Bytes)) (e : Nat × Bytes) :
    (keysIn D (a ++ (e :: q) :: b)).Perm ((msgKey D e.2).toList ++ keysIn D (a ++ q :: b)) := by
  unfold keysIn
  simp only [List.flatten_append, List.flatten_cons, List.filterMap_append, List.cons_append]
  have : ∀ l : List (Nat × Bytes), (e :: l).filterMap (fun e => msgKey D e.2) = (msgKey D e.2).toList ++ l.filterMap (fun e => msgKey D e.2) := by
    intro l
    rw [List.filterMap_cons]
    cases msgKey D e.2 <;> rfl
  rw [this, List.filterMap_append]
  exact List.perm_append_comm_assoc _ _ _

/-- The ids after a step that moves none. -/
theorem SrvIds.frame {ops : List (HsOp D)} {s s' : Hs D} (h : SrvIds ops s) (op : HsOp D) (h1 : foundKeys s' = foundKeys s) (h2 : (filedKeys s').Perm (filedKeys s))
    (h3 : s'.counter = s.counter) (h4 : ∀ x ∈ s'.objs, (∀ n k, (n, k) ∈ x.pend.sent → k ∈ filedKeys s) ∧ ∀ y ∈ x.pend.outcomes, y.2 ≠ .broken) :
    SrvIds (ops ++ [op]) s' := by
  have hg : ∀ k ∈ srvGiven ops, k ∈ srvGiven (ops ++ [op]) := by
    intro k hk
    unfold srvGiven
    rw [List.filterMap_append]
    exact List.mem_append_left _ hk
  refine ⟨?_, fun k hk => ?_, fun k hk => hg k (h.found k (by rw [← h1]; exact hk)), fun x hx n k hk => ?_, fun x hx => (h4 x hx).2⟩
  · rw [h1]
    exact ((List.Perm.append_left _ h2).nodup_iff).2 h.nodup
  · rw [h3]
    rcases h.made k (h2.mem_iff.1 hk) with h5 | h5
    · exact .inl (hg k h5)
    · exact .inr h5
  · exact h2.mem_iff.2 ((h4 x hx).1 n k hk)

theorem SrvIds.obj {ops : List (HsOp D)} {s : Hs D} (h : SrvIds ops s) {x : Sess D} (hx : x ∈ s.objs) :
    (∀ n k, (n, k) ∈ x.pend.sent → k ∈ filedKeys s) ∧ ∀ y ∈ x.pend.outcomes, y.2 ≠ .broken := ⟨h.sent x hx, h.noBroken x hx⟩

/-- Closing and answering break no promise. -/
theorem closeAll_whole {t : PTab (SOut D)} (h : ∀ y ∈ t.outcomes, y.2 ≠ .broken) (text : Bytes) : ∀ y ∈ (t.closeAll (closedOut text)).outcomes, y.2 ≠ .broken := by
  intro y hy
  rcases List.mem_append.1 hy with h1 | h1
  · exact h y h1
  · obtain ⟨p, -, rfl⟩ := List.mem_map.1 h1
    intro e; cases e

theorem resolve_whole {x : Sess D} (h : ∀ y ∈ x.pend.outcomes, y.2 ≠ .broken) (r : Response D) : ∀ y ∈ (x.resolve r).pend.outcomes, y.2 ≠ .broken := by
  unfold Sess.resolve
  split
  · exact h
  · intro y hy
    revert hy
    show y ∈ (x.pend.complete _ _).outcomes → _
    unfold PTab.complete
    split
    · intro hy
      rcases List.mem_append.1 hy with h1 | h1
      · exact h y h1
      · simp only [List.mem_singleton] at h1
        subst h1
        intro e; cases e
    · exact h y

theorem resolve_sent (x : Sess D) (r : Response D) : (x.resolve r).pend.sent = x.pend.sent := by
  unfold Sess.resolve
  split
  · rfl
  · exact PTab.complete_sent _ _

theorem srvWithId_given (s : Hs D) {r : Request D} (h : keyText r.id ≠ []) : s.withId r = (r, s.counter) := by
  unfold Hs.withId
  rw [if_neg h]

theorem srvWithId_made (s : Hs D) {r : Request D} (h : keyText r.id = []) :
    s.withId r = ({ r with id := .str (srvMade (s.counter + 1)) }, s.counter + 1) := by
  unfold Hs.withId
  rw [if_pos h]; rfl

theorem filterMap_set_perm' {α β : Type} {f : α → Option β} {l : List α} {i : Nat} {x y : α} (hi : l[i]? = some x) (hx : f x = none) :
    ((l.set i y).filterMap f).Perm ((f y).toList ++ l.filterMap f) := by
  have hlt : i < l.length := (List.getElem?_eq_some_iff.1 hi).1
  have h := filterMap_set_perm (f := f) (l := l.set i y) (i := i) (x := y) (y := x) (List.getElem?_set_self hlt) hx
  rw [List.set_set] at h
  have e : l.set i x = l := by
    apply List.ext_getElem?
    intro j
    rw [List.getElem?_set]
    split
    · rename_i e; subst e; first | exact hi.symm | (rw [if_pos hlt, hi])
    · rfl
  rw [e] at h
  exact h.trans List.perm_append_comm

theorem insert_whole {t : PTab (SOut D)} (h : ∀ y ∈ t.outcomes, y.2 ≠ .broken) {k : Bytes} (hk : AMap.get t.pending k = none) :
    ∀ y ∈ (t.insert k .broken).outcomes, y.2 ≠ .broken := by
  intro y hy
  revert hy
  show y ∈ (match AMap.get t.pending k with | some old => t.outcomes ++ [(old, SOut.broken)] | none => t.outcomes) → _
  rw [hk]
  exact h y

/-- A request without a place yet is filed under an id nobody has. -/
theorem srvIds_filing {ops : List (HsOp D)} {s : Hs D} (h : SrvIds ops s) (ho : OwnSrvIds ops) {c o : Nat} {r : Request D}
    (hc : s.sends[c]? = some (.found o (.request r))) (hr : PlainReq r) :
    keyText (s.withId r).1.id ∉ filedKeys s ∧ PlainReq (s.withId r).1 ∧
    (foundKeys s).Perm ((if keyText r.id = [] then [] else [keyText (s.withId r).1.id]) ++ (s.sends.set c (.filed o (serRequest (s.withId r).1))).filterMap foundKey) := by
  refine ⟨?_, srvId_plain s hr, ?_⟩
  · by_cases hk : keyText r.id = []
    · rw [srvWithId_made s hk]
      intro hm
      rcases h.made _ hm with h1 | ⟨i, h1, h2⟩
      · exact ho.form _ h1 (List.prefix_append _ _)
      · have := srvMade_inj (show srvMade (s.counter + 1) = srvMade i from h2)
        omega
    · rw [srvWithId_given s hk]
      intro hm
      have hf : keyText r.id ∈ foundKeys s := by
        refine List.mem_filterMap.2 ⟨_, List.mem_of_getElem? hc, ?_⟩
        show (if _ then _ else _) = _
        rw [if_neg hk]
      exact (List.nodup_append.1 h.nodup).2.2 _ hf _ hm rfl
  · have := filterMap_set_perm (f := foundKey) (y := .filed o (serRequest (s.withId r).1)) hc rfl
    refine this.trans (List.perm_append_comm.trans ?_)
    refine List.Perm.append_right _ ?_
    show (if keyText r.id = [] then none else some (keyText r.id)).toList.Perm _
    by_cases hk : keyText r.id = []
    · rw [if_pos hk, if_pos hk]; exact List.Perm.refl _
    · rw [if_neg hk, if_neg hk, srvWithId_given s hk]; exact List.Perm.refl _

theorem srvGiven_mono {ops : List (HsOp D)} {op : HsOp D} : ∀ k ∈ srvGiven ops, k ∈ srvGiven (ops ++ [op]) := by
  intro k hk
  unfold srvGiven
  rw [List.filterMap_append]
  exact List.mem_append_left _ hk

theorem ownSrvIds_init {a b : List (HsOp D)} (h : OwnSrvIds (a ++ b)) : OwnSrvIds a := by
  have e : srvGiven (a ++ b) = srvGiven a ++ srvGiven b := by
    unfold srvGiven
    exact List.filterMap_append
  obtain ⟨h1, h2⟩ := h
  rw [e] at h1 h2
  exact ⟨(List.nodup_append.1 h1).1, fun k hk => h2 k (List.mem_append_left _ hk)⟩

theorem filterMap_one {α β : Type} (f : α → Option β) (x : α) : [x].filterMap f = (f x).toList := by
  rw [List.filterMap_cons, List.filterMap_nil]; cases f x <;> rfl

theorem srvIds_step {ops : List (HsOp D)} {s : Hs D} (hr : SessRefs s) (hp : HsPlain s) (hi : ∀ x ∈ s.objs, PInv x) (h : SrvIds ops s) (op : HsOp D)
    (ho : OwnSrvIds (ops ++ [op])) : SrvIds (ops ++ [op]) (s.step op) := by
  have keep : ∀ {o : Nat} {f : Sess D → Sess D}, (∀ x, (f x).pend = x.pend) → ∀ x ∈ s.objs.modify o f,
      (∀ n k, (n, k) ∈ x.pend.sent → k ∈ filedKeys s) ∧ ∀ y ∈ x.pend.outcomes, y.2 ≠ .broken := by
    intro o f hf x hx
    rcases mem_modify hx with h1 | ⟨y, hy, rfl⟩
    · exact h.obj h1
    · rw [hf y]; exact h.obj hy
  cases op with
  | create sid v =>
    refine h.frame _ rfl ?_ rfl (fun x hx => ?_)
    · have : keysIn D (queuesOf (s.step (.create sid v))) = keysIn D (queuesOf s) := by
        unfold keysIn queuesOf
        show ((s.objs ++ [Sess.fresh v]).map Sess.queue).flatten.filterMap _ = _
        rw [List.map_append, List.flatten_append]
        show (_ ++ ([] : List (Nat × Bytes))).filterMap _ = _
        rw [List.append_nil]
      unfold filedKeys
      rw [this]
      exact List.Perm.refl _
    · rcases List.mem_append.1 hx with h1 | h1
      · exact h.obj h1
      · simp only [List.mem_singleton] at h1
        subst h1
        exact ⟨fun n k hk => (by cases hk), fun y hy => (by cases hy)⟩
  | remove sid =>
    simp only [Hs.step, Hs.remove]
    split
    · exact h.frame _ rfl (List.Perm.refl _) rfl (fun x hx => h.obj hx)
    · rename_i o hg
      refine h.frame _ rfl ?_ rfl (fun x hx => ?_)
      · unfold filedKeys queuesOf
        show (_ ++ (keysIn D ((s.objs.modify o _).map _) ++ _)).Perm _
        rw [modify_queues]
        · exact List.Perm.refl _
        · intro x; rfl
      · rcases mem_modify hx with h1 | ⟨y, hy, rfl⟩
        · exact h.obj h1
        · exact ⟨(h.obj hy).1, closeAll_whole (h.obj hy).2 _⟩
  | take m =>
    have hfiled : filedKeys (s.step (.take m)) = filedKeys s := by
      unfold filedKeys
      show (s.sends ++ [_]).filterMap filedKey ++ _ = _
      rw [List.filterMap_append, List.filterMap_cons, List.filterMap_nil]
      cases s.activeObj with
      | none => exact congrArg (· ++ _) (List.append_nil _)
      | some o => exact congrArg (· ++ _) (List.append_nil _)
    have hfound : foundKeys (s.step (.take m)) = foundKeys s ++ (match s.activeObj with | some o => (foundKey (.found o m)).toList | none => []) := by
      unfold foundKeys
      show (s.sends ++ [_]).filterMap foundKey = _
      rw [List.filterMap_append, List.filterMap_cons, List.filterMap_nil]
      cases s.activeObj with
      | none => rfl
      | some o => dsimp only; cases foundKey (.found o m) <;> rfl
    have hnew : ∀ k ∈ (match s.activeObj with | some o => (foundKey (.found o m)).toList | none => []), ∃ r, m = .request r ∧ keyText r.id = k ∧ k ≠ [] := by
      intro k hk
      revert hk
      cases s.activeObj with
      | none => intro hk; cases hk
      | some o =>
        cases m with
        | note n => intro hk; cases hk
        | request r =>
          show k ∈ (if keyText r.id = [] then none else some (keyText r.id)).toList → _
          by_cases hz : keyText r.id = []
          · rw [if_pos hz]; intro hk; cases hk
          · rw [if_neg hz]
            intro hk
            simp only [Option.toList_some, List.mem_singleton] at hk
            exact ⟨r, rfl, hk.symm, hk ▸ hz⟩
    have hlen : (match s.activeObj with | some o => (foundKey (.found o m)).toList | none => []).Nodup := by
      cases s.activeObj with
      | none => exact List.nodup_nil
      | some o => dsimp only; cases foundKey (.found o m) <;> simp
    generalize (match s.activeObj with | some o => (foundKey (.found o m)).toList | none => []) = add at hfound hnew hlen
    have hgiv : ∀ k ∈ add, k ∈ srvGiven (ops ++ [.take m]) ∧ k ∉ srvGiven ops := by
      intro k hk
      obtain ⟨r, rfl, hr', hne⟩ := hnew k hk
      have e : srvGiven (ops ++ [.take (.request r)]) = srvGiven ops ++ [k] := by
        unfold srvGiven
        rw [List.filterMap_append, List.filterMap_cons, List.filterMap_nil]
        simp only [hr', if_neg hne]
      have hd := ho.distinct
      rw [e] at hd ⊢
      exact ⟨by simp, fun hm => (List.nodup_append.1 hd).2.2 _ hm _ (List.mem_singleton.2 rfl) rfl⟩
    refine ⟨?_, ?_, ?_, ?_, h.noBroken⟩
    · rw [hfound, hfiled]
      have : (foundKeys s ++ add ++ filedKeys s).Perm (add ++ (foundKeys s ++ filedKeys s)) := by
        rw [List.append_assoc]
        exact List.perm_append_comm_assoc _ _ _
      rw [this.nodup_iff]
      refine List.nodup_append.2 ⟨hlen, h.nodup, ?_⟩
      rintro a ha b hb rfl
      have hg := hgiv a ha
      rcases List.mem_append.1 hb with h1 | h1
      · exact hg.2 (h.found a h1)
      · rcases h.made a h1 with h2 | ⟨i, -, h2⟩
        · exact hg.2 h2
        · exact ho.form a hg.1 (by rw [h2]; exact List.prefix_append _ _)
    · rw [hfiled]
      intro k hk
      rcases h.made k hk with h1 | h1
      · exact .inl (srvGiven_mono k h1)
      · exact .inr h1
    · rw [hfound]
      intro k hk
      rcases List.mem_append.1 hk with h1 | h1
      · exact srvGiven_mono k (h.found k h1)
      · exact (hgiv k h1).1
    · rw [hfiled]; exact h.sent
  | advance c =>
    simp only [Hs.step, Hs.advance]
    split
    · rename_i o r hc
      have hpl : PlainReq r := hp.found o _ (List.mem_of_getElem? hc)
      obtain ⟨h1, h2, h3⟩ := srvIds_filing h (ownSrvIds_init ho) hc hpl
      have hcnt : s.counter ≤ (s.withId r).2 := by
        by_cases hk : keyText r.id = []
        · rw [srvWithId_made s hk]; exact Nat.le_succ _
        · rw [srvWithId_given s hk]; exact Nat.le_refl _
      have hkey : keyText (s.withId r).1.id ∈ srvGiven ops ∧ keyText r.id ≠ [] ∨ (s.withId r).2 = s.counter + 1 ∧ keyText (s.withId r).1.id = srvMade (s.counter + 1) ∧ keyText r.id = [] := by
        by_cases hk : keyText r.id = []
        · rw [srvWithId_made s hk]; exact .inr ⟨rfl, rfl, hk⟩
        · rw [srvWithId_given s hk]
          refine .inl ⟨h.found _ (List.mem_filterMap.2 ⟨_, List.mem_of_getElem? hc, ?_⟩), hk⟩
          show (if _ then _ else _) = _
          rw [if_neg hk]
      generalize hw : (s.withId r).1 = w at h1 h2 h3 hkey ⊢
      generalize (s.withId r).2 = cnt at hcnt hkey ⊢
      generalize hs' : ({ s with objs := s.objs.modify o (fun x => { x with pend := x.pend.insert (keyText w.id) .broken }), counter := cnt, sends := s.sends.set c (.filed o (serRequest w)) } : Hs D) = s'
      have hfound : foundKeys s' = (s.sends.set c (.filed o (serRequest w))).filterMap foundKey := by rw [← hs']; rfl
      have hfiled : (filedKeys s').Perm (keyText w.id :: filedKeys s) := by
        rw [← hs']
        unfold filedKeys queuesOf
        show ((s.sends.set c (.filed o (serRequest w))).filterMap filedKey ++ (keysIn D ((s.objs.modify o _).map _) ++ _)).Perm _
        rw [modify_queues]
        · have := filterMap_set_perm' (f := filedKey) (y := .filed o (serRequest w)) hc rfl
          rw [show filedKey (.filed o (serRequest w) : SendStage D) = some (keyText w.id) from msgKey_request h2] at this
          exact this.append_right _
        · intro x; rfl
      refine ⟨?_, ?_, ?_, ?_, ?_⟩
      · rw [hfound]
        refine ((List.Perm.append_left _ hfiled).nodup_iff).2 ?_
        refine (List.perm_middle.nodup_iff).2 (List.nodup_cons.2 ⟨?_, ?_⟩)
        · intro hm
          rcases List.mem_append.1 hm with h4 | h4
          · rcases hkey with ⟨h5, h6⟩ | ⟨-, h5, -⟩
            · rw [if_neg h6] at h3
              have := (h3.nodup_iff).1 (List.nodup_append.1 h.nodup).1
              exact (List.nodup_cons.1 this).1 h4
            · exact (ownSrvIds_init ho).form _ (h.found _ (h3.mem_iff.2 (List.mem_append_right _ h4))) (by rw [h5]; exact List.prefix_append _ _)
          · exact h1 h4
        · have := h.nodup
          refine List.nodup_append.2 ⟨?_, (List.nodup_append.1 this).2.1, ?_⟩
          · exact (List.nodup_append.1 ((h3.nodup_iff).1 (List.nodup_append.1 this).1)).2.1
          · intro a ha b hb
            exact (List.nodup_append.1 this).2.2 a (h3.mem_iff.2 (List.mem_append_right _ ha)) b hb
      · intro k hk
        have hcnt' : s'.counter = cnt := by rw [← hs']
        rw [hcnt']
        rcases List.mem_cons.1 (hfiled.mem_iff.1 hk) with h4 | h4
        · subst h4
          rcases hkey with ⟨h5, -⟩ | ⟨h5, h6, -⟩
          · exact .inl (srvGiven_mono _ h5)
          · exact .inr ⟨_, Nat.le_of_eq h5.symm, h6⟩
        · rcases h.made k h4 with h5 | ⟨i, h5, h6⟩
          · exact .inl (srvGiven_mono _ h5)
          · exact .inr ⟨i, Nat.le_trans h5 hcnt, h6⟩
      · rw [hfound]
        intro k hk
        exact srvGiven_mono k (h.found k (h3.mem_iff.2 (List.mem_append_right _ hk)))
      · intro x hx n k hk
        rw [← hs'] at hx
        refine hfiled.mem_iff.2 ?_
        rcases mem_modify hx with h4 | ⟨y, hy, rfl⟩
        · exact List.mem_cons_of_mem _ (h.sent x h4 n k hk)
        · rcases List.mem_append.1 hk with h4 | h4
          · exact List.mem_cons_of_mem _ (h.sent y hy n k h4)
          · simp only [List.mem_singleton, Prod.mk.injEq] at h4
            rw [h4.2]; exact List.mem_cons_self ..
      · intro x hx
        rw [← hs'] at hx
        rcases mem_modify hx with h4 | ⟨y, hy, rfl⟩
        · exact h.noBroken x h4
        · refine insert_whole (h.noBroken y hy) ?_
          cases hg : AMap.get y.pend.pending (keyText w.id) with
          | none => rfl
          | some n => exact absurd (h.sent y hy n _ ((hi y hy).pend _ _ (AMap.get_some_mem hg))) h1
    · rename_i o n hc
      have hn : PlainNote n := hp.found o _ (List.mem_of_getElem? hc)
      obtain ⟨x, hx⟩ : ∃ x, s.objs[o]? = some x := ⟨_, List.getElem?_eq_some_iff.2 ⟨hr.sends c _ o hc rfl, rfl⟩⟩
      obtain ⟨a, b, e1, e2⟩ := modify_split hx
      refine h.frame _ ?_ ?_ rfl (keep (fun _ => rfl))
      · exact filterMap_set_eq (f := foundKey) hc rfl
      · unfold filedKeys queuesOf
        show ((s.sends.set c _).filterMap filedKey ++ (keysIn D ((s.objs.modify o _).map _) ++ _)).Perm _
        rw [filterMap_set_eq (f := filedKey) (y := .finished) hc rfl, e2, e1, List.map_append, List.map_append, List.map_cons, List.map_cons]
        refine List.Perm.append_left _ (List.Perm.append_right _ ?_)
        refine (keysIn_push _ _ _ _).trans ?_
        show ((msgKey D (serNotification n)).toList ++ _).Perm _
        rw [msgKey_note hn]
        exact List.Perm.refl _
    · rename_i o p hc
      obtain ⟨x, hx⟩ : ∃ x, s.objs[o]? = some x := ⟨_, List.getElem?_eq_some_iff.2 ⟨hr.sends c _ o hc rfl, rfl⟩⟩
      obtain ⟨a, b, e1, e2⟩ := modify_split hx
      refine h.frame _ ?_ ?_ rfl (keep (fun _ => rfl))
      · exact filterMap_set_eq (f := foundKey) hc rfl
      · unfold filedKeys queuesOf
        show ((s.sends.set c _).filterMap filedKey ++ (keysIn D ((s.objs.modify o _).map _) ++ _)).Perm _
        rw [e2, e1, List.map_append, List.map_append, List.map_cons, List.map_cons]
        have h1 := filterMap_set_perm (f := filedKey) (y := .finished) hc rfl
        refine List.Perm.trans ?_ ((h1.append_right _).symm)
        rw [List.append_assoc]
        refine List.Perm.append_left _ ?_
        rw [← List.append_assoc]
        exact List.Perm.append_right _ (keysIn_push _ _ _ _)
    · exact h.frame _ rfl (List.Perm.refl _) rfl (fun x hx => h.obj hx)
  | find sid => exact h.frame _ rfl (List.Perm.refl _) rfl (fun x hx => h.obj hx)
  | answer f r =>
    simp only [Hs.step, Hs.answer]
    split
    · rename_i o hg
      refine h.frame _ rfl ?_ rfl (fun x hx => ?_)
      · unfold filedKeys queuesOf
        show (_ ++ (keysIn D ((s.objs.modify o _).map _) ++ _)).Perm _
        rw [modify_queues]
        · exact List.Perm.refl _
        · intro x; unfold Sess.resolve; split <;> rfl
      · rcases mem_modify hx with h1 | ⟨y, hy, rfl⟩
        · exact h.obj h1
        · rw [resolve_sent]; exact ⟨(h.obj hy).1, resolve_whole (h.obj hy).2 _⟩
    · exact h.frame _ rfl (List.Perm.refl _) rfl (fun x hx => h.obj hx)
  | openStream f =>
    simp only [Hs.step, Hs.openStream]
    split
    · exact h.frame _ rfl (List.Perm.refl _) rfl (fun x hx => h.obj hx)
    · exact h.frame _ rfl (List.Perm.refl _) rfl (fun x hx => h.obj hx)
  | pump k ok =>
    simp only [Hs.step, Hs.pump]
    split
    · exact h.frame _ rfl (List.Perm.refl _) rfl (fun x hx => h.obj hx)
    · split
      · exact h.frame _ rfl (List.Perm.refl _) rfl (fun x hx => h.obj hx)
      · rename_i o hk _ x hx
        split
        · exact h.frame _ rfl (List.Perm.refl _) rfl (fun x hx => h.obj hx)
        · split
          · exact h.frame _ rfl (List.Perm.refl _) rfl (fun x hx => h.obj hx)
          · rename_i e rest hq
            obtain ⟨a, b, e1, e2⟩ := modify_split hx
            refine h.frame _ rfl ?_ rfl (keep (fun _ => rfl))
            unfold filedKeys queuesOf eventKeys
            show (_ ++ (keysIn D ((s.objs.modify o _).map _) ++ (s.events ++ [(k, e, ok)]).filterMap _)).Perm _
            rw [e2, e1, List.map_append, List.map_append, List.map_cons, List.map_cons, hq]
            refine List.Perm.append_left _ ?_
            refine List.Perm.trans ?_ ((keysIn_pop _ _ _ _).append_right _).symm
            rw [List.filterMap_append, filterMap_one, List.append_assoc]
            refine (List.Perm.append_left _ List.perm_append_comm).trans ?_
            exact List.perm_append_comm_assoc _ _ _
  | stop =>
    refine h.frame _ rfl ?_ rfl (fun x hx => ?_)
    · unfold filedKeys
      rw [show queuesOf (s.step .stop) = queuesOf s from stop_queues s]
      exact List.Perm.refl _
    · obtain ⟨j, hj⟩ := List.mem_iff_getElem?.1 hx
      simp only [Hs.step, Hs.stop] at hj
      rw [stop_objs] at hj
      cases hl : s.objs[j]? with
      | none => rw [hl] at hj; cases hj
      | some z =>
        rw [hl] at hj
        simp only [Option.map_some, Option.some.injEq] at hj
        have hz := h.obj (List.mem_of_getElem? hl)
        split at hj
        · subst hj; exact ⟨hz.1, closeAll_whole hz.2 _⟩
        · subst hj; exact hz

theorem run_invs (ops : List (HsOp D)) : ∀ x ∈ ((Hs.init : Hs D).run ops).objs, PInv x := by
  intro x hx
  obtain ⟨o, ho⟩ := List.mem_iff_getElem?.1 hx
  exact run_inv ops (Hs.init : Hs D) (fun o x hx => by simp [Hs.init] at hx) o x ho

theorem hsPlain_init : HsPlain (Hs.init : Hs D) := by
  refine ⟨?_, ?_, ?_, ?_⟩
  · intro x h; cases h
  · intro o m h; cases h
  · intro o p h; cases h
  · intro e h; cases h

theorem hs_run_concat (s : Hs D) (a : List (HsOp D)) (op : HsOp D) : s.run (a ++ [op]) = (s.run a).step op := by
  rw [hs_run_append]; rfl

theorem srvIds_run (ops : List (HsOp D)) (hp : ∀ m, HsOp.take m ∈ ops → PlainGoing m) (ho : OwnSrvIds ops) : SrvIds ops ((Hs.init : Hs D).run ops) := by
  have key : ∀ l : List (HsOp D), l.reverse <+: ops → SrvIds l.reverse ((Hs.init : Hs D).run l.reverse) := by
    intro l
    induction l with
    | nil => intro _; exact srvIds_init
    | cons op l ih =>
      intro h
      rw [List.reverse_cons] at h ⊢
      have hpre := (List.prefix_append l.reverse [op]).trans h
      rw [hs_run_concat]
      obtain ⟨t, ht⟩ := h
      refine srvIds_step (refs_run _ _ refs_init) (hsPlain_run hsPlain_init _ (fun m hm => hp m (hpre.subset hm))) (run_invs _) (ih hpre) op ?_
      rw [← ht] at ho
      exact ownSrvIds_init ho
  have := key ops.reverse (by rw [List.reverse_reverse]; exact List.prefix_refl _)
  rwa [List.reverse_reverse] at this

/-! ### What completes the requests of the server -/

/-- An error the server makes itself. -/
def ServerError (key : Bytes) (r : Response D) : Prop :=
  r.id = .str key ∧ r.result = none ∧ ∃ text ∈ [lit "HTTP session closed", lit "Transport closed"],
    r.error = some (.obj [(lit "code", .int (-32603)), (lit "message", .str text)])

def SrvEnd (L : List (HsOp D)) : SOut D → Bytes → Prop
  | .resp r, k => ServerError k r ∨ keyText r.id = k ∧ ∃ f, HsOp.answer f r ∈ L
  | .broken, _ => False

theorem closed_end (L : List (HsOp D)) {text : Bytes} (h : text ∈ [lit "HTTP session closed", lit "Transport closed"]) (k : Bytes) :
    SrvEnd L (closedOut text k) k := .inl ⟨rfl, rfl, text, h, rfl⟩

theorem effect_end {L : List (HsOp D)} (s : Hs D) (op : HsOp D) (hop : op ∈ L) (o : Nat) (x : Sess D) (h : x.pend.Inv (SrvEnd L) Overwritten) :
    (objEffect s op o x).pend.Inv (SrvEnd L) Overwritten := by
  cases op with
  | remove sid =>
    simp only [objEffect]
    split
    · exact PTab.inv_closeAll h (fun k => .inr (closed_end L (by simp) k))
    · exact h
  | stop =>
    simp only [objEffect]
    split
    · exact PTab.inv_closeAll h (fun k => .inr (closed_end L (by simp) k))
    · exact h
  | answer f r =>
    simp only [objEffect]
    split
    · unfold Sess.resolve
      split
      · exact h
      · exact PTab.inv_complete h _ (.inr (.inr ⟨rfl, f, hop⟩))
    · exact h
  | pump k ok => simp only [objEffect]; split; exact h; exact h
  | advance c =>
    simp only [objEffect]
    split
    · split
      · exact PTab.inv_insert h _ trivial
      · exact h
    · split
      · exact h
      · exact h
    · split
      · exact h
      · exact h
    · exact h
  | _ => exact h

theorem run_end (ops L : List (HsOp D)) (hL : ∀ op ∈ ops, op ∈ L) (s : Hs D) (h : ∀ (o : Nat) (x : Sess D), s.objs[o]? = some x → x.pend.Inv (SrvEnd L) Overwritten) :
    ∀ (o : Nat) (x : Sess D), (s.run ops).objs[o]? = some x → x.pend.Inv (SrvEnd L) Overwritten := by
  induction ops generalizing s with
  | nil => exact h
  | cons op ops ih =>
    refine ih (fun op h => hL op (List.mem_cons_of_mem _ h)) (s.step op) (fun o x hx => ?_)
    cases ho : s.objs[o]? with
    | some y =>
      rw [step_obj s op o y ho] at hx
      cases hx
      exact effect_end s op (hL op (List.mem_cons_self ..)) o y (h o y ho)
    | none =>
      have hge : s.objs.length ≤ o := List.getElem?_eq_none_iff.1 ho
      have hg := step_objs_grow s op
      cases op with
      | create sid v =>
        have : (s.objs ++ [(Sess.fresh v : Sess D)])[o]? = some x := hx
        rcases getElem?_concat_cases this with h1 | h1
        · rw [ho] at h1; cases h1
        · rw [h1]; exact PTab.inv_init
      | _ =>
        have hlt := (List.getElem?_eq_some_iff.1 hx).1
        simp only at hg
        omega

theorem srv_outcome (ops : List (HsOp D)) (hp : ∀ m, HsOp.take m ∈ ops → PlainGoing m) (ho : OwnSrvIds ops) {o : Nat} {x : Sess D}
    (hx : ((Hs.init : Hs D).run ops).objs[o]? = some x) {n : Nat} {key : Bytes} {out : SOut D} (hn : (n, key) ∈ x.pend.sent)
    (hout : (n, out) ∈ x.pend.outcomes) : ∃ r, out = .resp r ∧ (ServerError key r ∨ keyText r.id = key ∧ ∃ f, HsOp.answer f r ∈ ops) := by
  have hi := run_end ops ops (fun _ h => h) (Hs.init : Hs D) (fun o x hx => by simp [Hs.init] at hx) o x hx
  have hid := (srvIds_run ops hp ho).noBroken x (List.mem_of_getElem? hx) _ hout
  cases out with
  | broken => exact absurd rfl hid
  | resp r =>
    refine ⟨r, rfl, ?_⟩
    rcases hi.fits n _ hout with h1 | ⟨k, h1, h2⟩
    · exact h1.elim
    · have : key = k := nodup_map_fst_eq hi.sentFun hn h1
      rw [this]; exact h2

/-! ### The texts of the events -/

/-- The request as the server's caller gave it: same method, params, and id if it had one. -/
def AskedAs (did : List (HsOp D)) (q : Request D) : Prop :=
  ∃ r, HsOp.take (.request r) ∈ did ∧ q.method = r.method ∧ q.params = r.params ∧ (keyText r.id ≠ [] → q.id = r.id)

theorem event_text (ops : List (HsOp D)) (hp : ∀ m, HsOp.take m ∈ ops → PlainGoing m) {j k i : Nat} {payload : Bytes} {ok : Bool}
    (hj : ((Hs.init : Hs D).run ops).events[j]? = some (k, (i, payload), ok)) :
    (∃ q : Request D, PlainReq q ∧ keyText q.id ≠ [] ∧ AskedAs ops q ∧ payload = serRequest q) ∨
    ∃ n : Notification D, PlainNote n ∧ HsOp.take (.note n) ∈ ops ∧ payload = serNotification n := by
  have hmem := List.mem_of_getElem? hj
  have hlt := (refs_run (Hs.init : Hs D) ops refs_init).events _ hmem
  obtain ⟨o, ho⟩ : ∃ o, ((Hs.init : Hs D).run ops).streams[k]? = some o := ⟨_, List.getElem?_eq_some_iff.2 ⟨hlt, rfl⟩⟩
  obtain ⟨h1, -, -, h2, -⟩ := C44_delivery ops o
  have he : payload ∈ (eventsOf ((Hs.init : Hs D).run ops) o ++ waitingFor ((Hs.init : Hs D).run ops) o).map (·.2) := by
    refine List.mem_map.2 ⟨(i, payload), List.mem_append_left _ ?_, rfl⟩
    unfold eventsOf
    exact List.mem_map.2 ⟨_, List.mem_filter.2 ⟨hmem, by simpa using ho⟩, rfl⟩
  rw [h1] at he
  obtain ⟨x, hx, rfl⟩ := List.mem_map.1 he
  obtain ⟨m, hm, hc⟩ := h2 x (List.mem_filter.1 hx).1
  have htake : HsOp.take m ∈ ops := by
    obtain ⟨op, h3, h4⟩ := List.mem_filterMap.1 (List.mem_of_getElem? hm)
    cases op <;> simp at h4
    subst h4; exact h3
  have hpl := hp m htake
  generalize x.2.2 = p at hc
  cases hc with
  | note n => exact .inr ⟨n, hpl, htake, rfl⟩
  | request r hk => exact .inl ⟨r, hpl, hk, ⟨r, htake, rfl, rfl, fun _ => rfl⟩, rfl⟩
  | assigned r n hk =>
    refine .inl ⟨{ r with id := .str (lit "http-server-req-" ++ natDec n) }, ⟨?_, hpl.2⟩, ?_, ⟨r, htake, rfl, rfl, fun h => absurd hk h⟩, rfl⟩
    · intro x hx
      rcases List.mem_append.1 hx with h1 | h1
      · clear hx; revert x; decide
      · have := natDec_isDig h1
        constructor <;> (intro e; subst e; revert this; decide)
    · show lit "http-server-req-" ++ natDec n ≠ []
      intro e
      have := (List.append_eq_nil_iff.1 e).1
      revert this; decide

/-! ### What serving does to the sessions -/

/-- Responses reach the sessions from bodies that are responses only. -/
theorem served_answers (loopback : Bytes → Bool) (o : SrvOpts) (a : AuthCfg) (now : Int) (h : Option TokenInfo → Handlers D)
    (s : Hs D) (drawn : Bytes) (req : HttpReq) : ∀ f r, HsOp.answer f r ∈ (serve loopback o a now h s drawn req).ops →
      classify req.body = .response ∧ r = deResponse req.body := by
  have just : ∀ n b f r, HsOp.answer f r ∉ (Served.just n b : Served D).ops := fun n b f r hm => (by cases hm)
  have within : ∀ (before : List (HsOp D)) sid x tok f r, HsOp.answer f r ∉ before → HsOp.answer f r ∈ (withinSession h s before sid x req tok).ops →
      classify req.body = .response ∧ r = deResponse req.body := by
    intro before sid x tok f r hb hm
    have hm' : HsOp.answer f r ∈ before ++ (resolvedOf (route (h tok) req.body).effects).map (fun r => HsOp.answer s.finds.length r) := by
      unfold withinSession at hm
      simp only at hm
      split at hm <;> exact hm
    rcases List.mem_append.1 hm' with h1 | h1
    · exact absurd h1 hb
    · obtain ⟨r', h2, h3⟩ := List.mem_map.1 h1
      cases h3
      obtain ⟨e, h4, h5⟩ := List.mem_filterMap.1 h2
      cases e with
      | resolved r'' =>
        simp only [Option.some.injEq] at h5
        subst h5
        rcases route_effects (h tok) req.body with ⟨r3, h6, -, h7, h8⟩ | ⟨h6, -⟩
        · rw [h6] at h4
          simp only [List.mem_singleton, RouteEffect.resolved.injEq] at h4
          exact ⟨h7, h4.trans h8⟩
        · exact absurd h4 (h6 _)
      | _ => cases h5
  have guard : ∀ k : Option TokenInfo → Served D, (∀ tok f r, HsOp.answer f r ∈ (k tok).ops → classify req.body = .response ∧ r = deResponse req.body) →
      ∀ f r, HsOp.answer f r ∈ (guarded a now req k).ops → classify req.body = .response ∧ r = deResponse req.body := by
    intro k hk f r
    unfold guarded
    split
    · exact hk _ _ _
    · intro hm; cases hm
    · intro hm; cases hm
    · exact hk _ _ _
  intro f r
  unfold serve
  split
  · intro hm
    exfalso
    revert hm
    unfold openEvents
    split
    · exact just _ _ _ _
    · split
      · exact just _ _ _ _
      · split
        · exact just _ _ _ _
        · split
          · exact just _ _ _ _
          · intro hm; simp at hm
  · unfold makeResponse
    split
    · exact fun hm => absurd hm (just _ _ _ _)
    · split
      · split <;> exact fun hm => absurd hm (just _ _ _ _)
      · split
        · refine guard _ (fun tok f r => ?_) f r
          unfold handleEndpoint
          split
          · split
            · exact fun hm => absurd hm (just _ _ _ _)
            · intro hm; simp at hm
          · split
            · exact fun hm => absurd hm (just _ _ _ _)
            · split
              · exact within _ _ _ _ _ _ (by simp)
              · split
                · exact fun hm => absurd hm (just _ _ _ _)
                · split
                  · exact fun hm => absurd hm (just _ _ _ _)
                  · split
                    · exact fun hm => absurd hm (just _ _ _ _)
                    · exact within _ _ _ _ _ _ (by simp)
        · split
          · exact fun hm => absurd hm (just _ _ _ _)
          · split
            · refine guard _ (fun tok f r => ?_) f r
              unfold handleRpc
              split
              · exact fun hm => absurd hm (just _ _ _ _)
              · simp only
                split <;> (intro hm; cases hm)
            · split
              · refine guard _ (fun tok f r => ?_) f r
                unfold handleNotify
                split
                · exact fun hm => absurd hm (just _ _ _ _)
                · intro hm; cases hm
              · exact fun hm => absurd hm (just _ _ _ _)

/-! ### The answers of the client -/

/-- Where the answers among the posts of the client come from. -/
theorem ht_answers (o : HtOpts) (s : Ht D) (op : HtOp D) (b : Bytes) (hb : PostStage.queued .answer b ∈ (s.step o op).posts) :
    PostStage.queued .answer b ∈ s.posts ∨
    (∃ hd k body sid key st, op = .finish hd k body sid ∧ s.posts[k]? = some (.sent (.request key st)) ∧ (route hd.wrap body).reply = some b) ∨
    ∃ hd json, op = .event hd json ∧ (route hd.wrap json).reply = some b := by
  have over : ∀ k, PostStage.queued .answer b ∈ s.posts.set k .over → PostStage.queued .answer b ∈ s.posts := by
    intro k hm
    rcases List.mem_or_eq_of_mem_set hm with h1 | h1
    · exact h1
    · cases h1
  cases op with
  | start =>
    simp only [Ht.step, Ht.start] at hb
    split at hb <;> exact .inl hb
  | opened v =>
    simp only [Ht.step, Ht.opened] at hb
    split at hb <;> exact .inl hb
  | giveUp r =>
    simp only [Ht.step, Ht.giveUp] at hb
    split at hb <;> exact .inl hb
  | send r =>
    simp only [Ht.step, Ht.send] at hb
    split at hb <;> exact .inl hb
  | file t =>
    simp only [Ht.step, Ht.file] at hb
    split at hb
    · rcases List.mem_append.1 hb with h1 | h1
      · exact .inl h1
      · simp at h1
    · exact .inl hb
  | note n =>
    simp only [Ht.step, Ht.note] at hb
    split at hb
    · rcases List.mem_append.1 hb with h1 | h1
      · exact .inl h1
      · simp at h1
    · exact .inl hb
  | begin k =>
    simp only [Ht.step, Ht.begin] at hb
    split at hb
    · rcases List.mem_or_eq_of_mem_set hb with h1 | h1
      · exact .inl h1
      · cases h1
    · exact .inl hb
  | finish hd k body sid =>
    simp only [Ht.step, Ht.finish] at hb
    split at hb
    · rename_i p _ hk
      cases p with
      | request key st =>
        obtain ⟨t, e, ha, nt, ps, he, hps⟩ := completed_eq o hd ({ s with posts := s.posts.set k .over } : Ht D) (.request key st) body sid
        rw [he] at hb
        rcases List.mem_append.1 hb with h1 | h1
        · exact .inl (over k h1)
        · obtain ⟨b', h2, h3⟩ := hps _ h1
          cases h3
          exact .inr (.inl ⟨hd, k, body, sid, key, st, rfl, hk, h2⟩)
      | note =>
        rw [show ({ s with posts := s.posts.set k .over } : Ht D).completed o hd .note body sid = ({ s with posts := s.posts.set k .over } : Ht D).capture sid from rfl, capture_eq] at hb
        exact .inl (over k hb)
      | answer =>
        rw [show ({ s with posts := s.posts.set k .over } : Ht D).completed o hd .answer body sid = ({ s with posts := s.posts.set k .over } : Ht D).capture sid from rfl, capture_eq] at hb
        exact .inl (over k hb)
    · exact .inl hb
  | failEarly hd k =>
    simp only [Ht.step, Ht.failEarly] at hb
    split at hb
    · rename_i p _ _ _
      obtain ⟨t, e, ha, nt, ps, he, hps⟩ := completed_eq o hd ({ s with posts := s.posts.set k .over } : Ht D) p [] []
      rw [he] at hb
      rcases List.mem_append.1 hb with h1 | h1
      · exact .inl (over k h1)
      · obtain ⟨b', h2, -⟩ := hps _ h1
        obtain ⟨h3, -⟩ := wrap_reply hd [] _ h2
        exact absurd h3 (by decide)
    · exact .inl hb
  | event hd json =>
    simp only [Ht.step, Ht.event] at hb
    split at hb
    · obtain ⟨t, he⟩ := incoming_eq hd s json []
      rw [he] at hb
      rcases List.mem_append.1 hb with h1 | h1
      · exact .inl h1
      · obtain ⟨b', h2, h3⟩ := List.mem_map.1 h1
        cases h3
        exact .inr (.inr ⟨hd, json, rfl, Option.mem_toList.1 h2⟩)
    · exact .inl hb
  | close =>
    simp only [Ht.step, Ht.close] at hb
    split at hb <;> exact .inl hb

theorem bodyFor_silent {l : List (Nat × Request D × HandlerOutcome D)} {key b : Bytes} (hb : BodyFor l key b) (g : Handlers D) :
    (route g b).reply = none ∧ (route g b).requestsHandled = [] := by
  have quiet : ∀ {b : Bytes}, classify b ≠ .request → (route g b).reply = none ∧ (route g b).requestsHandled = [] := by
    intro b hc
    have h2 : (route g b).reply = none := by
      cases hr : (route g b).reply with
      | none => rfl
      | some x => exact absurd ((C14_reply_iff_handled g b).2.2 (by rw [hr]; rfl)) hc
    refine ⟨h2, ?_⟩
    rcases route_handled g b with ⟨h3, -⟩ | ⟨r, f, -, -, h3⟩
    · exact h3
    · rw [h2] at h3; cases h3
  rcases hb with (rfl | rfl | ⟨hc, -⟩) | ⟨k, q, out, -, -, h1, h2, rfl⟩
  · exact quiet (by decide)
  · exact quiet (by decide +kernel)
  · exact route_response g hc
  · exact route_response g (replyFor_classified h1 h2.out)

end Verif
