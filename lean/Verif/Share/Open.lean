import Verif.Share.Answers

/-! Helper lemmas for C133: why a request of the shared-memory transport is not answered. -/

set_option linter.unusedSectionVars false

namespace Verif.Share

open Verif.Shm
open Verif.Stdio (idText)
open Verif.InMemory (PlainReq PlainNote PlainOut)

variable {D : Type} [DblFmt D]

/-- Why a promise of side `y` is completed by a step. -/
def Source (c : Cfg) (s : Net D) (y : Bool) (op : NOp D) (n : Nat) : Shm.Outcome D → Prop
  | .refused _ => (s.get y).connected = false ∧ n = (s.get y).tab.nextFut ∧ ∃ r, op = .send y r
  | .tooLarge id => ∃ k r, (k, r) ∈ (s.get y).sending ∧ r.id = id ∧ c.size y < (serRequest r).length
  | .peerGone _ => ∃ t, (s.get y).current = some t ∧ eventOf (D := D) (s.get y).hasHandler t = .disconnected
  | .closed _ => (s.get y).connected = false ∨ op = .closeEnd y
  | _ => True

theorem outcome_complete {t : PTab (Shm.Outcome D)} {k : Bytes} {o o' : Shm.Outcome D} {n : Nat} (h : (n, o') ∈ (t.complete k o).outcomes) :
    (n, o') ∈ t.outcomes ∨ o' = o := by
  unfold PTab.complete at h
  split at h
  · rcases List.mem_append.1 h with h | h
    · exact .inl h
    · cases List.mem_singleton.1 h; exact .inr rfl
  · exact .inl h

theorem outcome_closeAll {t : PTab (Shm.Outcome D)} {f : Bytes → Shm.Outcome D} {o : Shm.Outcome D} {n : Nat} (h : (n, o) ∈ (t.closeAll f).outcomes) :
    (n, o) ∈ t.outcomes ∨ ∃ k, o = f k := by
  rcases List.mem_append.1 h with h | h
  · exact .inl h
  · obtain ⟨p, -, hp⟩ := List.mem_map.1 h
    injection hp with _ hp
    exact .inr ⟨_, hp.symm⟩

theorem tab_push (s : Net D) (z y : Bool) (t : Bytes) : ((s.push z t).get y).tab = (s.get y).tab := by rw [get_push]; split <;> rfl

theorem tab_put (c : Cfg) (s : Net D) (z y : Bool) (t : Bytes) : ((s.put c z t).get y).tab = (s.get y).tab := by
  unfold Net.put; split
  · exact tab_push _ _ _ _
  · rfl

theorem tab_upd (s : Net D) (z y : Bool) {f : Endpoint D → Endpoint D} (h : ∀ e, (f e).tab = e.tab) : ((s.upd z f).get y).tab = (s.get y).tab := by
  rw [get_upd]; split
  · exact h _
  · rfl

theorem outcome_step (c : Cfg) (s : Net D) (y : Bool) (op : NOp D) {n : Nat} {o : Shm.Outcome D} (h : (n, o) ∈ ((s.step c op).get y).tab.outcomes) :
    (n, o) ∈ (s.get y).tab.outcomes ∨ Source c s y op n o := by
  have same : ∀ {t : PTab (Shm.Outcome D)}, t = (s.get y).tab → (n, o) ∈ t.outcomes → (n, o) ∈ (s.get y).tab.outcomes ∨ Source c s y op n o :=
    fun ht h => .inl (by rw [← ht]; exact h)
  have own : ∀ {z : Bool} {f : Endpoint D → Endpoint D}, (n, o) ∈ ((s.upd z f).get y).tab.outcomes →
      (z = y → (n, o) ∈ (f (s.get y)).tab.outcomes → (n, o) ∈ (s.get y).tab.outcomes ∨ Source c s y op n o) → (n, o) ∈ (s.get y).tab.outcomes ∨ Source c s y op n o := by
    intro z f h hf
    rw [get_upd] at h
    split at h
    · rename_i hz; exact hf hz.symm h
    · exact .inl h
  cases op with
  | start z =>
    have h : (n, o) ∈ ((s.start z).get y).tab.outcomes := h
    rcases get_start s z y with g | g <;> rw [g] at h <;> exact .inl h
  | send z r =>
    refine own (z := z) h fun hz h => ?_
    unfold Endpoint.send at h
    split at h
    · exact .inl h
    · rename_i hc
      rcases List.mem_append.1 h with h | h
      · exact .inl h
      · cases List.mem_singleton.1 h
        exact .inr ⟨by simpa using hc, rfl, r, by rw [hz]⟩
  | file z i =>
    refine own (z := z) h fun hz h => ?_
    unfold Endpoint.file at h
    split at h
    · exact .inl h
    · dsimp only at h
      unfold PTab.insert at h
      dsimp only at h
      split at h
      · rcases List.mem_append.1 h with h | h
        · exact .inl h
        · cases List.mem_singleton.1 h; exact .inr trivial
      · exact .inl h
  | deliver z i =>
    simp only [Net.step, Net.deliver] at h
    split at h
    · exact .inl h
    · rename_i key r hg
      try dsimp only at h
      split at h
      · rw [tab_push] at h; exact own h fun _ h => .inl h
      · rw [get_upd] at h
        split at h
        · rename_i hz
          subst hz
          rw [get_upd_same] at h
          rcases outcome_complete h with h | h
          · exact .inl h
          · right
            rw [h]
            split
            · rename_i hl; exact ⟨key, r, List.mem_of_getElem? hg, rfl, hl⟩
            · trivial
        · exact own h fun _ h => .inl h
  | notify z m => exact same (tab_put c s z y _) h
  | take z => exact same (tab_upd s z y fun e => (take_frame c z e).2.2.2.2.2.2.1) h
  | handle z =>
    refine own (z := z) h fun hz h => ?_
    unfold Endpoint.handle at h
    split at h
    · exact .inl h
    · rename_i t ht
      dsimp only at h
      cases hev : eventOf (D := D) (s.get y).hasHandler t with
      | resolve r =>
        rw [hev] at h
        rcases outcome_complete h with h | h
        · exact .inl h
        · rw [h]; exact .inr trivial
      | disconnected =>
        rw [hev] at h
        rcases outcome_closeAll h with h | ⟨k, h⟩
        · exact .inl h
        · rw [h]; exact .inr ⟨t, ht, hev⟩
      | request r => rw [hev] at h; exact .inl h
      | notification m => rw [hev] at h; exact .inl h
      | dropped => rw [hev] at h; exact .inl h
  | reply z i out =>
    simp only [Net.step, Net.reply] at h
    split at h
    · exact .inl h
    · try dsimp only at h
      split at h
      · rw [tab_push] at h; exact own h fun _ h => .inl h
      · exact own h fun _ h => .inl h
  | loopEnd z =>
    refine own (z := z) h fun hz h => ?_
    unfold Endpoint.loopEnd at h
    split at h
    · rename_i hc
      rcases outcome_closeAll h with h | ⟨k, h⟩
      · exact .inl h
      · rw [h]
        simp only [Bool.and_eq_true, Bool.not_eq_true'] at hc
        exact .inr (.inl hc.1.2)
    · exact .inl h
  | closeTell => exact same (tab_put c s false y _) h
  | closeFlag z => exact own (z := z) h fun _ h => .inl h
  | closeEnd z =>
    have h : (n, o) ∈ ((s.closeEnd z).get y).tab.outcomes := h
    unfold Net.closeEnd at h
    split at h
    · exact .inl h
    · rw [get_removed] at h
      refine own (z := z) h fun hz h => ?_
      rcases outcome_closeAll h with h | ⟨k, h⟩
      · exact .inl h
      · rw [h, hz]; exact .inr (.inr rfl)
  | tick z => exact own (z := z) h fun _ h => .inl h

/-! ### A request that is refused -/

theorem outcome_bound {t : PTab (Shm.Outcome D)} {P : Shm.Outcome D → Bytes → Prop} {Q : Shm.Outcome D → Prop} (h : t.Inv P Q) {n : Nat} {o : Shm.Outcome D} (ho : (n, o) ∈ t.outcomes) :
    n < t.nextFut := by
  have : n ∈ t.all := by
    unfold PTab.all
    exact List.mem_append_right _ (List.mem_map.2 ⟨_, ho, rfl⟩)
  exact List.mem_range.1 (h.conserve.subset this)

theorem asked_bound {s : Net D} (ht : TabInv s) (hk : AskedInv s) {y : Bool} {n : Nat} {q : Request D} (h : (n, q) ∈ (s.get y).asked) : n < (s.get y).tab.nextFut := by
  refine (ht y).1.sentBound (n, idText q.id) ?_
  rw [← hk y]
  exact List.mem_map.2 ⟨_, h, rfl⟩

/-- A future that was refused was never filed. -/
def Unfiled (e : Endpoint D) : Prop := ∀ n id q, (n, Outcome.refused id) ∈ e.tab.outcomes → (n, q) ∉ e.asked

theorem unfiled_step {c : Cfg} {s : Net D} (ht : TabInv s) (hk : AskedInv s) {y : Bool} (h : Unfiled (s.get y)) (op : NOp D) : Unfiled ((s.step c op).get y) := by
  intro n id q hn hq
  rcases outcome_step c s y op hn with g | ⟨-, g, r, rfl⟩
  · by_cases h2 : ∃ i, op = .file y i
    · obtain ⟨i, rfl⟩ := h2
      have hq : (n, q) ∈ ((s.upd y _).get y).asked := hq
      rw [get_upd_same] at hq
      unfold Endpoint.file at hq
      split at hq
      · exact h n id q g hq
      · rcases List.mem_append.1 hq with hq | hq
        · exact h n id q g hq
        · have hq := List.mem_singleton.1 hq
          injection hq with hq _
          have := outcome_bound (ht y).1 g
          omega
    · by_cases h1 : ∃ r, op = .send y r
      · obtain ⟨r, rfl⟩ := h1
        have hq : (n, q) ∈ ((s.upd y _).get y).asked := hq
        rw [get_upd_same] at hq
        unfold Endpoint.send at hq
        split at hq <;> exact h n id q g hq
      · rw [(calm_step c s op y (fun r e => h1 ⟨r, e⟩) fun i e => h2 ⟨i, e⟩).asked] at hq
        exact h n id q g hq
  · have hq : (n, q) ∈ ((s.upd y _).get y).asked := hq
    rw [get_upd_same] at hq
    have hq : (n, q) ∈ (s.get y).asked := by
      unfold Endpoint.send at hq
      split at hq <;> exact hq
    have := asked_bound ht hk hq
    omega

theorem unfiled_run {c : Cfg} {y : Bool} (ops : List (NOp D)) : ∀ {s : Net D}, TabInv s → AskedInv s → Unfiled (s.get y) → Unfiled ((s.run c ops).get y) := by
  induction ops with
  | nil => exact fun _ _ h => h
  | cons op ops ih => exact fun {s} ht hk h => ih (s := s.step c op) (tabInv_step ht c op) (askedInv_step hk c op) (unfiled_step ht hk h op)

/-! ### A payload that is too large -/

theorem asked_mono (c : Cfg) (s : Net D) (op : NOp D) (y : Bool) : ∀ p ∈ (s.get y).asked, p ∈ ((s.step c op).get y).asked := by
  intro p hp
  by_cases h1 : ∃ r, op = .send y r
  · obtain ⟨r, rfl⟩ := h1
    show p ∈ ((s.upd y _).get y).asked
    rw [get_upd_same]; unfold Endpoint.send; split <;> exact hp
  · by_cases h2 : ∃ i, op = .file y i
    · obtain ⟨i, rfl⟩ := h2
      show p ∈ ((s.upd y _).get y).asked
      rw [get_upd_same]; unfold Endpoint.file; split
      · exact hp
      · exact List.mem_append_left _ hp
    · rw [(calm_step c s op y (fun r e => h1 ⟨r, e⟩) fun i e => h2 ⟨i, e⟩).asked]; exact hp

def Large (c : Cfg) (y : Bool) (e : Endpoint D) : Prop :=
  ∀ n id, (n, Outcome.tooLarge id) ∈ e.tab.outcomes → ∃ m r, (m, r) ∈ e.asked ∧ r.id = id ∧ c.size y < (serRequest r).length

theorem large_run {c : Cfg} {y : Bool} (ops : List (NOp D)) (hops : ∀ op ∈ ops, PlainOp op) :
    ∀ {s : Net D}, Large c y (s.get y) → PlainAll s → Fifo s → Large c y ((s.run c ops).get y) := by
  induction ops with
  | nil => exact fun h _ _ => h
  | cons op ops ih =>
    intro s h hp hf
    refine ih (fun o ho => hops o (List.mem_cons_of_mem _ ho)) (s := s.step c op) ?_ (plainAll_step hp hf c op (hops op (List.mem_cons_self ..))) (fifo_step hf c op)
    intro n id hn
    rcases outcome_step c s y op hn with g | ⟨k, r, g1, g2, g3⟩
    · obtain ⟨m, r, g1, g2, g3⟩ := h n id g
      exact ⟨m, r, asked_mono c s op y _ g1, g2, g3⟩
    · obtain ⟨m, g4⟩ := (hp y).sending k r g1
      exact ⟨m, r, asked_mono c s op y _ g4, g2, g3⟩

/-! ### A transport that is not told to end stays open -/

/-- Steps that end a transport: the parts of `Close`, and saying that one has gone. -/
def Ends : NOp D → Prop
  | .closeTell => True
  | .closeFlag _ => True
  | .closeEnd _ => True
  | .notify _ n => n.method = lit "transport/disconnected"
  | _ => False

/-- Nothing this side sent says that it has gone. -/
def NoBye (e : Endpoint D) : Prop := ∀ t ∈ e.log, eventOf (D := D) true t ≠ .disconnected

theorem noBye_upd {s : Net D} {y : Bool} (h : NoBye (s.get y)) (z : Bool) {f : Endpoint D → Endpoint D} (hf : ∀ e, (f e).log = e.log) : NoBye ((s.upd z f).get y) := by
  rw [get_upd]; split
  · unfold NoBye; rw [hf]; exact h
  · exact h

theorem noBye_push {s : Net D} {y : Bool} (h : NoBye (s.get y)) (z : Bool) {t : Bytes} (ht : eventOf (D := D) true t ≠ .disconnected) : NoBye ((s.push z t).get y) := by
  rw [get_push]; split
  · intro u hu
    rcases List.mem_append.1 hu with hu | hu
    · exact h u hu
    · rw [List.mem_singleton.1 hu]; exact ht
  · exact h

theorem noBye_step {c : Cfg} {s : Net D} (hp : PlainAll s) {y : Bool} (h : NoBye (s.get y)) (op : NOp D) (hop : PlainOp op) (he : ¬ Ends op) :
    NoBye ((s.step c op).get y) := by
  cases op with
  | start z =>
    show NoBye ((s.start z).get y)
    rcases get_start s z y with g | g <;> rw [g] <;> exact h
  | send z r => exact noBye_upd h z fun e => by unfold Endpoint.send; split <;> rfl
  | file z i => exact noBye_upd h z fun e => by unfold Endpoint.file; split <;> rfl
  | deliver z i =>
    simp only [Net.step, Net.deliver]
    split
    · exact h
    · rename_i key r hg
      obtain ⟨n, hn⟩ := (hp z).sending key r (List.mem_of_getElem? hg)
      have hr := ((hp z).askedSent n r hn).2
      have h1 : NoBye ((s.upd z fun e => { e with sending := e.sending.eraseIdx i }).get y) := noBye_upd h z fun e => rfl
      try dsimp only
      split
      · refine noBye_push h1 z ?_
        by_cases hm : ReqMisread r
        · rw [event_misread hr hm]; exact fun e => nomatch e
        · rw [event_request hr hm]; exact fun e => nomatch e
      · exact noBye_upd h1 z fun e => rfl
  | notify z n =>
    show NoBye ((s.put c z _).get y)
    unfold Net.put; split
    · refine noBye_push h z ?_
      by_cases hm : NoteMisread n
      · rw [event_note_misread hop hm]; exact fun e => nomatch e
      · rw [event_note hop hm, if_neg (show ¬ n.method = byeMethod from he)]; exact fun e => nomatch e
    · exact h
  | take z => exact noBye_upd h z fun e => (take_frame c z e).1
  | handle z => exact noBye_upd h z fun e => (handle_frame e).1
  | reply z i out =>
    simp only [Net.step, Net.reply]
    split
    · exact h
    · rename_i req hreq
      have h1 : ∀ ok, NoBye ((s.upd z fun e => { e with jobs := e.jobs.eraseIdx i, answered := e.answered ++ [(req, out, ok)] }).get y) := fun ok => noBye_upd h z fun e => rfl
      try dsimp only
      split
      · refine noBye_push (h1 _) z ?_
        rw [event_reply req hop]; exact fun e => nomatch e
      · exact h1 _
  | loopEnd z => exact noBye_upd h z fun e => by unfold Endpoint.loopEnd; split <;> rfl
  | closeTell => exact absurd trivial he
  | closeFlag z => exact absurd trivial he
  | closeEnd z => exact absurd trivial he
  | tick z => exact noBye_upd h z fun e => rfl

/-- A side that is connected, whose requests were refused by nobody and lost by no end. -/
structure Up (e : Endpoint D) : Prop where
  connected : e.connected = true
  handler : e.hasHandler = true
  outcomes : ∀ n o, (n, o) ∈ e.tab.outcomes → match o with | .refused _ => False | .peerGone _ => False | .closed _ => False | _ => True

theorem handler_step (c : Cfg) (s : Net D) (op : NOp D) (y : Bool) : ((s.step c op).get y).hasHandler = (s.get y).hasHandler := by
  have upd : ∀ (s : Net D) (x : Bool) (f : Endpoint D → Endpoint D), (∀ e, (f e).hasHandler = e.hasHandler) → ((s.upd x f).get y).hasHandler = (s.get y).hasHandler := by
    intro s x f hf
    rw [get_upd]; split
    · exact hf _
    · rfl
  have push : ∀ (s : Net D) (x : Bool) (t : Bytes), ((s.push x t).get y).hasHandler = (s.get y).hasHandler := by
    intro s x t; rw [get_push]; split <;> rfl
  have put : ∀ (s : Net D) (x : Bool) (t : Bytes), ((s.put c x t).get y).hasHandler = (s.get y).hasHandler := by
    intro s x t; unfold Net.put; split
    · exact push _ _ _
    · rfl
  cases op with
  | start x =>
    show ((s.start x).get y).hasHandler = _
    rcases get_start s x y with g | g <;> rw [g]
  | closeFlag x => exact upd s x _ fun e => rfl
  | closeTell => exact put _ _ _
  | closeEnd x =>
    show ((s.closeEnd x).get y).hasHandler = _
    rcases get_closeEnd s x y with g | g <;> rw [g]
  | tick x => exact upd s x _ fun e => rfl
  | loopEnd x => exact upd s x _ fun e => by unfold Endpoint.loopEnd; split <;> rfl
  | send x r => exact upd s x _ fun e => by unfold Endpoint.send; split <;> rfl
  | file x i => exact upd s x _ fun e => by unfold Endpoint.file; split <;> rfl
  | deliver x i =>
    simp only [Net.step, Net.deliver]
    split
    · rfl
    · try dsimp only
      split
      · rw [push]; exact upd s x _ fun e => rfl
      · refine (upd _ x _ ?_).trans (upd s x _ fun e => rfl)
        exact fun e => rfl
  | notify x n => exact put _ _ _
  | take x => exact upd s x _ fun e => (take_frame c x e).2.2.2.2.2.1
  | handle x => exact upd s x _ fun e => (handle_frame e).2.2.2.2.1
  | reply x i out =>
    simp only [Net.step, Net.reply]
    split
    · rfl
    · try dsimp only
      split
      · rw [push]; exact upd s x _ fun e => rfl
      · exact upd s x _ fun e => rfl

theorem handler_run (c : Cfg) (s : Net D) (ops : List (NOp D)) (y : Bool) : ((s.run c ops).get y).hasHandler = (s.get y).hasHandler := by
  induction ops generalizing s with
  | nil => rfl
  | cons op ops ih => exact (ih (s.step c op)).trans (handler_step c s op y)

theorem connected_upd {s : Net D} {y : Bool} (h : (s.get y).connected = true) (z : Bool) {f : Endpoint D → Endpoint D} (hf : ∀ e : Endpoint D, e.connected = true → (f e).connected = true) :
    ((s.upd z f).get y).connected = true := by
  rw [get_upd]; split
  · exact hf _ h
  · exact h

theorem connected_push {s : Net D} {y : Bool} (h : (s.get y).connected = true) (z : Bool) (t : Bytes) : ((s.push z t).get y).connected = true := by
  rw [get_push]; split <;> exact h

theorem connected_put {c : Cfg} {s : Net D} {y : Bool} (h : (s.get y).connected = true) (z : Bool) (t : Bytes) : ((s.put c z t).get y).connected = true := by
  unfold Net.put; split
  · exact connected_push h z t
  · exact h

theorem current_logged {s : Net D} (hf : Fifo s) {y : Bool} {t : Bytes} (h : (s.get y).current = some t) : t ∈ (s.get (!y)).log := by
  obtain ⟨pre, h1, -⟩ := hf y
  rw [h1, h]; simp

theorem up_step {c : Cfg} {s : Net D} (hf : Fifo s) {y : Bool} (hb : NoBye (s.get (!y))) (hc : c.sizeA ≤ c.size y) (h : Up (s.get y)) (op : NOp D) (he : ¬ Ends op) :
    Up ((s.step c op).get y) := by
  have hbye : ∀ t, (s.get y).current = some t → eventOf (D := D) (s.get y).hasHandler t ≠ .disconnected := by
    intro t ht
    rw [h.handler]
    exact hb t (current_logged hf ht)
  refine ⟨?_, by rw [handler_step]; exact h.handler, fun n o hn => ?_⟩
  · have hk := h.connected
    cases op with
    | start z =>
      show ((s.start z).get y).connected = true
      rcases get_start s z y with g | g <;> rw [g]
      exact hk
    | closeFlag z => exact absurd trivial he
    | closeTell => exact absurd trivial he
    | closeEnd z => exact absurd trivial he
    | tick z => exact connected_upd hk z fun e h => h
    | loopEnd z => exact connected_upd hk z fun e h => by unfold Endpoint.loopEnd; split <;> exact h
    | send z r => exact connected_upd hk z fun e h => by unfold Endpoint.send; split <;> exact h
    | file z i => exact connected_upd hk z fun e h => by unfold Endpoint.file; split <;> exact h
    | deliver z i =>
      simp only [Net.step, Net.deliver]
      split
      · exact hk
      · have h1 : ((s.upd z fun e => { e with sending := e.sending.eraseIdx i }).get y).connected = true := connected_upd hk z fun e h => h
        try dsimp only
        split
        · exact connected_push h1 _ _
        · exact connected_upd h1 _ fun e h => h
    | notify z n => exact connected_put hk z _
    | take z =>
      show ((s.upd z _).get y).connected = true
      rw [get_upd]; split
      · rename_i hz
        subst hz
        unfold Endpoint.take
        split
        · rw [if_neg (by omega)]
          split <;> exact hk
        · exact hk
      · exact hk
    | handle z =>
      show ((s.upd z _).get y).connected = true
      rw [get_upd]; split
      · unfold Endpoint.handle
        split
        · exact hk
        · rename_i t ht
          have := hbye t ht
          show ((s.get y).apply _).connected = true
          cases hev : eventOf (D := D) (s.get y).hasHandler t with
          | disconnected => exact absurd hev this
          | resolve r => exact hk
          | request r => exact hk
          | notification m => exact hk
          | dropped => exact hk
      · exact hk
    | reply z i out =>
      simp only [Net.step, Net.reply]
      split
      · exact hk
      · rename_i req _
        have h1 : ∀ ok, ((s.upd z fun e => { e with jobs := e.jobs.eraseIdx i, answered := e.answered ++ [(req, out, ok)] }).get y).connected = true :=
          fun ok => connected_upd hk z fun e h => h
        try dsimp only
        split
        · exact connected_push (h1 _) _ _
        · exact h1 _
  · rcases outcome_step c s y op hn with g | g
    · exact h.outcomes n o g
    · cases o with
      | refused id =>
        have g : (s.get y).connected = false := g.1
        rw [h.connected] at g; cases g
      | peerGone id =>
        obtain ⟨t, g1, g2⟩ := g
        exact absurd g2 (hbye t g1)
      | closed id =>
        rcases g with g | g
        · rw [h.connected] at g; cases g
        · subst g; exact absurd trivial he
      | response r => trivial
      | tooLarge id => trivial
      | sendFailed id => trivial
      | broken => trivial

theorem up_run {c : Cfg} {y : Bool} (hc : c.sizeA ≤ c.size y) (ops : List (NOp D)) (hops : ∀ op ∈ ops, PlainOp op ∧ ¬ Ends op) :
    ∀ {s : Net D}, PlainAll s → Fifo s → NoBye (s.get (!y)) → Up (s.get y) → Up ((s.run c ops).get y) := by
  induction ops with
  | nil => exact fun _ _ _ h => h
  | cons op ops ih =>
    intro s hp hf hb h
    obtain ⟨h1, h2⟩ := hops op (List.mem_cons_self ..)
    exact ih (fun o ho => hops o (List.mem_cons_of_mem _ ho)) (s := s.step c op) (plainAll_step hp hf c op h1) (fifo_step hf c op) (noBye_step hp hb op h1 h2)
      (up_step hf hb hc h op h2)

end Verif.Share
