import Verif.SharedMemory.Props

/-! C90, more: the ids a shared memory transport makes, and who can open a channel after one side has closed. -/

set_option linter.unusedSectionVars false

namespace Verif

open Shm

variable {D : Type} [DblFmt D]

namespace Shm

theorem counter_put (c : Cfg) (s : Net D) (z x : Bool) (t : Bytes) : ((s.put c z t).get x).counter = (s.get x).counter := by
  unfold Net.put
  split
  · rw [get_push]; split <;> rfl
  · rfl

theorem counter_upd (s : Net D) (z x : Bool) {f : Endpoint D → Endpoint D} (hf : ∀ e, (f e).counter = e.counter) :
    ((s.upd z f).get x).counter = (s.get x).counter := by
  rw [get_upd]; split
  · exact hf _
  · rfl

theorem counter_file (e : Endpoint D) (i : Nat) : (e.file i).counter = e.counter ∨ (e.file i).counter = nextCount e.counter := by
  unfold Endpoint.file
  split
  · exact Or.inl rfl
  · rename_i r _
    show (chooseId r.id e.counter).2 = _ ∨ (chooseId r.id e.counter).2 = _
    unfold chooseId
    dsimp only
    split
    · split
      · exact Or.inr rfl
      · exact Or.inl rfl
    · exact Or.inl rfl
    · exact Or.inr rfl

/-- A step leaves the counter or moves it on by one. -/
theorem counter_step (c : Cfg) (s : Net D) (op : Op D) (x : Bool) :
    ((s.step c op).get x).counter = (s.get x).counter ∨ ((s.step c op).get x).counter = nextCount (s.get x).counter := by
  cases op with
  | start z =>
    left
    show ((s.start z).get x).counter = _
    cases z <;> cases x <;> unfold Net.start <;> dsimp only <;> split <;> rfl
  | send z r =>
    left
    refine counter_upd s z x (f := fun e => e.send r) (fun e => ?_)
    unfold Endpoint.send; split <;> rfl
  | file z i =>
    show ((s.upd z _).get x).counter = _ ∨ ((s.upd z _).get x).counter = _
    rw [get_upd]; split
    · exact counter_file _ i
    · exact Or.inl rfl
  | deliver z i =>
    left
    show ((s.deliver c z i).get x).counter = _
    unfold Net.deliver
    split
    · rfl
    · dsimp only
      split
      · rw [get_push]
        split <;> exact counter_upd s z _ (f := fun e => { e with sending := e.sending.eraseIdx i }) (fun _ => rfl)
      · rename_i key r _ _
        rw [counter_upd _ z x (f := fun e => { e with
          tab := e.tab.complete key (if c.size z < (serRequest r).length then .tooLarge r.id else .sendFailed r.id) }) (fun _ => rfl)]
        exact counter_upd s z _ (f := fun e => { e with sending := e.sending.eraseIdx i }) (fun _ => rfl)
  | notify z n => exact Or.inl (counter_put c s z x _)
  | take z =>
    left
    refine counter_upd s z x (f := Endpoint.take c z) (fun e => ?_)
    unfold Endpoint.take
    split
    · split
      · rfl
      · split <;> rfl
    · rfl
  | handle z =>
    left
    refine counter_upd s z x (f := Endpoint.handle) (fun e => ?_)
    unfold Endpoint.handle
    split
    · rfl
    · show (e.apply _).counter = _
      unfold Endpoint.apply
      split <;> rfl
  | reply z i out =>
    left
    show ((s.reply c z i out).get x).counter = _
    unfold Net.reply
    split
    · rfl
    · rename_i req _
      dsimp only
      split
      · rw [get_push]
        split <;> exact counter_upd s z _ (f := fun e => { e with jobs := e.jobs.eraseIdx i, answered := e.answered ++ [(req, out, _)] }) (fun _ => rfl)
      · exact counter_upd s z _ (f := fun e => { e with jobs := e.jobs.eraseIdx i, answered := e.answered ++ [(req, out, _)] }) (fun _ => rfl)
  | loopEnd z =>
    left
    refine counter_upd s z x (f := Endpoint.loopEnd) (fun e => ?_)
    unfold Endpoint.loopEnd; split <;> rfl
  | closeTell => exact Or.inl (counter_put c s false x _)
  | closeFlag z => exact Or.inl (counter_upd s z x (f := fun e => { e with connected := false }) (fun _ => rfl))
  | closeEnd z =>
    left
    show ((s.closeEnd z).get x).counter = _
    rcases get_closeEnd s z x with h | h <;> rw [h]
  | tick z =>
    show ((s.upd z _).get x).counter = _ ∨ ((s.upd z _).get x).counter = _
    rw [get_upd]; split
    · exact Or.inr rfl
    · exact Or.inl rfl

theorem nextCount_succ {n : Nat} (h : n + 1 < 2 ^ 64) : nextCount n = n + 1 := by
  unfold nextCount; rw [if_neg (by omega)]

theorem counter_run (c : Cfg) (x : Bool) : ∀ (ops : List (Op D)) (s : Net D), (s.get x).counter + ops.length < 2 ^ 64 →
    (s.get x).counter ≤ ((s.run c ops).get x).counter ∧ ((s.run c ops).get x).counter ≤ (s.get x).counter + ops.length := by
  intro ops
  induction ops with
  | nil => intro s _; exact ⟨Nat.le_refl _, Nat.le_refl _⟩
  | cons op ops ih =>
    intro s h
    simp only [List.length_cons] at h ⊢
    have hs := counter_step c s op x
    rw [nextCount_succ (by omega)] at hs
    have := ih (s.step c op) (by omega)
    show _ ≤ (((s.step c op).run c ops).get x).counter ∧ (((s.step c op).run c ops).get x).counter ≤ _
    omega

theorem removed_step (c : Cfg) (s : Net D) (op : Op D) (h : s.removed = true) : (s.step c op).removed = true := by
  have put : ∀ z t, (s.put c z t).removed = true := by
    intro z t
    unfold Net.put; split
    · unfold Net.push; cases z <;> exact h
    · exact h
  have upd : ∀ (s : Net D) z f, s.removed = true → (s.upd z f).removed = true := by
    intro s z f h; cases z <;> exact h
  cases op with
  | start z => cases z <;> unfold Net.step Net.start <;> dsimp only <;> split <;> exact h
  | send z r => exact upd s z _ h
  | file z i => exact upd s z _ h
  | deliver z i =>
    show (s.deliver c z i).removed = true
    unfold Net.deliver
    split
    · exact h
    · dsimp only
      split
      · unfold Net.push; exact upd _ _ _ (upd _ _ _ (upd s z _ h))
      · exact upd _ _ _ (upd s z _ h)
  | notify z n => exact put z _
  | take z => exact upd s z _ h
  | handle z => exact upd s z _ h
  | reply z i out =>
    show (s.reply c z i out).removed = true
    unfold Net.reply
    split
    · exact h
    · dsimp only
      split
      · unfold Net.push; exact upd _ _ _ (upd _ _ _ (upd s z _ h))
      · exact upd s z _ h
  | loopEnd z => exact upd s z _ h
  | closeTell => exact put false _
  | closeFlag z => exact upd s z _ h
  | closeEnd z =>
    show (s.closeEnd z).removed = true
    unfold Net.closeEnd
    split
    · exact h
    · show (s.removed || !z) = true
      rw [h]; rfl
  | tick z => exact upd s z _ h

end Shm

/-- An id that has to be made: none or an empty one. -/
def NoId (i : RpcId) : Prop := i = .null ∨ i = .str []

/-- C90. Two requests sent without ids from one process, however many steps of whatever kind lie between them (up to 2^64 in all), go
out under different ids, so that neither can be given the other's answer. -/
theorem C90_made_ids_differ (c : Cfg) (s : Net D) (x : Bool) (i j : Nat) (between : List (Op D)) (r1 r2 : Request D)
    (hlen : (s.get x).counter + between.length + 2 < 2 ^ 64)
    (h1 : (s.get x).tickets[i]? = some r1) (hr1 : NoId r1.id)
    (h2 : (((s.step c (.file x i)).run c between).get x).tickets[j]? = some r2) (hr2 : NoId r2.id) :
    ∃ n1 n2 d1 d2, ((s.step c (.file x i)).get x).asked = (s.get x).asked ++ [(n1, { r1 with id := d1 })] ∧
      ((((s.step c (.file x i)).run c between).step c (.file x j)).get x).asked =
        (((s.step c (.file x i)).run c between).get x).asked ++ [(n2, { r2 with id := d2 })] ∧ d1 ≠ d2 := by
  have made : ∀ (e : Endpoint D) (k : Nat) (r : Request D), e.tickets[k]? = some r → NoId r.id →
      (e.file k).asked = e.asked ++ [(e.tab.nextFut, { r with id := .str (lit "shm-req-" ++ natDec (nextCount e.counter)) })] ∧
      (e.file k).counter = nextCount e.counter := by
    intro e k r hk hr
    have hc : chooseId r.id e.counter = (.str (lit "shm-req-" ++ natDec (nextCount e.counter)), nextCount e.counter) := by
      unfold chooseId
      rcases hr with h | h <;> rw [h] <;> rfl
    unfold Endpoint.file
    rw [hk]
    dsimp only
    rw [hc]
    exact ⟨rfl, rfl⟩
  have m1 := made (s.get x) i r1 h1 hr1
  have m2 := made (((s.step c (.file x i)).run c between).get x) j r2 h2 hr2
  have g1 : (s.step c (.file x i)).get x = (s.get x).file i := get_upd_same s x _
  have g2 : (((s.step c (.file x i)).run c between).step c (.file x j)).get x =
      (((s.step c (.file x i)).run c between).get x).file j := get_upd_same _ x _
  rw [g2, m2.1]
  rw [g1]
  refine ⟨_, _, _, _, m1.1, rfl, ?_⟩
  have hcnt := counter_run c x between (s.step c (.file x i)) (by rw [g1, m1.2, nextCount_succ (by omega)]; omega)
  rw [g1, m1.2, nextCount_succ (by omega)] at hcnt
  intro he
  injection he with he
  have := congrArg digitsVal (List.append_cancel_left he)
  rw [digitsVal_natDec, digitsVal_natDec] at this
  rw [nextCount_succ (by omega), nextCount_succ (by omega)] at this
  omega

example : chooseId .null 6 = (.str (lit "shm-req-7"), 7) := by decide +kernel

/-- C90. Once the creator has closed, the channel is gone: whatever happens afterwards, an opener that asks for it does not get it. -/
theorem C90_gone_after_close (c : Cfg) (s : Net D) (h : (s.get false).loop = false) (more : List (Op D)) :
    let t := (s.step c (.closeEnd false)).run c more
    t.step c (.start true) = t := by
  have hr : (s.step c (.closeEnd false)).removed = true := by
    show (s.closeEnd false).removed = true
    unfold Net.closeEnd
    rw [h]
    show (s.removed || !false) = true
    simp
  have key : ∀ (l : List (Op D)) (u : Net D), u.removed = true → (u.run c l).removed = true := by
    intro l
    induction l with
    | nil => intro u hu; exact hu
    | cons op l ih => intro u hu; exact ih _ (removed_step c u op hu)
  have := key more _ hr
  show Net.start _ true = _
  unfold Net.start
  simp [this]

/-- C90. The opener can leave and another one can take its place: closing an opener removes nothing. -/
theorem C90_opener_replaced (c : Cfg) (s : Net D) (ha : (s.get false).opened = true) (hr : s.removed = false) (hb : (s.get true).loop = false) :
    (((s.step c (.closeEnd true)).step c (.start true)).get true).connected = true ∧
    ((s.step c (.closeEnd true)).step c (.start true)).get false = s.get false := by
  have ha' : s.a.opened = true := ha
  have hb' : s.b.loop = false := hb
  have e : s.step c (.closeEnd true) = { s with b := { s.b with tab := s.b.tab.closeAll .closed } } := by
    show s.closeEnd true = _
    unfold Net.closeEnd
    rw [hb]
    show ({ s.upd true _ with removed := s.removed || !true } : Net D) = _
    simp [Net.upd]
  rw [e]
  show ((Net.start _ true).get true).connected = true ∧ (Net.start _ true).get false = _
  unfold Net.start
  simp [ha', hr, hb', Net.get]

end Verif
