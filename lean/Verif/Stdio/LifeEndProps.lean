import Verif.Stdio.LifeProps

/-!
C118, second part: what is left when `Close` has returned, the destructor, and a second `Start`.
-/

namespace Verif.Stdio

/-! ### After Close -/

/-- What a broken process looks like. -/
structure SlCalm (s : Sl) : Prop where
  dead : s.dead = true → s.log.getLast? = some .started ∨ s.call = .dMembers
  ub : s.ub = true → s.gone = true
  gone : s.gone = true → s.call = .destroyed

theorem slCalm_step {s : Sl} (h : SlCalm s) (op : SlOp) : SlCalm (s.step op) := by
  by_cases ha : op.aside = true
  · have a := aside_step s op ha
    refine ⟨?_, ?_, ?_⟩
    · rw [a.dead, a.log, a.call]; exact h.dead
    · intro hu
      rw [a.gone]
      cases hg : s.gone with
      | true => rfl
      | false =>
        exfalso
        have : (s.step op).ub = s.ub := by
          unfold Sl.step
          split
          · rfl
          · cases op with
            | reader j o =>
              dsimp only
              rw [if_neg (by simp [hg])]
              unfold Sl.goReader
              split <;> first | rfl | (split <;> rfl)
            | writer j o =>
              dsimp only
              rw [if_neg (by simp [hg])]
              unfold Sl.goWriter
              split
              · rfl
              · split <;> rfl
              · split
                · rfl
                · split <;> rfl
              · rfl
              · split
                · rfl
                · split <;> rfl
              · rfl
            | timer j k =>
              dsimp only
              rw [if_neg (by simp [hg])]
              unfold Sl.goTimer
              split <;> first | rfl | (split <;> rfl)
            | handled j => dsimp only; split <;> rfl
            | send f => dsimp only; split <;> rfl
            | answer i => rfl
            | _ => cases ha
        rw [this] at hu
        rw [h.ub hu] at hg
        cases hg
    · rw [a.gone, a.call]; exact h.gone
  · unfold Sl.step
    split
    · exact h
    · rename_i hd
      have hd' : s.dead = false ∧ s.ub = false := by simpa using hd
      cases op with
      | start =>
        dsimp only
        split
        · rename_i hc
          unfold Sl.start
          split
          · exact ⟨fun e => .inl (by simp), h.ub, h.gone⟩
          · exact ⟨fun _ => .inl (by simp), h.ub, h.gone⟩
        · exact h
      | destroy =>
        dsimp only
        split
        · rename_i hc
          refine ⟨fun e => ?_, h.ub, fun e => ?_⟩
          · rw [show s.dead = true from e] at hd'; cases hd'.1
          · have := h.gone e; rw [hc] at this; cases this
        · exact h
      | close self =>
        dsimp only
        split
        · rename_i hc
          have key : ∀ t : Sl, t.dead = s.dead → t.ub = s.ub → t.gone = s.gone → SlCalm t := fun t e1 e2 e3 =>
            ⟨fun e => (by rw [e1, hd'.1] at e; cases e), fun e => (by rw [e2, hd'.2] at e; cases e), fun e => by rw [e3] at e; have := h.gone e; rw [hc] at this; cases this⟩
          cases self with
          | none => exact key _ rfl rfl rfl
          | some j =>
            dsimp only
            split
            · exact key _ rfl rfl rfl
            · exact h
        · exact h
      | caller =>
        dsimp only
        have key : ∀ t : Sl, s.call ≠ .destroyed → t.dead = s.dead → t.ub = s.ub → t.gone = s.gone → SlCalm t := fun t hc e1 e2 e3 =>
          ⟨fun e => (by rw [e1, hd'.1] at e; cases e), fun e => (by rw [e2, hd'.2] at e; cases e), fun e => by rw [e3] at e; exact absurd (h.gone e) hc⟩
        unfold Sl.goCaller
        cases hc : s.call with
        | idle => exact h
        | flag => exact key _ (by rw [hc]; exact (nomatch ·)) rfl rfl rfl
        | notify => exact key _ (by rw [hc]; exact (nomatch ·)) rfl rfl rfl
        | rWait => dsimp only; split <;> (try split) <;> (try split) <;> first | exact h | exact key _ (by rw [hc]; exact (nomatch ·)) rfl rfl rfl
        | rJoin => dsimp only; split <;> (try split) <;> first | exact h | exact key _ (by rw [hc]; exact (nomatch ·)) rfl rfl rfl
        | wNotify => dsimp only; split <;> exact key _ (by rw [hc]; exact (nomatch ·)) rfl rfl rfl
        | wWait => dsimp only; split <;> first | exact h | exact key _ (by rw [hc]; exact (nomatch ·)) rfl rfl rfl
        | wJoin => dsimp only; split <;> (try split) <;> first | exact h | exact key _ (by rw [hc]; exact (nomatch ·)) rfl rfl rfl
        | tJoin => dsimp only; split <;> (try split) <;> first | exact h | exact key _ (by rw [hc]; exact (nomatch ·)) rfl rfl rfl
        | fail => exact key _ (by rw [hc]; exact (nomatch ·)) rfl rfl rfl
        | dRead => dsimp only; split <;> (try split) <;> exact key _ (by rw [hc]; exact (nomatch ·)) rfl rfl rfl
        | dRJoin => dsimp only; split <;> (try split) <;> first | exact h | exact key _ (by rw [hc]; exact (nomatch ·)) rfl rfl rfl
        | dTJoin => dsimp only; split <;> (try split) <;> exact key _ (by rw [hc]; exact (nomatch ·)) rfl rfl rfl
        | dMembers =>
          dsimp only
          split
          · exact ⟨fun e => (by rw [show s.dead = true from e] at hd'; cases hd'.1), fun _ => rfl, fun _ => rfl⟩
          · exact ⟨fun _ => .inr rfl, h.ub, fun e => by have := h.gone e; rw [hc] at this; cases this⟩
        | destroyed => exact h
      | giveUp =>
        dsimp only
        have key : ∀ t : Sl, s.call ≠ .destroyed → t.dead = s.dead → t.ub = s.ub → t.gone = s.gone → SlCalm t := fun t hc e1 e2 e3 =>
          ⟨fun e => (by rw [e1, hd'.1] at e; cases e), fun e => (by rw [e2, hd'.2] at e; cases e), fun e => by rw [e3] at e; exact absurd (h.gone e) hc⟩
        unfold Sl.giveUp
        cases hc : s.call with
        | rWait => dsimp only; split <;> (try split) <;> (try split) <;> first | exact h | exact key _ (by rw [hc]; exact (nomatch ·)) rfl rfl rfl
        | wWait => dsimp only; split <;> (try split) <;> first | exact h | exact key _ (by rw [hc]; exact (nomatch ·)) rfl rfl rfl
        | _ => exact h
      | _ => exact absurd rfl ha

theorem slCalm_run (ops : List SlOp) : SlCalm (Sl.init.run ops) :=
  sl_run_inv ⟨(nomatch ·), (nomatch ·), (nomatch ·)⟩ fun _ op _ h => slCalm_step h op

/-- C118. When no call is under way, the last thing called was not `Start`, and no thread was let go, every thread of the transport has ended. Missing: threads that were let go. -/
theorem C118_closed_partial (ops : List SlOp) (hc : (Sl.init.run ops).call = .idle) (hlog : (Sl.init.run ops).log.getLast? ≠ some .started) (hleft : (Sl.init.run ops).left = []) :
    (∀ r ∈ (Sl.init.run ops).readers, r = .ended) ∧ (∀ w ∈ (Sl.init.run ops).writers, w = .ended) ∧ ∀ t ∈ (Sl.init.run ops).timers, t = .ended := by
  have h := slInv_run ops
  generalize Sl.init.run ops = s at *
  have hp := h.phase
  unfold SlPhase at hp
  rw [hc] at hp
  have htm : s.tm = none := by
    cases e : s.tm with
    | none => rfl
    | some j => exact absurd (hp.2.2.1 (by rw [e]; rfl)) hlog
  have hrd : s.rd = none := by
    cases e : s.rd with
    | none => rfl
    | some j => have := hp.1; rw [e, htm] at this; cases this
  have hwr : s.wr = none := by
    cases e : s.wr with
    | none => rfl
    | some j => have := hp.2.1; rw [e, htm] at this; cases this
  refine ⟨?_, ?_, ?_⟩
  · intro r hr
    obtain ⟨j, hj, rfl⟩ := List.mem_iff_getElem.mp hr
    rcases h.readers j hj with e | e | e
    · rw [List.getElem?_eq_getElem hj] at e; exact Option.some.inj e
    · rw [hrd] at e; cases e
    · rw [hleft] at e; cases e
  · intro r hr
    obtain ⟨j, hj, rfl⟩ := List.mem_iff_getElem.mp hr
    rcases h.writers j hj with e | e | e
    · rw [List.getElem?_eq_getElem hj] at e; exact Option.some.inj e
    · rw [hwr] at e; cases e
    · rw [hleft] at e; cases e
  · intro r hr
    obtain ⟨j, hj, rfl⟩ := List.mem_iff_getElem.mp hr
    rcases h.timers j hj with e | e
    · rw [List.getElem?_eq_getElem hj] at e; exact Option.some.inj e
    · rw [htm] at e; cases e

/-- A life: started, a message read and answered, closed, all threads joined. -/
def slLife : List SlOp :=
  [.start, .writer 0 none, .writer 0 none, .writer 0 none, .writer 0 none, .timer 0 0, .timer 0 0, .reader 0 .nothing, .reader 0 (.bytes [1, 2] true), .send [7, 8], .writer 0 none,
   .writer 0 (some 2), .writer 0 none, .handled 0, .close none, .caller, .caller, .reader 0 .nothing, .reader 0 .nothing, .caller, .caller, .writer 0 none, .caller, .caller, .caller,
   .timer 0 0, .caller, .caller]

example : (Sl.init.run slLife).call = .idle ∧ (Sl.init.run slLife).log = [.started, .closed] ∧ (Sl.init.run slLife).left = [] ∧ (Sl.init.run slLife).out = [7, 8] ∧
    (Sl.init.run slLife).readers = [.ended] ∧ (Sl.init.run slLife).failed = [[7, 8]] := by decide +kernel

/-! ### The destructor -/

/-- The destruction of a transport whose threads have ended. -/
structure SlLast (s : Sl) (n : Nat) : Prop where
  dead : s.dead = false
  ub : s.ub = false
  rd : s.rd = none
  wr : s.wr = none
  tm : s.tm = none
  readers : ∀ r ∈ s.readers, r = .ended
  writers : ∀ w ∈ s.writers, w = .ended
  timers : ∀ t ∈ s.timers, t = .ended
  call : (s.call = .dRead ∧ n = 3) ∨ (s.call = .dTJoin ∧ n = 2) ∨ (s.call = .dMembers ∧ n = 1) ∨ (s.call = .destroyed ∧ n = 0)

theorem getElem?_ended {α : Type} {l : List α} {e : α} (h : ∀ x ∈ l, x = e) {j : Nat} {p : α} (hp : l[j]? = some p) : p = e := h p (List.mem_of_getElem? hp)

theorem slLast_step {s : Sl} {n : Nat} (h : SlLast s n) (op : SlOp) : SlLast (s.step op) (if op = .caller then n - 1 else n) := by
  have hne : op ≠ .caller → (if op = .caller then n - 1 else n) = n := fun e => if_neg e
  have hni : s.call ≠ .idle := by rcases h.call with ⟨e, -⟩ | ⟨e, -⟩ | ⟨e, -⟩ | ⟨e, -⟩ <;> rw [e] <;> exact (nomatch ·)
  unfold Sl.step
  rw [if_neg (by simp [h.dead, h.ub])]
  cases op with
  | start => dsimp only; rw [if_neg hni, hne (nomatch ·)]; exact h
  | destroy => dsimp only; rw [if_neg hni, hne (nomatch ·)]; exact h
  | close self => dsimp only; rw [if_neg hni, hne (nomatch ·)]; exact h
  | caller =>
    rw [if_pos rfl]
    dsimp only
    unfold Sl.goCaller
    rcases h.call with ⟨e, rfl⟩ | ⟨e, rfl⟩ | ⟨e, rfl⟩ | ⟨e, rfl⟩
    · rw [e, h.rd]; exact ⟨h.dead, h.ub, rfl, h.wr, h.tm, h.readers, h.writers, h.timers, .inr (.inl ⟨rfl, rfl⟩)⟩
    · rw [e, h.tm]; exact ⟨h.dead, h.ub, h.rd, h.wr, rfl, h.readers, h.writers, h.timers, .inr (.inr (.inl ⟨rfl, rfl⟩))⟩
    · rw [e]
      dsimp only
      rw [if_pos h.wr]
      exact ⟨h.dead, h.ub, h.rd, h.wr, h.tm, h.readers, h.writers, h.timers, .inr (.inr (.inr ⟨rfl, rfl⟩))⟩
    · rw [e]; exact h
  | giveUp =>
    rw [hne (nomatch ·)]
    dsimp only
    unfold Sl.giveUp
    rcases h.call with ⟨e, -⟩ | ⟨e, -⟩ | ⟨e, -⟩ | ⟨e, -⟩ <;> rw [e] <;> exact h
  | reader j o =>
    rw [hne (nomatch ·)]
    dsimp only
    cases hp : s.readers[j]? with
    | none =>
      rw [if_neg (by simp)]
      unfold Sl.goReader
      rw [hp]
      exact h
    | some p =>
      have := getElem?_ended h.readers hp
      subst this
      rw [if_neg (by simp)]
      unfold Sl.goReader
      rw [hp]
      exact h
  | handled j =>
    rw [hne (nomatch ·)]
    dsimp only
    rw [if_neg]
    · exact h
    · intro hh
      have := getElem?_ended h.readers hh.1
      cases this
  | writer j o =>
    rw [hne (nomatch ·)]
    dsimp only
    cases hp : s.writers[j]? with
    | none =>
      rw [if_neg (by simp)]
      unfold Sl.goWriter
      rw [hp]
      exact h
    | some p =>
      have := getElem?_ended h.writers hp
      subst this
      rw [if_neg (by simp)]
      unfold Sl.goWriter
      rw [hp]
      exact h
  | timer j k =>
    rw [hne (nomatch ·)]
    dsimp only
    cases hp : s.timers[j]? with
    | none =>
      rw [if_neg (by simp)]
      unfold Sl.goTimer
      rw [hp]
      exact h
    | some p =>
      have := getElem?_ended h.timers hp
      subst this
      rw [if_neg (by simp)]
      unfold Sl.goTimer
      rw [hp]
      exact h
  | send f =>
    rw [hne (nomatch ·)]
    dsimp only
    split
    · refine ⟨h.dead, h.ub, h.rd, h.wr, h.tm, h.readers, ?_, ?_, h.call⟩
      · intro w hw
        obtain ⟨x, hx, rfl⟩ := List.mem_map.mp hw
        rw [h.writers x hx]; rfl
      · intro w hw
        obtain ⟨x, hx, rfl⟩ := List.mem_map.mp hw
        rw [h.timers x hx]; rfl
    · exact h
  | answer i =>
    rw [hne (nomatch ·)]
    dsimp only
    split
    · exact ⟨h.dead, h.ub, h.rd, h.wr, h.tm, h.readers, h.writers, h.timers, h.call⟩
    · exact h

theorem slLast_run {s : Sl} {n : Nat} (h : SlLast s n) (ops : List SlOp) : SlLast (s.run ops) (n - ops.count .caller) := by
  induction ops generalizing s n with
  | nil => exact h
  | cons op l ih =>
    have := ih (slLast_step h op)
    rw [List.count_cons]
    show SlLast ((s.step op).run l) _
    by_cases ho : op = .caller
    · subst ho
      simp only [if_true] at this
      have e : n - (l.count .caller + 1) = n - 1 - l.count .caller := by omega
      simpa [e] using this
    · rw [if_neg ho] at this
      have e : (op == SlOp.caller) = false := by simpa using ho
      simpa [e] using this

/-- C118. A transport that was never started or whose `Close` has returned, and of which no thread was let go, is destroyed in three turns of the caller, whatever happens beside, and
nothing of it is used afterwards. Missing: threads that were let go; a transport that was not closed. -/
theorem C118_destroy_partial (ops more : List SlOp) (hc : (Sl.init.run ops).call = .idle) (hlog : (Sl.init.run ops).log.getLast? ≠ some .started) (hleft : (Sl.init.run ops).left = [])
    (hturns : 3 ≤ more.count .caller) :
    ((Sl.init.run ops).run (.destroy :: more)).call = .destroyed ∧ ((Sl.init.run ops).run (.destroy :: more)).ub = false ∧ ((Sl.init.run ops).run (.destroy :: more)).dead = false := by
  have h := slInv_run ops
  have hcalm := slCalm_run ops
  obtain ⟨hr, hw, ht⟩ := C118_closed_partial ops hc hlog hleft
  generalize Sl.init.run ops = s at *
  have hp := h.phase
  unfold SlPhase at hp
  rw [hc] at hp
  have htm : s.tm = none := by
    cases e : s.tm with
    | none => rfl
    | some j => exact absurd (hp.2.2.1 (by rw [e]; rfl)) hlog
  have hrd : s.rd = none := by
    cases e : s.rd with
    | none => rfl
    | some j => have := hp.1; rw [e, htm] at this; cases this
  have hwr : s.wr = none := by
    cases e : s.wr with
    | none => rfl
    | some j => have := hp.2.1; rw [e, htm] at this; cases this
  have hdead : s.dead = false := by
    cases e : s.dead with
    | false => rfl
    | true =>
      rcases hcalm.dead e with e' | e'
      · exact absurd e' hlog
      · rw [hc] at e'; cases e'
  have hub : s.ub = false := by
    cases e : s.ub with
    | false => rfl
    | true => have := hcalm.gone (hcalm.ub e); rw [hc] at this; cases this
  have first : s.step .destroy = { s with call := .dRead } := by
    unfold Sl.step
    rw [if_neg (by simp [hdead, hub])]
    dsimp only
    rw [if_pos hc]
  have l0 : SlLast (s.step .destroy) 3 := by
    rw [first]
    exact ⟨hdead, hub, hrd, hwr, htm, hr, hw, ht, .inl ⟨rfl, rfl⟩⟩
  have l := slLast_run l0 more
  have e : 3 - more.count .caller = 0 := by omega
  rw [e] at l
  show ((s.step .destroy).run more).call = _ ∧ _
  refine ⟨?_, l.ub, l.dead⟩
  rcases l.call with ⟨-, e⟩ | ⟨-, e⟩ | ⟨-, e⟩ | ⟨e, -⟩
  · cases e
  · cases e
  · cases e
  · exact e

example : 3 ≤ ([.caller, .reader 0 .nothing, .caller, .timer 0 0, .caller] : List SlOp).count .caller := by decide

/-- C118 fails: the destruction of a transport that was started and not closed never comes to its end, whatever is done: it waits for the thread that watches the deadlines, which nobody wakes,
or the process ends, since the thread that writes is joinable. -/
theorem C118_unclosed_counterexample (ops more : List SlOp) (hc : (Sl.init.run ops).call = .idle) (hlog : (Sl.init.run ops).log.getLast? = some .started) :
    ((Sl.init.run ops).run (.destroy :: more)).call ≠ .destroyed := by
  have h := slInv_run ops
  generalize Sl.init.run ops = s at *
  have hp := h.phase
  unfold SlPhase at hp
  rw [hc] at hp
  have hwr : s.wr.isSome = true := by rw [hp.2.1]; exact hp.2.2.2 hlog
  let K : Sl → Prop := fun t => t.wr.isSome = true ∧ (t.call = .idle ∧ t.dead = true ∨ t.call = .idle ∧ t.ub = true ∨ t.call = .dRead ∨ t.call = .dRJoin ∨ t.call = .dTJoin ∨ t.call = .dMembers)
  have k0 : K (s.step .destroy) := by
    unfold Sl.step
    split
    · rename_i hd
      rcases (by simpa using hd : s.dead = true ∨ s.ub = true) with e | e
      · exact ⟨hwr, .inl ⟨hc, e⟩⟩
      · exact ⟨hwr, .inr (.inl ⟨hc, e⟩)⟩
    · dsimp only
      exact ⟨hwr, .inr (.inr (.inl rfl))⟩
  have kall : K ((s.step .destroy).run more) := by
    refine sl_run_inv k0 fun t op _ ⟨k1, k2⟩ => ?_
    by_cases hd : (t.dead || t.ub) = true
    · have : t.step op = t := by unfold Sl.step; rw [if_pos hd]
      rw [this]; exact ⟨k1, k2⟩
    · have hd' : t.dead = false ∧ t.ub = false := by simpa using hd
      have k3 : t.call = .dRead ∨ t.call = .dRJoin ∨ t.call = .dTJoin ∨ t.call = .dMembers := by
        rcases k2 with ⟨-, e⟩ | ⟨-, e⟩ | e
        · rw [hd'.1] at e; cases e
        · rw [hd'.2] at e; cases e
        · exact e
      by_cases ha : op.aside = true
      · have a := aside_step t op ha
        exact ⟨by rw [a.wr]; exact k1, .inr (.inr (by rw [a.call]; exact k3))⟩
      · have hni : t.call ≠ .idle := by rcases k3 with e | e | e | e <;> rw [e] <;> exact (nomatch ·)
        unfold Sl.step
        rw [if_neg hd]
        cases op with
        | start => dsimp only; rw [if_neg hni]; exact ⟨k1, k2⟩
        | destroy => dsimp only; rw [if_neg hni]; exact ⟨k1, k2⟩
        | close self => dsimp only; rw [if_neg hni]; exact ⟨k1, k2⟩
        | giveUp =>
          dsimp only
          unfold Sl.giveUp
          rcases k3 with e | e | e | e <;> rw [e] <;> exact ⟨k1, k2⟩
        | caller =>
          dsimp only
          unfold Sl.goCaller
          rcases k3 with e | e | e | e
          · rw [e]
            dsimp only
            split
            · exact ⟨k1, .inr (.inr (.inr (.inr (.inl rfl))))⟩
            · split
              · exact ⟨k1, .inr (.inr (.inr (.inl rfl)))⟩
              · exact ⟨k1, .inr (.inr (.inr (.inr (.inl rfl))))⟩
          · rw [e]
            dsimp only
            split
            · exact ⟨k1, .inr (.inr (.inr (.inr (.inl rfl))))⟩
            · split
              · exact ⟨k1, .inr (.inr (.inr (.inr (.inl rfl))))⟩
              · exact ⟨k1, k2⟩
          · rw [e]
            dsimp only
            split
            · exact ⟨k1, .inr (.inr (.inr (.inr (.inr rfl))))⟩
            · split
              · exact ⟨k1, .inr (.inr (.inr (.inr (.inr rfl))))⟩
              · exact ⟨k1, .inr (.inr (.inr (.inr (.inl rfl))))⟩
          · rw [e]
            dsimp only
            rw [if_neg (by intro e'; rw [e'] at k1; cases k1)]
            exact ⟨k1, .inr (.inr (.inr (.inr (.inr rfl))))⟩
        | _ => exact absurd rfl ha
  intro e
  rcases kall.2 with ⟨e', -⟩ | ⟨e', -⟩ | e' | e' | e' | e' <;>
    (have e'' : ((s.step .destroy).run more).call = .destroyed := e
     rw [e''] at e'
     cases e')

example : (Sl.init.run [.start]).call = .idle ∧ (Sl.init.run [.start]).log.getLast? = some .started := by decide

/-- One way it goes: the thread that watches sleeps, and the destructor waits for it for ever. -/
example : ((Sl.init.run [.start, .timer 0 0, .timer 0 0, .destroy, .caller, .caller, .timer 0 0, .caller]).call = .dTJoin) ∧
    (Sl.init.run [.start, .timer 0 0, .timer 0 0, .destroy, .caller, .caller, .timer 0 0, .caller]).timers = [.asleep] := by decide +kernel

/-- The other: the process ends. -/
example : (Sl.init.run [.start, .destroy, .caller, .caller, .timer 0 0, .caller, .caller]).dead = true := by decide +kernel

/-- C118 fails: a handler that runs longer than 500 ms is left to itself by `Close`; the transport is destroyed, and when the handler returns its thread goes on with the
destroyed transport. -/
theorem C118_given_up_counterexample :
    ∃ ops : List SlOp, (Sl.init.run ops).call = .destroyed ∧ (Sl.init.run ops).log = [.started, .closed] ∧ (Sl.init.run ops).ub = false ∧
      ((Sl.init.run ops).run [.handled 0, .reader 0 .nothing]).ub = true :=
  ⟨[.start, .writer 0 none, .reader 0 .nothing, .reader 0 (.bytes [1] true), .close none, .caller, .caller, .giveUp, .caller, .writer 0 none, .caller, .caller, .timer 0 0, .caller, .caller,
    .destroy, .caller, .caller, .caller], by decide +kernel⟩

/-- C118 fails: the same when a handler closes the transport, as one does that is asked to shut down, however quick everybody is. -/
theorem C118_self_counterexample :
    ∃ ops : List SlOp, .giveUp ∉ ops ∧ (Sl.init.run ops).call = .destroyed ∧ (Sl.init.run ops).log = [.started, .closed] ∧ (Sl.init.run ops).ub = false ∧
      ((Sl.init.run ops).run [.handled 0, .reader 0 .nothing]).ub = true :=
  ⟨[.start, .writer 0 none, .reader 0 .nothing, .reader 0 (.bytes [1] true), .close (some 0), .caller, .caller, .caller, .caller, .writer 0 none, .caller, .caller, .timer 0 0, .caller, .caller,
    .destroy, .caller, .caller, .caller], by decide +kernel⟩

/-! ### A second Start -/

/-- C118 fails: `Start` on a transport that is started ends the process. -/
theorem C118_twice_counterexample : ∃ ops : List SlOp, (Sl.init.run ops).log = [.started] ∧ ((Sl.init.run ops).step .start).dead = true :=
  ⟨[.start], by decide +kernel⟩

/-- C118. The process is not ended when `Start` and the destructor are only called on a transport that was never started or is closed. Missing: the calls on a transport that is not closed. -/
theorem C118_alive_partial (ops : List SlOp)
    (h : ∀ a b op, ops = a ++ op :: b → (op = .start ∨ op = .destroy) → (Sl.init.run a).call = .idle → (Sl.init.run a).log.getLast? ≠ some .started) :
    (Sl.init.run ops).dead = false := by
  have key : ∀ a b, ops = a ++ b → (Sl.init.run a).dead = false ∧
      (((Sl.init.run a).call = .dRead ∨ (Sl.init.run a).call = .dRJoin ∨ (Sl.init.run a).call = .dTJoin ∨ (Sl.init.run a).call = .dMembers) → (Sl.init.run a).wr = none) := by
    intro a
    induction ha : a.length generalizing a with
    | zero =>
      intro b _
      have : a = [] := List.eq_nil_of_length_eq_zero ha
      subst this
      exact ⟨rfl, fun _ => rfl⟩
    | succ n ih =>
      intro b hb
      obtain ⟨a', op, rfl⟩ : ∃ a' op, a = a' ++ [op] := by
        refine ⟨a.dropLast, a.getLast (by intro e; rw [e] at ha; cases ha), (List.dropLast_concat_getLast _).symm⟩
      obtain ⟨i1, i2⟩ := ih a' (by simpa using ha) (op :: b) (by rw [hb]; simp)
      have hop := h a' b op (by rw [hb]; simp)
      have hinv := slInv_run a'
      rw [sl_run_append]
      show ((Sl.init.run a').step op).dead = false ∧ _
      change _ ∧ (((Sl.init.run a').step op).call = .dRead ∨ ((Sl.init.run a').step op).call = .dRJoin ∨ ((Sl.init.run a').step op).call = .dTJoin ∨ ((Sl.init.run a').step op).call = .dMembers →
        ((Sl.init.run a').step op).wr = none)
      generalize Sl.init.run a' = s at *
      by_cases hd : (s.dead || s.ub) = true
      · have : s.step op = s := by unfold Sl.step; rw [if_pos hd]
        rw [this]; exact ⟨i1, i2⟩
      · by_cases hasd : op.aside = true
        · have as := aside_step s op hasd
          rw [as.dead, as.call, as.wr]
          exact ⟨i1, i2⟩
        · have hp := hinv.phase
          unfold SlPhase at hp
          have hnone : s.call = .idle → s.log.getLast? ≠ some .started → s.rd = none ∧ s.wr = none ∧ s.tm = none := by
            intro hc hl
            rw [hc] at hp
            have htm : s.tm = none := by
              cases e : s.tm with
              | none => rfl
              | some j => exact absurd (hp.2.2.1 (by rw [e]; rfl)) hl
            refine ⟨?_, ?_, htm⟩
            · cases e : s.rd with
              | none => rfl
              | some j => have := hp.1; rw [e, htm] at this; cases this
            · cases e : s.wr with
              | none => rfl
              | some j => have := hp.2.1; rw [e, htm] at this; cases this
          unfold Sl.step
          rw [if_neg hd]
          cases op with
          | start =>
            dsimp only
            split
            · rename_i hc
              unfold Sl.start
              rw [if_pos (hnone hc (hop (.inl rfl) hc))]
              refine ⟨i1, fun e => ?_⟩
              dsimp only at e
              rw [hc] at e
              rcases e with e | e | e | e <;> cases e
            · exact ⟨i1, i2⟩
          | destroy =>
            dsimp only
            split
            · rename_i hc
              exact ⟨i1, fun _ => (hnone hc (hop (.inr rfl) hc)).2.1⟩
            · exact ⟨i1, i2⟩
          | close self =>
            dsimp only
            split
            · cases self with
              | none => exact ⟨i1, fun e => by rcases e with e | e | e | e <;> cases e⟩
              | some j =>
                dsimp only
                split
                · exact ⟨i1, fun e => by rcases e with e | e | e | e <;> cases e⟩
                · exact ⟨i1, i2⟩
            · exact ⟨i1, i2⟩
          | giveUp =>
            dsimp only
            unfold Sl.giveUp
            split
            · split
              · split
                · exact ⟨i1, i2⟩
                · split
                  · exact ⟨i1, fun e => by rcases e with e | e | e | e <;> cases e⟩
                  · exact ⟨i1, fun e => by rcases e with e | e | e | e <;> cases e⟩
              · exact ⟨i1, i2⟩
            · split
              · split
                · exact ⟨i1, fun e => by rcases e with e | e | e | e <;> cases e⟩
                · exact ⟨i1, fun e => by rcases e with e | e | e | e <;> cases e⟩
              · exact ⟨i1, i2⟩
            · exact ⟨i1, i2⟩
          | caller =>
            dsimp only
            unfold Sl.goCaller
            cases hc : s.call with
            | idle => exact ⟨i1, i2⟩
            | flag => exact ⟨i1, fun e => by rcases e with e | e | e | e <;> cases e⟩
            | notify => exact ⟨i1, fun e => by rcases e with e | e | e | e <;> cases e⟩
            | rWait => dsimp only; split <;> (try split) <;> (try split) <;> first | exact ⟨i1, i2⟩ | exact ⟨i1, fun e => by rcases e with e | e | e | e <;> cases e⟩
            | rJoin => dsimp only; split <;> (try split) <;> first | exact ⟨i1, i2⟩ | exact ⟨i1, fun e => by rcases e with e | e | e | e <;> cases e⟩
            | wNotify => dsimp only; split <;> exact ⟨i1, fun e => by rcases e with e | e | e | e <;> cases e⟩
            | wWait => dsimp only; split <;> first | exact ⟨i1, i2⟩ | exact ⟨i1, fun e => by rcases e with e | e | e | e <;> cases e⟩
            | wJoin => dsimp only; split <;> (try split) <;> first | exact ⟨i1, i2⟩ | exact ⟨i1, fun e => by rcases e with e | e | e | e <;> cases e⟩
            | tJoin => dsimp only; split <;> (try split) <;> first | exact ⟨i1, i2⟩ | exact ⟨i1, fun e => by rcases e with e | e | e | e <;> cases e⟩
            | fail => exact ⟨i1, fun e => by rcases e with e | e | e | e <;> cases e⟩
            | dRead => dsimp only; split <;> (try split) <;> exact ⟨i1, fun _ => i2 (.inl hc)⟩
            | dRJoin => dsimp only; split <;> (try split) <;> exact ⟨i1, fun _ => i2 (.inr (.inl hc))⟩
            | dTJoin => dsimp only; split <;> (try split) <;> exact ⟨i1, fun _ => i2 (.inr (.inr (.inl hc)))⟩
            | dMembers =>
              dsimp only
              rw [if_pos (i2 (.inr (.inr (.inr hc))))]
              exact ⟨i1, fun e => by rcases e with e | e | e | e <;> cases e⟩
            | destroyed => exact ⟨i1, i2⟩
          | _ => exact absurd rfl hasd
  exact (key ops [] (by simp)).1

/-- C118. As long as no thread was let go, what the threads of one `Start` read is a stretch of the input by itself: nothing of it is read by a thread of an earlier or a later `Start`. Missing:
threads that were let go. -/
theorem C118_one_reader_partial (ops : List SlOp) (hleft : (Sl.init.run ops).left = []) : ((Sl.init.run ops).reads.map Prod.fst).Pairwise (· ≤ ·) := by
  have key : (Sl.init.run ops).left = [] → (∀ p ∈ (Sl.init.run ops).reads, p.1 < (Sl.init.run ops).readers.length) ∧ ((Sl.init.run ops).reads.map Prod.fst).Pairwise (· ≤ ·) := by
    have P : SlInv (Sl.init.run ops) ∧ ((Sl.init.run ops).left = [] →
        (∀ p ∈ (Sl.init.run ops).reads, p.1 < (Sl.init.run ops).readers.length) ∧ ((Sl.init.run ops).reads.map Prod.fst).Pairwise (· ≤ ·)) := by
      refine sl_run_inv (P := fun s => SlInv s ∧ (s.left = [] → (∀ p ∈ s.reads, p.1 < s.readers.length) ∧ (s.reads.map Prod.fst).Pairwise (· ≤ ·)))
        ⟨slInv_init, fun _ => ⟨fun _ h => (nomatch h), .nil⟩⟩ fun s op _ ⟨hi, hr⟩ => ⟨slInv_step hi op, ?_⟩
      have same : ∀ t : Sl, (t.left = [] → s.left = []) → t.reads = s.reads → s.readers.length ≤ t.readers.length →
          (t.left = [] → (∀ p ∈ t.reads, p.1 < t.readers.length) ∧ (t.reads.map Prod.fst).Pairwise (· ≤ ·)) := by
        intro t e1 e2 e3 e
        obtain ⟨q1, q2⟩ := hr (e1 e)
        rw [e2]
        exact ⟨fun p hp => Nat.lt_of_lt_of_le (q1 p hp) e3, q2⟩
      unfold Sl.step
      split
      · exact hr
      · cases op with
        | start =>
          dsimp only
          split
          · unfold Sl.start
            split
            · exact same _ id rfl (by simp)
            · exact same _ id rfl (Nat.le_refl _)
          · exact hr
        | destroy => dsimp only; split <;> exact same _ id rfl (Nat.le_refl _)
        | close self =>
          dsimp only
          split
          · cases self with
            | none => exact same _ id rfl (Nat.le_refl _)
            | some j => dsimp only; split <;> exact same _ id rfl (Nat.le_refl _)
          · exact hr
        | caller =>
          dsimp only
          unfold Sl.goCaller
          cases hc : s.call with
          | rWait => dsimp only; split <;> (try split) <;> (try split) <;> first | exact hr | exact same _ id rfl (Nat.le_refl _) | exact same _ (fun e => by simp at e) rfl (Nat.le_refl _)
          | dRead => dsimp only; split <;> (try split) <;> first | exact same _ id rfl (Nat.le_refl _) | exact same _ (fun e => by simp at e) rfl (Nat.le_refl _)
          | notify => exact same _ id rfl (Nat.le_refl _)
          | flag => exact same _ id rfl (Nat.le_refl _)
          | fail => exact same _ id rfl (Nat.le_refl _)
          | idle => exact hr
          | destroyed => exact hr
          | rJoin => dsimp only; split <;> (try split) <;> first | exact hr | exact same _ id rfl (Nat.le_refl _)
          | wNotify => dsimp only; split <;> exact same _ id rfl (Nat.le_refl _)
          | wWait => dsimp only; split <;> first | exact hr | exact same _ id rfl (Nat.le_refl _)
          | wJoin => dsimp only; split <;> (try split) <;> first | exact hr | exact same _ id rfl (Nat.le_refl _)
          | tJoin => dsimp only; split <;> (try split) <;> first | exact hr | exact same _ id rfl (Nat.le_refl _)
          | dRJoin => dsimp only; split <;> (try split) <;> first | exact hr | exact same _ id rfl (Nat.le_refl _)
          | dTJoin => dsimp only; split <;> (try split) <;> exact same _ id rfl (Nat.le_refl _)
          | dMembers => dsimp only; split <;> exact same _ id rfl (Nat.le_refl _)
        | giveUp =>
          dsimp only
          unfold Sl.giveUp
          split
          · split <;> (try split) <;> (try split) <;> first | exact hr | exact same _ id rfl (Nat.le_refl _) | exact same _ (fun e => by simp at e) rfl (Nat.le_refl _)
          · split <;> (try split) <;> first | exact hr | exact same _ id rfl (Nat.le_refl _) | exact same _ (fun e => by simp at e) rfl (Nat.le_refl _)
          · exact hr
        | reader j o =>
          dsimp only
          split
          · exact same _ id rfl (Nat.le_refl _)
          · unfold Sl.goReader
            cases hp : s.readers[j]? with
            | none => exact hr
            | some p =>
              cases p with
              | test => exact same _ id rfl (by simp)
              | wait =>
                cases o with
                | nothing => exact same _ id rfl (by simp)
                | eof => exact same _ id rfl (by simp)
                | bytes c whole =>
                  intro e
                  obtain ⟨q1, q2⟩ := hr e
                  have hlt : j < s.readers.length := (List.getElem?_eq_some_iff.mp hp).1
                  have hrd : s.rd = some j := by
                    rcases hi.readers j hlt with e' | e' | e'
                    · rw [hp] at e'; cases e'
                    · exact e'
                    · rw [show s.left = [] from e] at e'; cases e'
                  have hlast := hi.rdLast j hrd
                  constructor
                  · intro p hpm
                    show p.1 < (s.readers.set j _).length
                    rw [List.length_set]
                    rcases List.mem_append.mp hpm with m | m
                    · exact q1 p m
                    · rw [List.mem_singleton] at m; subst m; exact hlt
                  · show ((s.reads ++ [(j, c)]).map Prod.fst).Pairwise (· ≤ ·)
                    rw [List.map_append, List.pairwise_append]
                    refine ⟨q2, by simp, fun x hx y hy => ?_⟩
                    obtain ⟨p, pm, rfl⟩ := List.mem_map.mp hx
                    simp only [List.map_cons, List.map_nil, List.mem_singleton] at hy
                    subst hy
                    have := q1 p pm
                    omega
              | handle => exact hr
              | leaving => exact same _ id rfl (by simp)
              | ended => exact hr
        | handled j => dsimp only; split <;> first | exact hr | exact same _ id rfl (by simp)
        | writer j o =>
          dsimp only
          split
          · exact same _ id rfl (Nat.le_refl _)
          · unfold Sl.goWriter
            split
            · exact same _ id rfl (Nat.le_refl _)
            · split <;> exact same _ id rfl (Nat.le_refl _)
            · split
              · exact same _ id rfl (Nat.le_refl _)
              · split <;> exact same _ id rfl (Nat.le_refl _)
            · exact same _ id rfl (Nat.le_refl _)
            · split
              · exact same _ id rfl (Nat.le_refl _)
              · split <;> exact same _ id rfl (Nat.le_refl _)
            · exact hr
        | timer j k =>
          dsimp only
          split
          · exact same _ id rfl (Nat.le_refl _)
          · unfold Sl.goTimer
            split <;> first | exact hr | exact same _ id rfl (Nat.le_refl _) | (split <;> exact same _ id rfl (Nat.le_refl _))
        | send f => dsimp only; split <;> first | exact hr | exact same _ id rfl (Nat.le_refl _)
        | answer i => dsimp only; split <;> first | exact hr | exact same _ id rfl (Nat.le_refl _)
    exact P.2
  exact (key hleft).2

/-- The life of before, and another. -/
example : (Sl.init.run (slLife ++ [.start, .reader 1 .nothing, .reader 1 (.bytes [3] false)])).reads = [(0, [1, 2]), (1, [3])] ∧
    (Sl.init.run (slLife ++ [.start, .reader 1 .nothing, .reader 1 (.bytes [3] false)])).left = [] := by decide +kernel

/-- C118 fails: when `Close` has left a thread that reads to itself and the transport is started again, two threads read the input by turns, and neither gets it whole. -/
theorem C118_two_readers_counterexample :
    ∃ ops : List SlOp, (Sl.init.run ops).log = [.started, .closed, .started] ∧ (Sl.init.run ops).reads = [(0, [1]), (1, [2]), (0, [3]), (1, [4])] :=
  ⟨[.start, .writer 0 none, .reader 0 .nothing, .reader 0 (.bytes [1] true), .close none, .caller, .caller, .giveUp, .caller, .writer 0 none, .caller, .caller, .timer 0 0, .caller, .caller,
    .start, .handled 0, .reader 1 .nothing, .reader 1 (.bytes [2] false), .reader 0 .nothing, .reader 0 (.bytes [3] false), .reader 1 .nothing, .reader 1 (.bytes [4] false)],
    by decide +kernel⟩

/-- C118 fails: a thread left behind may end after the next `Start`, and then it marks the transport as disconnected: nobody closed it, its input did not end, no write failed. -/
theorem C118_ghost_counterexample :
    ∃ ops more : List SlOp, (Sl.init.run ops).log = [.started, .closed, .started] ∧ (Sl.init.run ops).connected = true ∧ (Sl.init.run ops).call = .idle ∧
      more = [.reader 0 .nothing] ∧ ((Sl.init.run ops).run more).connected = false :=
  ⟨[.start, .writer 0 none, .reader 0 .nothing, .reader 0 (.bytes [1] true), .close none, .caller, .caller, .giveUp, .caller, .writer 0 none, .caller, .caller, .timer 0 0, .caller, .caller,
    .handled 0, .reader 0 .nothing, .start], [.reader 0 .nothing], by decide +kernel⟩

/-- C118 fails: a request that was told that the transport is closed is sent by the next `Start`. -/
theorem C118_stale_counterexample :
    ∃ ops more : List SlOp, (Sl.init.run ops).log = [.started, .closed, .started] ∧ (Sl.init.run ops).failed = [[7, 8]] ∧ (Sl.init.run ops).out = [] ∧
      more = [.writer 1 none, .writer 1 none, .writer 1 none, .writer 1 (some 2)] ∧ ((Sl.init.run ops).run more).out = [7, 8] :=
  ⟨[.start, .writer 0 none, .send [7, 8], .close none, .caller, .caller, .reader 0 .nothing, .reader 0 .nothing, .caller, .caller, .caller, .writer 0 none, .caller, .caller, .timer 0 0, .caller,
    .caller, .start], [.writer 1 none, .writer 1 none, .writer 1 none, .writer 1 (some 2)], by decide +kernel⟩

/-- C118 fails: of a frame that is being written when the transport is closed a part is on the output, and the first frame of the next `Start` follows right after it. -/
theorem C118_torn_counterexample :
    ∃ ops : List SlOp, (Sl.init.run ops).log = [.started, .closed, .started] ∧ (∀ op ∈ ops, ∀ f, op = .send f → f = [7, 8, 9]) ∧ (Sl.init.run ops).out = [7, 8, 7, 8, 9] := by
  refine ⟨[.start, .writer 0 none, .writer 0 none, .send [7, 8, 9], .writer 0 none, .writer 0 (some 2), .close none, .caller, .caller, .reader 0 .nothing, .reader 0 .nothing, .caller, .caller,
    .caller, .writer 0 none, .writer 0 none, .caller, .caller, .timer 0 0, .caller, .caller, .start, .writer 1 none, .writer 1 none, .send [7, 8, 9], .writer 1 none, .writer 1 (some 3)],
    by decide +kernel, ?_, by decide +kernel⟩
  intro op hop f e
  subst e
  simpa using hop

end Verif.Stdio
