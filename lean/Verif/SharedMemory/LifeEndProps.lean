import Verif.SharedMemory.LifeProps

/-!
C120: `Start`, `Close` and the destructor of a shared-memory transport return.
-/

namespace Verif.Shm

/-- `Close`. -/
def SmCall.closing : SmCall → Bool
  | .cBye | .cFlag | .cStop | .cJoin | .cRemove | .cFail => true
  | _ => false

/-- The destructor. -/
def SmCall.dying : SmCall → Bool
  | .dStop | .dJoin | .dRemove | .destroyed => true
  | _ => false

/-- In a join. -/
def SmCall.joining : SmCall → Bool
  | .swapJoin | .cJoin | .dJoin => true
  | _ => false

structure SmMore (s : Sm) : Prop where
  self : s.self = none ∨ s.call.closing = true
  other : s.call = .cJoin → ∀ j, s.th = some j → s.self ≠ some j
  told : s.call.joining = true → ∀ j, s.th = some j → ∃ p, s.works[j]? = some ⟨p, true⟩

/-- A step of some other thread leaves thread `j` where it is. -/
theorem sm_apart (s : Sm) (op : SmOp) (ha : op.aside = true) (j : Nat) (h1 : ∀ o, op ≠ .work j o) (h2 : op ≠ .handled j) : (s.step op).works[j]? = s.works[j]? := by
  have hset : ∀ (i : Nat) (w : SmWork), i ≠ j → (s.works.set i w)[j]? = s.works[j]? := fun i w hi => by rw [List.getElem?_set, if_neg hi]
  unfold Sm.step
  split
  · rfl
  · cases op with
    | work i o =>
      have hi : i ≠ j := fun e => h1 o (by rw [e])
      dsimp only
      split
      · rfl
      · unfold Sm.goWork
        cases s.works[i]? with
        | none => rfl
        | some w =>
          obtain ⟨p, st⟩ := w
          cases p with
          | test => exact hset i _ hi
          | recv g =>
            dsimp only
            split
            · rfl
            · cases o with
              | timeout => exact hset i _ hi
              | throws => exact hset i _ hi
              | got m => cases m <;> exact hset i _ hi
          | busy => rfl
          | leave => exact hset i _ hi
          | ended => rfl
    | handled i =>
      have hi : i ≠ j := fun e => h2 (by rw [e])
      dsimp only
      split
      · split
        · rfl
        · exact hset i _ hi
      · rfl
    | answered h => dsimp only; split <;> (try split) <;> rfl
    | send r => dsimp only; split <;> rfl
    | _ => cases ha

/-- How far a thread that was told to stop is from its end. -/
def SmAt.far : SmAt → Nat
  | .ended => 0
  | .leave => 1
  | .test => 2
  | .busy => 3
  | .recv _ => 4

/-- A thread that was told to stop goes on. -/
theorem sm_nearer (s : Sm) (op : SmOp) (ha : op.aside = true) (j : Nat) (p : SmAt) (hj : s.works[j]? = some ⟨p, true⟩) :
    (s.step op).ub = true ∨ ∃ q, (s.step op).works[j]? = some ⟨q, true⟩ ∧ (q = p ∨ q.far < p.far) := by
  have hlt := (List.getElem?_eq_some_iff.mp hj).1
  by_cases h1 : ∃ o, op = .work j o
  · obtain ⟨o, rfl⟩ := h1
    unfold Sm.step
    split
    · exact .inr ⟨p, hj, .inl rfl⟩
    · dsimp only
      split
      · exact .inl rfl
      · unfold Sm.goWork
        rw [hj]
        have hset : ∀ q, (s.works.set j ⟨q, true⟩)[j]? = some ⟨q, true⟩ := fun q => List.getElem?_set_self hlt
        cases p with
        | test => exact .inr ⟨.leave, by show (s.works.set j _)[j]? = _; rw [hset]; simp, .inr (by decide)⟩
        | recv g =>
          dsimp only
          split
          · exact .inl rfl
          · cases o with
            | timeout => exact .inr ⟨.test, hset _, .inr (by show 2 < 4; decide)⟩
            | throws => exact .inr ⟨.leave, hset _, .inr (by show 1 < 4; decide)⟩
            | got m =>
              cases m with
              | answer i => exact .inr ⟨.test, hset _, .inr (by show 2 < 4; decide)⟩
              | request => exact .inr ⟨.test, hset _, .inr (by show 2 < 4; decide)⟩
              | note => exact .inr ⟨.busy, hset _, .inr (by show 3 < 4; decide)⟩
              | bye => exact .inr ⟨.busy, hset _, .inr (by show 3 < 4; decide)⟩
        | busy => exact .inr ⟨.busy, hj, .inl rfl⟩
        | leave => exact .inr ⟨.ended, hset _, .inr (by decide)⟩
        | ended => exact .inr ⟨.ended, hj, .inl rfl⟩
  · by_cases h2 : op = .handled j
    · subst h2
      right
      unfold Sm.step
      split
      · exact ⟨p, hj, .inl rfl⟩
      · dsimp only
        rw [hj]
        cases p with
        | busy =>
          dsimp only
          split
          · exact ⟨.busy, hj, .inl rfl⟩
          · exact ⟨.test, List.getElem?_set_self hlt, .inr (by decide)⟩
        | _ => exact ⟨_, hj, .inl rfl⟩
    · exact .inr ⟨p, (sm_apart s op ha j (fun o e => h1 ⟨o, e⟩) h2).trans hj, .inl rfl⟩

theorem smMore_aside {s : Sm} (h : SmMore s) (op : SmOp) (ha : op.aside = true) (hub : (s.step op).ub = false) : SmMore (s.step op) := by
  have a := smAside_step s op ha
  refine ⟨by rw [a.self, a.call]; exact h.self, by rw [a.self, a.call, a.th]; exact h.other, fun e j hj => ?_⟩
  rw [a.call] at e
  rw [a.th] at hj
  obtain ⟨p, hp⟩ := h.told e j hj
  rcases sm_nearer s op ha j p hp with x | ⟨q, x, -⟩
  · rw [hub] at x; cases x
  · exact ⟨q, x⟩

theorem sm_asked {s : Sm} {j : Nat} (h : j < s.works.length) : ∃ p, (s.askStop j).works[j]? = some ⟨p, true⟩ := by
  refine ⟨s.works[j].pos, ?_⟩
  unfold Sm.askStop
  dsimp only
  rw [List.getElem?_modify_eq, List.getElem?_eq_getElem h]
  rfl

theorem smMore_caller {s : Sm} (hi : SmInv s) (h : SmMore s) : SmMore s.goCaller := by
  unfold Sm.goCaller
  cases hc : s.call with
  | idle => exact h
  | destroyed => exact h
  | swap =>
    obtain ⟨j, hj, hlen⟩ := hi.lastButOne (by rw [hc]; rfl)
    dsimp only
    rw [hj]
    dsimp only
    refine ⟨.inl (h.self.resolve_right (by rw [hc]; exact (nomatch ·))), (nomatch ·), fun _ i e => ?_⟩
    have e' : s.th = some i := e
    rw [hj] at e'
    cases e'
    exact sm_asked (by omega)
  | swapJoin =>
    dsimp only
    cases hj : s.th with
    | none => exact h
    | some j =>
      dsimp only
      split
      · exact ⟨.inl (h.self.resolve_right (by rw [hc]; exact (nomatch ·))), (nomatch ·), (nomatch ·)⟩
      · exact h
  | cBye => exact ⟨.inr rfl, (nomatch ·), (nomatch ·)⟩
  | cFlag => exact ⟨.inr rfl, (nomatch ·), (nomatch ·)⟩
  | cStop =>
    dsimp only
    cases hj : s.th with
    | none => exact ⟨.inr rfl, (nomatch ·), (nomatch ·)⟩
    | some j =>
      dsimp only
      have hlen := hi.last (by rw [hc]; rfl) j hj
      by_cases hs : s.self = some j
      · rw [if_pos hs]; exact ⟨.inr rfl, (nomatch ·), (nomatch ·)⟩
      · rw [if_neg hs]
        refine ⟨.inr rfl, fun _ i e => ?_, fun _ i e => ?_⟩
        · have e' : s.th = some i := e
          rw [hj] at e'
          cases e'
          exact hs
        · have e' : s.th = some i := e
          rw [hj] at e'
          cases e'
          exact sm_asked (by omega)
  | cJoin =>
    dsimp only
    cases hj : s.th with
    | none => exact h
    | some j =>
      dsimp only
      split
      · exact ⟨.inr rfl, (nomatch ·), (nomatch ·)⟩
      · exact h
  | cRemove => exact ⟨.inr rfl, (nomatch ·), (nomatch ·)⟩
  | cFail => exact ⟨.inl rfl, (nomatch ·), (nomatch ·)⟩
  | dStop =>
    have hs := h.self.resolve_right (by rw [hc]; exact (nomatch ·))
    dsimp only
    cases hj : s.th with
    | none => exact ⟨.inl hs, (nomatch ·), (nomatch ·)⟩
    | some j =>
      have hlen := hi.last (by rw [hc]; rfl) j hj
      refine ⟨.inl hs, (nomatch ·), fun _ i e => ?_⟩
      have e' : s.th = some i := e
      rw [hj] at e'
      cases e'
      exact sm_asked (by omega)
  | dJoin =>
    have hs := h.self.resolve_right (by rw [hc]; exact (nomatch ·))
    dsimp only
    cases hj : s.th with
    | none => exact h
    | some j =>
      dsimp only
      split
      · exact ⟨.inl hs, (nomatch ·), (nomatch ·)⟩
      · exact h
  | dRemove => exact ⟨.inl (h.self.resolve_right (by rw [hc]; exact (nomatch ·))), (nomatch ·), (nomatch ·)⟩

theorem smMore_step {s : Sm} (hi : SmInv s) (h : SmMore s) (op : SmOp) (hub : (s.step op).ub = false) : SmMore (s.step op) := by
  by_cases ha : op.aside = true
  · exact smMore_aside h op ha hub
  · unfold Sm.step
    split
    · exact h
    · cases op with
      | start r =>
        dsimp only
        split
        · rename_i hc
          have hs := h.self.resolve_right (by rw [hc]; exact (nomatch ·))
          have hj : s.call.joining ≠ true := by rw [hc]; exact (nomatch ·)
          have hcj : s.call ≠ .cJoin := by rw [hc]; exact (nomatch ·)
          cases r with
          | none => exact ⟨.inl hs, fun e => absurd e hcj, fun e => absurd e hj⟩
          | first q => exact ⟨.inl hs, fun e => absurd e hcj, fun e => absurd e hj⟩
          | both q p =>
            unfold Sm.start
            dsimp only
            cases s.th with
            | none => exact ⟨.inl hs, fun e => absurd e hcj, fun e => absurd e hj⟩
            | some j => exact ⟨.inl hs, (nomatch ·), (nomatch ·)⟩
        · exact h
      | close self =>
        cases self with
        | none =>
          dsimp only
          split
          · exact ⟨.inr rfl, (nomatch ·), (nomatch ·)⟩
          · exact h
        | some j =>
          dsimp only
          split
          · exact ⟨.inr rfl, (nomatch ·), (nomatch ·)⟩
          · exact h
      | destroy =>
        dsimp only
        split
        · rename_i hc
          exact ⟨.inl (h.self.resolve_right (by rw [hc]; exact (nomatch ·))), (nomatch ·), (nomatch ·)⟩
        · exact h
      | caller => exact smMore_caller hi h
      | _ => exact absurd rfl ha

theorem sm_frozen {s : Sm} (h : s.ub = true) (ops : List SmOp) : (s.run ops).ub = true :=
  sm_run_inv (P := fun s => s.ub = true) h fun t op _ ht => by unfold Sm.step; rw [if_pos ht]; exact ht

theorem smMore_run (c : Bool) (ops : List SmOp) (hub : ((Sm.init c).run ops).ub = false) : SmMore ((Sm.init c).run ops) := by
  have key : ((Sm.init c).run ops).ub = true ∨ (SmInv ((Sm.init c).run ops) ∧ SmMore ((Sm.init c).run ops)) := by
    refine sm_run_inv (P := fun s => s.ub = true ∨ (SmInv s ∧ SmMore s)) (.inr ⟨smInv_init c, ⟨.inl rfl, (nomatch ·), (nomatch ·)⟩⟩) fun s op _ h => ?_
    rcases h with h | ⟨h1, h2⟩
    · left; unfold Sm.step; rw [if_pos h]; exact h
    · cases hu : (s.step op).ub with
      | true => exact .inl rfl
      | false => exact .inr ⟨smInv_step h1 op, smMore_step h1 h2 op hu⟩
  rcases key with h | h
  · rw [hub] at h; cases h
  · exact h.2

/-! ### Ranks -/

def SmCall.far : SmCall → Nat
  | .cBye => 60
  | .cFlag => 50
  | .cStop | .dStop | .swap => 40
  | .cJoin | .dJoin | .swapJoin => 10
  | .cRemove | .dRemove => 5
  | .cFail => 4
  | _ => 0

def Sm.far (s : Sm) : Nat := s.call.far + if s.call.joining then ((s.th.bind fun j => s.works[j]?).map fun w => w.pos.far).getD 0 else 0

/-- Whose turn helps. -/
inductive SmTurn where
  | caller
  | work (j : Nat)
  | handled (j : Nat)

def SmTurn.is : SmTurn → SmOp → Prop
  | .caller, op => op = .caller
  | .work j, op => ∃ o, op = .work j o
  | .handled j, op => op = .handled j

def Sm.turn (s : Sm) : SmTurn :=
  if s.call.joining then
    match s.th with
    | some j =>
      match (s.works[j]?).map SmWork.pos with
      | some .ended => .caller
      | some .busy => .handled j
      | _ => .work j
    | none => .caller
  else .caller

/-- A call that is under way; the destructor or not. -/
structure SmGoing (b : Bool) (s : Sm) : Prop where
  inv : SmInv s
  more : SmMore s
  call : s.call ≠ .idle ∧ s.call ≠ .destroyed
  kind : s.call.dying = b

theorem SmGoing.joined {b : Bool} {s : Sm} (g : SmGoing b s) (hj : s.call.joining = true) : ∃ j p, s.th = some j ∧ s.works[j]? = some ⟨p, true⟩ ∧ s.self ≠ some j := by
  cases hth : s.th with
  | none =>
    exfalso
    cases hc : s.call with
    | swapJoin => obtain ⟨j, h1, -⟩ := g.inv.lastButOne (by rw [hc]; rfl); rw [hth] at h1; cases h1
    | cJoin => exact g.inv.join (.inl hc) hth
    | dJoin => exact g.inv.join (.inr hc) hth
    | _ => rw [hc] at hj; cases hj
  | some j =>
    obtain ⟨p, hp⟩ := g.more.told hj j hth
    refine ⟨j, p, rfl, hp, ?_⟩
    cases hc : s.call with
    | cJoin => exact g.more.other hc j hth
    | swapJoin => rw [g.more.self.resolve_right (by rw [hc]; exact (nomatch ·))]; exact (nomatch ·)
    | dJoin => rw [g.more.self.resolve_right (by rw [hc]; exact (nomatch ·))]; exact (nomatch ·)
    | _ => rw [hc] at hj; cases hj

/-- The state a call leads to. -/
def SmGoal (b : Bool) (s : Sm) : Prop := s.call = (if b then .destroyed else .idle) ∨ s.ub = true

theorem smGoing_caller {b : Bool} {s : Sm} (g : SmGoing b s) (hu : ¬ s.ub = true) :
    SmGoal b (s.step .caller) ∨ (SmGoing b (s.step .caller) ∧ ((s.step .caller).far < s.far ∨ ((s.step .caller).far = s.far ∧ (s.step .caller).turn = s.turn ∧ ¬ s.turn.is .caller))) := by
  have est : s.step .caller = s.goCaller := by unfold Sm.step; rw [if_neg hu]
  have hinv' := smInv_step g.inv .caller
  have hub' : (s.step .caller).ub = false := by
    rw [est]
    have hu' : s.ub = false := by simpa using hu
    unfold Sm.goCaller
    cases s.call <;> dsimp only <;> (try split) <;> (try split) <;> exact hu'
  have hmore' := smMore_step g.inv g.more .caller hub'
  -- the call goes on, by a step that is nearer
  have near : ∀ k : SmCall, (s.step .caller).call = k → k ≠ .idle → k ≠ .destroyed → k.dying = s.call.dying → (s.step .caller).far < s.far →
      SmGoal b (s.step .caller) ∨ (SmGoing b (s.step .caller) ∧ ((s.step .caller).far < s.far ∨ ((s.step .caller).far = s.far ∧ (s.step .caller).turn = s.turn ∧ ¬ s.turn.is .caller))) :=
    fun k h1 h2 h3 h4 h5 => .inr ⟨⟨hinv', hmore', by rw [h1]; exact ⟨h2, h3⟩, by rw [h1, h4]; exact g.kind⟩, .inl h5⟩
  have flat : ∀ t : Sm, t.call.joining = false → t.far = t.call.far := fun t h => by unfold Sm.far; rw [h]; rfl
  have bound : ∀ t : Sm, t.far ≤ t.call.far + 4 := fun t => by
    unfold Sm.far
    split
    · cases h : (t.th.bind fun j => t.works[j]?) with
      | none => simp
      | some w => cases hp : w.pos <;> simp [hp, SmAt.far]
    · omega
  -- in a join
  have stuck : s.call.joining = true → s.goCaller = s → (∀ j, s.th = some j → s.over j = false) →
      SmGoal b (s.step .caller) ∨ (SmGoing b (s.step .caller) ∧ ((s.step .caller).far < s.far ∨ ((s.step .caller).far = s.far ∧ (s.step .caller).turn = s.turn ∧ ¬ s.turn.is .caller))) := by
    intro hj e hov
    rw [est, e]
    refine .inr ⟨g, .inr ⟨rfl, rfl, ?_⟩⟩
    obtain ⟨j, p, h1, h2, -⟩ := g.joined hj
    have := hov j h1
    unfold Sm.turn
    rw [if_pos hj, h1]
    dsimp only
    rw [h2]
    unfold Sm.over at this
    rw [h2] at this
    have hp : p ≠ .ended := by simpa using this
    cases p with
    | ended => exact absurd rfl hp
    | busy => exact (nomatch ·)
    | _ => rintro ⟨o, e⟩; cases e
  have idle : s.call.dying = false → (s.step .caller).call = .idle → SmGoal b (s.step .caller) := fun h1 h2 => by left; rw [← g.kind, h1, h2]; rfl
  cases hc : s.call with
  | idle => exact absurd hc g.call.1
  | destroyed => exact absurd hc g.call.2
  | swap =>
    obtain ⟨j, hj, -⟩ := g.inv.lastButOne (by rw [hc]; rfl)
    have e : (s.step .caller).call = .swapJoin := by rw [est]; unfold Sm.goCaller; rw [hc, hj]
    refine near _ e (nomatch ·) (nomatch ·) (by rw [hc]; rfl) ?_
    have := bound (s.step .caller)
    rw [e] at this
    rw [flat s (by rw [hc]; rfl), hc]
    show _ < 40
    have h2 : SmCall.swapJoin.far = 10 := rfl
    omega
  | cBye =>
    have e : (s.step .caller).call = .cFlag := by rw [est]; unfold Sm.goCaller; rw [hc]
    refine near _ e (nomatch ·) (nomatch ·) (by rw [hc]; rfl) ?_
    rw [flat _ (by rw [e]; rfl), flat s (by rw [hc]; rfl), e, hc]; decide
  | cFlag =>
    have e : (s.step .caller).call = .cStop := by rw [est]; unfold Sm.goCaller; rw [hc]
    refine near _ e (nomatch ·) (nomatch ·) (by rw [hc]; rfl) ?_
    rw [flat _ (by rw [e]; rfl), flat s (by rw [hc]; rfl), e, hc]; decide
  | cStop =>
    cases hj : s.th with
    | none =>
      have e : (s.step .caller).call = .cRemove := by rw [est]; unfold Sm.goCaller; rw [hc, hj]
      refine near _ e (nomatch ·) (nomatch ·) (by rw [hc]; rfl) ?_
      rw [flat _ (by rw [e]; rfl), flat s (by rw [hc]; rfl), e, hc]; decide
    | some j =>
      by_cases hs : s.self = some j
      · have e : (s.step .caller).call = .cRemove := by rw [est]; unfold Sm.goCaller; rw [hc, hj]; dsimp only; rw [if_pos hs]
        refine near _ e (nomatch ·) (nomatch ·) (by rw [hc]; rfl) ?_
        rw [flat _ (by rw [e]; rfl), flat s (by rw [hc]; rfl), e, hc]; decide
      · have e : (s.step .caller).call = .cJoin := by rw [est]; unfold Sm.goCaller; rw [hc, hj]; dsimp only; rw [if_neg hs]
        refine near _ e (nomatch ·) (nomatch ·) (by rw [hc]; rfl) ?_
        have := bound (s.step .caller)
        rw [e] at this
        rw [flat s (by rw [hc]; rfl), hc]
        show _ < 40
        have h2 : SmCall.cJoin.far = 10 := rfl
        omega
  | cRemove =>
    have e : (s.step .caller).call = .cFail := by rw [est]; unfold Sm.goCaller; rw [hc]
    refine near _ e (nomatch ·) (nomatch ·) (by rw [hc]; rfl) ?_
    rw [flat _ (by rw [e]; rfl), flat s (by rw [hc]; rfl), e, hc]; decide
  | cFail => exact .inl (idle (by rw [hc]; rfl) (by rw [est]; unfold Sm.goCaller; rw [hc]))
  | dStop =>
    cases hj : s.th with
    | none =>
      have e : (s.step .caller).call = .dRemove := by rw [est]; unfold Sm.goCaller; rw [hc, hj]
      refine near _ e (nomatch ·) (nomatch ·) (by rw [hc]; rfl) ?_
      rw [flat _ (by rw [e]; rfl), flat s (by rw [hc]; rfl), e, hc]; decide
    | some j =>
      have e : (s.step .caller).call = .dJoin := by rw [est]; unfold Sm.goCaller; rw [hc, hj]
      refine near _ e (nomatch ·) (nomatch ·) (by rw [hc]; rfl) ?_
      have := bound (s.step .caller)
      rw [e] at this
      rw [flat s (by rw [hc]; rfl), hc]
      show _ < 40
      have h2 : SmCall.dJoin.far = 10 := rfl
      omega
  | dRemove =>
    left; left
    rw [← g.kind, hc, est]
    unfold Sm.goCaller
    rw [hc]
    rfl
  | swapJoin =>
    obtain ⟨j, p, h1, h2, -⟩ := g.joined (by rw [hc]; rfl)
    cases ho : s.over j with
    | false => exact stuck (by rw [hc]; rfl) (by unfold Sm.goCaller; rw [hc, h1]; dsimp only; rw [ho]; rfl) (fun i e => by rw [h1] at e; cases e; exact ho)
    | true => exact .inl (idle (by rw [hc]; rfl) (by rw [est]; unfold Sm.goCaller; rw [hc, h1]; dsimp only; rw [if_pos ho]))
  | cJoin =>
    obtain ⟨j, p, h1, h2, -⟩ := g.joined (by rw [hc]; rfl)
    cases ho : s.over j with
    | false => exact stuck (by rw [hc]; rfl) (by unfold Sm.goCaller; rw [hc, h1]; dsimp only; rw [ho]; rfl) (fun i e => by rw [h1] at e; cases e; exact ho)
    | true =>
      have e : (s.step .caller).call = .cRemove := by rw [est]; unfold Sm.goCaller; rw [hc, h1]; dsimp only; rw [if_pos ho]
      refine near _ e (nomatch ·) (nomatch ·) (by rw [hc]; rfl) ?_
      rw [flat _ (by rw [e]; rfl), e]
      unfold Sm.far
      rw [hc]
      show 5 < 10 + _
      omega
  | dJoin =>
    obtain ⟨j, p, h1, h2, -⟩ := g.joined (by rw [hc]; rfl)
    cases ho : s.over j with
    | false => exact stuck (by rw [hc]; rfl) (by unfold Sm.goCaller; rw [hc, h1]; dsimp only; rw [ho]; rfl) (fun i e => by rw [h1] at e; cases e; exact ho)
    | true =>
      have e : (s.step .caller).call = .dRemove := by rw [est]; unfold Sm.goCaller; rw [hc, h1]; dsimp only; rw [if_pos ho]
      refine near _ e (nomatch ·) (nomatch ·) (by rw [hc]; rfl) ?_
      rw [flat _ (by rw [e]; rfl), e]
      unfold Sm.far
      rw [hc]
      show 5 < 10 + _
      omega

theorem smGoing_step {b : Bool} (s : Sm) (op : SmOp) (g : SmGoing b s) :
    SmGoal b (s.step op) ∨ (SmGoing b (s.step op) ∧ ((s.step op).far < s.far ∨ ((s.step op).far = s.far ∧ (s.step op).turn = s.turn ∧ ¬ s.turn.is op))) := by
  by_cases hu : s.ub = true
  · left; right; unfold Sm.step; rw [if_pos hu]; exact hu
  have nturn : (∀ k j, op ≠ .work j k) → (∀ j, op ≠ .handled j) → op ≠ .caller → ¬ s.turn.is op := fun h1 h2 h3 => by
    cases s.turn with
    | caller => exact h3
    | work j => rintro ⟨k, e⟩; exact h1 k j e
    | handled j => exact h2 j
  by_cases ha : op.aside = true
  · cases hub' : (s.step op).ub with
    | true => exact .inl (.inr hub')
    | false =>
      have a := smAside_step s op ha
      have g' : SmGoing b (s.step op) := ⟨smInv_step g.inv op, smMore_aside g.more op ha hub', by rw [a.call]; exact g.call, by rw [a.call]; exact g.kind⟩
      right
      refine ⟨g', ?_⟩
      cases hj : s.call.joining with
      | false =>
        refine .inr ⟨?_, ?_, ?_⟩
        · unfold Sm.far; rw [a.call, hj]; rfl
        · unfold Sm.turn; rw [a.call, hj]; rfl
        · unfold Sm.turn; rw [hj]; intro e; have e : op = .caller := e; rw [e] at ha; cases ha
      | true =>
        obtain ⟨j, p, h1, h2, h3⟩ := g.joined hj
        have far : ∀ (t : Sm) (q : SmAt), t.call = s.call → t.th = s.th → t.works[j]? = some ⟨q, true⟩ → t.far = s.call.far + q.far := by
          intro t q e1 e2 e3
          unfold Sm.far
          rw [e1, e2, hj, h1, Option.bind_some, e3]
          rfl
        have turn : ∀ (t : Sm) (q : SmAt), t.call = s.call → t.th = s.th → t.works[j]? = some ⟨q, true⟩ → t.turn = match some q with | some .ended => .caller | some .busy => .handled j | _ => .work j := by
          intro t q e1 e2 e3
          unfold Sm.turn
          rw [e1, e2, hj, h1, if_pos rfl]
          dsimp only
          rw [e3]
          rfl
        rcases sm_nearer s op ha j p h2 with x | ⟨q, x, y⟩
        · rw [hub'] at x; cases x
        · rw [far _ q a.call a.th x, far s p rfl rfl h2]
          rcases y with y | y
          · subst y
            refine .inr ⟨rfl, by rw [turn _ q a.call a.th x, turn s q rfl rfl h2], ?_⟩
            rw [turn s q rfl rfl h2]
            -- the thread did not move, so it was not its turn
            have moved : ∀ r : SmAt, r ≠ q → (s.step op).works = s.works.set j ⟨r, true⟩ → False := fun r hr e => by
              rw [e, List.getElem?_set_self (List.getElem?_eq_some_iff.mp h2).1] at x
              cases x
              exact hr rfl
            have ew : ∀ o, op = .work j o → q ≠ .ended → q ≠ .busy → False := by
              intro o e hq1 hq2
              subst e
              have est : s.step (.work j o) = s.goWork j o := by
                unfold Sm.step
                rw [if_neg hu]
                dsimp only
                rw [if_neg]
                rintro ⟨hg, -⟩
                exact g.call.2 (g.inv.gone.mp hg)
              rw [est] at moved hub'
              unfold Sm.goWork at moved hub'
              rw [h2] at moved hub'
              cases q with
              | test => exact moved .leave (nomatch ·) (by simp)
              | recv g' =>
                dsimp only at moved hub'
                by_cases hgen : g' ≠ s.gen
                · rw [if_pos hgen] at hub'; cases hub'
                · rw [if_neg hgen] at moved
                  cases o with
                  | timeout => exact moved .test (nomatch ·) rfl
                  | throws => exact moved .leave (nomatch ·) rfl
                  | got m =>
                    cases m with
                    | answer i => exact moved .test (nomatch ·) rfl
                    | request => exact moved .test (nomatch ·) rfl
                    | note => exact moved .busy (nomatch ·) rfl
                    | bye => exact moved .busy (nomatch ·) rfl
              | busy => exact hq2 rfl
              | leave => exact moved .ended (nomatch ·) rfl
              | ended => exact hq1 rfl
            cases q with
            | ended => intro e; have e : op = .caller := e; rw [e] at ha; cases ha
            | busy =>
              intro e
              have e : op = .handled j := e
              subst e
              refine moved .test (nomatch ·) ?_
              unfold Sm.step
              rw [if_neg hu]
              dsimp only
              rw [h2]
              dsimp only
              rw [if_neg h3]
            | test => rintro ⟨o, e⟩; exact ew o e (nomatch ·) (nomatch ·)
            | recv g' => rintro ⟨o, e⟩; exact ew o e (nomatch ·) (nomatch ·)
            | leave => rintro ⟨o, e⟩; exact ew o e (nomatch ·) (nomatch ·)
          · exact .inl (by omega)
  · have stay : s.step op = s → ¬ s.turn.is op → SmGoal b (s.step op) ∨ (SmGoing b (s.step op) ∧ ((s.step op).far < s.far ∨ ((s.step op).far = s.far ∧ (s.step op).turn = s.turn ∧ ¬ s.turn.is op))) := fun e hn => by
      rw [e]; exact .inr ⟨g, .inr ⟨rfl, rfl, hn⟩⟩
    cases op with
    | start r => exact stay (by unfold Sm.step; rw [if_neg hu]; dsimp only; rw [if_neg g.call.1]) (nturn (fun _ _ => (nomatch ·)) (fun _ => (nomatch ·)) (nomatch ·))
    | close self =>
      refine stay ?_ (nturn (fun _ _ => (nomatch ·)) (fun _ => (nomatch ·)) (nomatch ·))
      unfold Sm.step
      rw [if_neg hu]
      cases self with
      | none => dsimp only; rw [if_neg g.call.1]
      | some j => dsimp only; rw [if_neg fun e => g.call.1 e.1]
    | destroy => exact stay (by unfold Sm.step; rw [if_neg hu]; dsimp only; rw [if_neg g.call.1]) (nturn (fun _ _ => (nomatch ·)) (fun _ => (nomatch ·)) (nomatch ·))
    | caller => exact smGoing_caller g hu
    | _ => exact absurd rfl ha

/-- The caller and every thread get a turn again and again, and handlers of notifications return. -/
structure SmFair (f : Nat → SmOp) : Prop where
  caller : ∀ T, ∃ t, T ≤ t ∧ f t = .caller
  work : ∀ j T, ∃ t o, T ≤ t ∧ f t = .work j o
  handled : ∀ j T, ∃ t, T ≤ t ∧ f t = .handled j

/-- C120. `Start`, `Close` (also on the thread of the transport) and the destructor return, whatever comes in, when the caller and the threads get a turn again and again and handlers of
notifications return, and no mapping or transport that is gone is used (see C120_safe_partial). -/
theorem C120_returns_partial (c : Bool) (ops : List SmOp) (hc : ((Sm.init c).run ops).call ≠ .idle) (f : Nat → SmOp) (hf : SmFair f)
    (hub : ∀ t, (statesOf Sm.step ((Sm.init c).run ops) f t).ub = false) :
    ∃ t, (statesOf Sm.step ((Sm.init c).run ops) f t).call = if ((Sm.init c).run ops).call.dying then .destroyed else .idle := by
  by_cases hd : ((Sm.init c).run ops).call = .destroyed
  · exact ⟨0, by show ((Sm.init c).run ops).call = _; rw [hd]; rfl⟩
  have g : SmGoing ((Sm.init c).run ops).call.dying ((Sm.init c).run ops) := ⟨smInv_run c ops, smMore_run c ops (hub 0), ⟨hc, hd⟩, rfl⟩
  obtain ⟨t, ht⟩ := leads Sm.step ((Sm.init c).run ops) f (SmGoing ((Sm.init c).run ops).call.dying) (SmGoal ((Sm.init c).run ops).call.dying) Sm.far Sm.turn SmTurn.is
    (fun s op h => smGoing_step s op h) (fun s _ T => by
      cases s.turn with
      | caller => exact hf.caller T
      | work j => obtain ⟨t, k, h1, h2⟩ := hf.work j T; exact ⟨t, h1, k, h2⟩
      | handled j => exact hf.handled j T) g
  rcases ht with e | e
  · exact ⟨t, e⟩
  · rw [hub t] at e; cases e

/-- A fair execution. -/
def smTurns (t : Nat) : SmOp := match (spiralAt t).1 % 3, (spiralAt t).1 / 3 with
  | 0, _ => .caller
  | 1, j => .work j (.got .note)
  | _, j => .handled j

theorem smTurns_fair : SmFair smTurns := by
  refine ⟨fun T => ?_, fun j T => ?_, fun j T => ?_⟩
  · obtain ⟨u, h1, h2⟩ := spiral_again T 0
    exact ⟨u, h1, by unfold smTurns; rw [h2]; rfl⟩
  · obtain ⟨u, h1, h2⟩ := spiral_again T (3 * j + 1)
    refine ⟨u, .got .note, h1, ?_⟩
    have e1 : (3 * j + 1) % 3 = 1 := by omega
    have e2 : (3 * j + 1) / 3 = j := by omega
    unfold smTurns; rw [h2, e1, e2]; rfl
  · obtain ⟨u, h1, h2⟩ := spiral_again T (3 * j + 2)
    refine ⟨u, h1, ?_⟩
    have e1 : (3 * j + 2) % 3 = 2 := by omega
    have e2 : (3 * j + 2) / 3 = j := by omega
    unfold smTurns; rw [h2, e1, e2]; rfl

/-- `Close` while the thread of the transport waits on its queue; in the endless execution nothing is used that is gone. -/
example : let ops : List SmOp := [.start (.both 0 1), .work 0 .timeout, .close none]
    ((Sm.init true).run ops).call = .cBye ∧ ∀ t, (statesOf Sm.step ((Sm.init true).run ops) smTurns t).ub = false := by
  refine ⟨by decide +kernel, fun t => ?_⟩
  rw [statesOf_run]
  have e : ((List.range t).map smTurns).foldl Sm.step ((Sm.init true).run [.start (.both 0 1), .work 0 .timeout, .close none]) =
      (Sm.init true).run ([.start (.both 0 1), .work 0 .timeout, .close none] ++ (List.range t).map smTurns) := by rw [sm_run_append]; rfl
  rw [e]
  have kinds : ∀ t, smTurns t = .caller ∨ (∃ j, smTurns t = .work j (.got .note)) ∨ ∃ j, smTurns t = .handled j := by
    intro t
    unfold smTurns
    split
    · exact .inl rfl
    · exact .inr (.inl ⟨_, rfl⟩)
    · exact .inr (.inr ⟨_, rfl⟩)
  refine C120_safe_partial true _ (fun a r b h => ?_) (fun a b h hd => ?_)
  · cases a with
    | nil => exact .inl rfl
    | cons x a =>
      exfalso
      have : SmOp.start r ∈ [.work 0 .timeout, .close none] ++ (List.range t).map smTurns := by
        have h' := (List.cons.inj (show _ :: ([SmOp.work 0 .timeout, .close none] ++ (List.range t).map smTurns) = x :: (a ++ .start r :: b) from h)).2
        rw [h']
        simp
      rcases List.mem_append.mp this with h1 | h1
      · simp at h1
      · obtain ⟨u, -, hu⟩ := List.mem_map.mp h1
        rcases kinds u with k | ⟨j, k⟩ | ⟨j, k⟩ <;> rw [k] at hu <;> cases hu
  · -- no request ever came in
    have hno : ((Sm.init true).run a).handlers = [] := by
      refine sm_run_inv (P := fun s => s.handlers = []) rfl fun s op ho hs => ?_
      have hop : op ∈ [SmOp.start (.both 0 1), .work 0 .timeout, .close none] ++ (List.range t).map smTurns := by rw [h]; exact List.mem_append_left _ ho
      have hreq : ∀ j, op ≠ .work j (.got .request) := by
        rintro j rfl
        rcases List.mem_append.mp hop with h1 | h1
        · simp at h1
        · obtain ⟨u, -, hu⟩ := List.mem_map.mp h1
          rcases kinds u with k | ⟨j, k⟩ | ⟨j, k⟩ <;> rw [k] at hu <;> cases hu
      unfold Sm.step
      split
      · exact hs
      · cases op with
        | start r =>
          dsimp only
          split
          · cases r with
            | both q p => unfold Sm.start; dsimp only; cases s.th <;> exact hs
            | _ => exact hs
          · exact hs
        | close self => cases self <;> dsimp only <;> split <;> exact hs
        | destroy => dsimp only; split <;> exact hs
        | caller => dsimp only; unfold Sm.goCaller; cases s.call <;> dsimp only <;> (try split) <;> (try split) <;> exact hs
        | work j o =>
          dsimp only
          split
          · exact hs
          · unfold Sm.goWork
            cases s.works[j]? with
            | none => exact hs
            | some w =>
              obtain ⟨p, st⟩ := w
              cases p with
              | recv g =>
                dsimp only
                split
                · exact hs
                · cases o with
                  | got m =>
                    cases m with
                    | request => exact absurd rfl (hreq j)
                    | _ => exact hs
                  | _ => exact hs
              | _ => exact hs
        | handled j => dsimp only; split <;> (try split) <;> exact hs
        | answered i => dsimp only; rw [if_neg (by rw [hs]; simp)]; exact hs
        | send r => dsimp only; split <;> exact hs
    rw [hno]
    exact fun _ h => (nomatch h)

end Verif.Shm
