import Verif.InMemory.LifeProps

/-!
C119: the destructor of an in-memory transport returns, and `Start` does when the thread of the life before has ended.
-/

namespace Verif.InMemory

/-! ### `Start` -/

/-- C119. `Start` returns, after two steps, when no thread of an earlier `Start` is left running; nobody has to send anything. Missing: `Start` while the thread of the life before runs
or sleeps. -/
theorem C119_start_returns_partial (ops more : List MlOp) (hc : (Ml.init.run ops).call = .idle) (hub : ((Ml.init.run ops).run (.start :: more)).ub = false)
    (hw : ∀ w ∈ (Ml.init.run ops).works, w.pos = .ended) (hm : ∀ op ∈ more, op ≠ .start ∧ op ≠ .close ∧ op ≠ .destroy) (h2 : more.count .caller = 2) :
    ((Ml.init.run ops).run (.start :: more)).call = .idle ∧ ((Ml.init.run ops).run (.start :: more)).connected = true ∧
      ((Ml.init.run ops).run (.start :: more)).th = some (Ml.init.run ops).works.length := by
  have hinv := mlInv_run ops
  generalize Ml.init.run ops = s at *
  have frozen : ∀ (l : List MlOp) (t : Ml), t.ub = true → (t.run l).ub = true := fun l t ht =>
    ml_run_inv (P := fun t => t.ub = true) ht fun t op _ ht => by unfold Ml.step; rw [if_pos ht]; exact ht
  have hub0 : s.ub = false := by
    cases e : s.ub with
    | false => rfl
    | true => rw [frozen _ s e] at hub; cases hub
  -- the call is over
  have done : ∀ (l : List MlOp) (t : Ml), t.call = .idle → t.connected = true → t.th = some s.works.length → (∀ op ∈ l, op ≠ .start ∧ op ≠ .close ∧ op ≠ .destroy) →
      (t.run l).call = .idle ∧ (t.run l).connected = true ∧ (t.run l).th = some s.works.length := by
    intro l t h1 h2 h3 hl
    refine ml_run_inv (P := fun t => t.call = .idle ∧ t.connected = true ∧ t.th = some s.works.length) ⟨h1, h2, h3⟩ fun t op ho ⟨h1, h2, h3⟩ => ?_
    by_cases ha : op.aside = true
    · have a := mlAside_step t op ha
      exact ⟨by rw [a.call]; exact h1, by rw [a.connected]; exact h2, by rw [a.th]; exact h3⟩
    · cases op with
      | start => exact absurd rfl (hl _ ho).1
      | close => exact absurd rfl (hl _ ho).2.1
      | destroy => exact absurd rfl (hl _ ho).2.2
      | caller =>
        unfold Ml.step
        split
        · exact ⟨h1, h2, h3⟩
        · dsimp only
          unfold Ml.goCaller
          rw [h1]
          exact ⟨h1, h2, h3⟩
      | _ => exact absurd rfl ha
  have e1 : s.step .start = s.start := by unfold Ml.step; rw [if_neg (by simp [hub0])]; dsimp only; rw [if_pos hc]
  show ((s.step .start).run more).call = .idle ∧ ((s.step .start).run more).connected = true ∧ ((s.step .start).run more).th = some s.works.length
  have hub' : ((s.step .start).run more).ub = false := hub
  rw [e1] at hub' ⊢
  cases hth : s.th with
  | none =>
    have e : s.start = { s with connected := true, works := s.works ++ [⟨.test, false⟩], th := some s.works.length, log := s.log ++ [.started] } := by unfold Ml.start; rw [hth]
    refine done more s.start (by rw [e]; exact hc) (by rw [e]) (by rw [e]) hm
  | some j =>
    have hj := hinv.last (by rw [hc]; rfl) j hth
    -- the rest of the assignment
    have wait : ∀ (n : Nat) (l : List MlOp) (t : Ml), (n = 2 ∧ t.call = .swap ∨ n = 1 ∧ t.call = .swapJoin) → t.connected = true → t.th = some j → t.works.length = s.works.length + 1 →
        t.posAt j = some MlAt.ended → (t.run l).ub = false → (∀ op ∈ l, op ≠ .start ∧ op ≠ .close ∧ op ≠ .destroy) → l.count .caller = n →
        (t.run l).call = .idle ∧ (t.run l).connected = true ∧ (t.run l).th = some s.works.length := by
      intro n l
      induction l generalizing n with
      | nil => intro t hn _ _ _ _ _ _ hcnt; simp at hcnt; omega
      | cons op l ih =>
        intro t hn h1 h2 h3 h4 h5 hl hcnt
        have hl' : ∀ o ∈ l, o ≠ .start ∧ o ≠ .close ∧ o ≠ .destroy := fun o ho => hl o (by simp [ho])
        have hut : t.ub = false := by
          cases e : t.ub with
          | false => rfl
          | true => rw [frozen _ t e] at h5; cases h5
        show ((t.step op).run l).call = .idle ∧ ((t.step op).run l).connected = true ∧ ((t.step op).run l).th = some s.works.length
        by_cases ha : op.aside = true
        · have a := mlAside_step t op ha
          refine ih n (t.step op) (by rw [a.call]; exact hn) (by rw [a.connected]; exact h1) (by rw [a.th]; exact h2) (by rw [a.len]; exact h3) (a.ended j h4) h5 hl' ?_
          rw [List.count_cons_of_ne (by rintro rfl; cases ha)] at hcnt
          exact hcnt
        · cases op with
          | start => exact absurd rfl (hl .start (by simp)).1
          | close => exact absurd rfl (hl .close (by simp)).2.1
          | destroy => exact absurd rfl (hl .destroy (by simp)).2.2
          | caller =>
            rw [List.count_cons_self] at hcnt
            have est : t.step .caller = t.goCaller := by unfold Ml.step; rw [if_neg (by simp [hut])]
            rcases hn with ⟨rfl, hn⟩ | ⟨rfl, hn⟩
            · have e : t.step .caller = { t.askStop j with call := .swapJoin } := by rw [est]; unfold Ml.goCaller; rw [hn, h2]
              refine ih 1 (t.step .caller) (.inr ⟨rfl, by rw [e]⟩) (by rw [e]; exact h1) (by rw [e]; exact h2) (by rw [e]; unfold Ml.askStop; simp [h3]) ?_ h5 hl' (by omega)
              rw [e]
              exact (askStop_pos t j j).trans h4
            · have hend : (t.works[j]?).any (fun w => decide (w.pos = .ended)) = true := by
                unfold Ml.posAt at h4
                cases hw : t.works[j]? with
                | none => rw [hw] at h4; cases h4
                | some w => rw [hw] at h4; have : w.pos = .ended := Option.some.inj h4; simp [this]
              have e : t.step .caller = { t with th := some (t.works.length - 1), call := .idle, log := t.log ++ [.started] } := by
                rw [est]; unfold Ml.goCaller; rw [hn, h2]; dsimp only; rw [if_pos hend]
              refine done l (t.step .caller) (by rw [e]) (by rw [e]; exact h1) (by rw [e]; simp [h3]) hl'
          | _ => exact absurd rfl ha
    have e : s.start = { s with connected := true, works := s.works ++ [⟨.test, false⟩], call := .swap } := by unfold Ml.start; rw [hth]
    refine wait 2 more s.start (.inl ⟨rfl, by rw [e]⟩) (by rw [e]) (by rw [e]; exact hth) (by rw [e]; simp) ?_ hub' hm h2
    rw [e]
    unfold Ml.posAt
    show ((s.works ++ _)[j]?).map _ = _
    rw [List.getElem?_append_left (by omega), List.getElem?_eq_getElem (by omega)]
    exact congrArg some (hw _ (List.getElem_mem _))

example : let ops : List MlOp := [.start, .work 0 .request, .work 0 .request, .work 0 .request, .close, .caller, .caller, .work 0 .request, .work 0 .request, .work 0 .request]
    let more : List MlOp := [.work 1 .request, .caller, .deliver 1 0, .caller, .work 1 .request]
    (Ml.init.run ops).call = .idle ∧ ((Ml.init.run ops).run (.start :: more)).ub = false ∧ (Ml.init.run ops).works = [⟨.ended, false⟩] ∧ more.count .caller = 2 := by decide +kernel

/-! ### The destructor -/

/-- How far a thread is from its end, once the transport is not connected. -/
def MlAt.far : MlAt → Nat
  | .ended => 0
  | .test => 1
  | .drain => 2
  | .look => 3
  | .busy => 3
  | .took _ => 4
  | .decided | .asleep => 5

def Ml.far (s : Ml) : Nat := ((s.th.bind fun j => s.works[j]?).map fun w => w.pos.far).getD 0

def MlCall.far : MlCall → Nat
  | .dNotify => 20
  | .dStop => 10
  | _ => 0

/-- Whose turn helps. -/
inductive MlTurn where
  | caller
  | work (j : Nat)
  | handled (j : Nat)

def MlTurn.is : MlTurn → MlOp → Prop
  | .caller, op => op = .caller
  | .work j, op => ∃ k, op = .work j k
  | .handled j, op => op = .handled j

def Ml.turn (s : Ml) : MlTurn :=
  if s.call = .dJoin then
    match s.th with
    | some j =>
      match (s.works[j]?).map MlWork.pos with
      | some .ended => .caller
      | some .busy => .handled j
      | _ => .work j
    | none => .caller
  else .caller

structure MlGoing (s : Ml) : Prop where
  inv : MlInv s
  call : s.call = .dNotify ∨ s.call = .dStop ∨ s.call = .dJoin
  calm : ∀ w ∈ s.works, w.pos ≠ .decided
  awake : s.call = .dNotify ∨ ∀ w ∈ s.works, w.pos ≠ .asleep

theorem MlGoing.off {s : Ml} (g : MlGoing s) : s.connected = false := g.inv.off (by rcases g.call with e | e | e <;> rw [e] <;> rfl)

theorem MlGoing.alive {s : Ml} (g : MlGoing s) : s.gone = false := by
  cases e : s.gone with
  | false => rfl
  | true => have := g.inv.gone.mp e; rcases g.call with c | c | c <;> rw [c] at this <;> cases this

theorem MlGoing.open {s : Ml} (g : MlGoing s) : s.locked = false := by
  unfold Ml.locked
  rw [List.any_eq_false]
  intro w hw
  simp [g.calm w hw]

theorem MlGoing.mine {s : Ml} (g : MlGoing s) {i : Nat} {w : MlWork} (hi : s.works[i]? = some w) (hp : w.pos ≠ .ended) : s.th = some i := by
  rcases g.inv.others i (List.getElem?_eq_some_iff.mp hi).1 with e | e | ⟨e, -⟩
  · unfold Ml.posAt at e; rw [hi] at e; exact absurd (Option.some.inj e) hp
  · exact e
  · rcases g.call with c | c | c <;> rw [c] at e <;> cases e

/-- A step that moves the thread of the transport nearer to its end. -/
theorem MlGoing.move {s t : Ml} (g : MlGoing s) (ht : MlInv t) {j : Nat} {p q : MlAt} {st : Bool} (hj : s.works[j]? = some ⟨p, st⟩) (hp : p ≠ .ended) (hc : t.call = s.call) (hth : t.th = s.th)
    (hw : t.works = s.works.set j ⟨q, st⟩) (hq : q.far < p.far) : MlGoing t ∧ t.call.far + t.far < s.call.far + s.far := by
  have hmine := g.mine hj hp
  have hlt := (List.getElem?_eq_some_iff.mp hj).1
  have hd : q ≠ .decided := by intro e; rw [e] at hq; cases p <;> simp [MlAt.far] at hq
  have ha : q ≠ .asleep := by intro e; rw [e] at hq; cases p <;> simp [MlAt.far] at hq
  refine ⟨⟨ht, by rw [hc]; exact g.call, fun w hx => ?_, ?_⟩, ?_⟩
  · rw [hw] at hx
    rcases List.mem_or_eq_of_mem_set hx with hx | rfl
    · exact g.calm w hx
    · exact hd
  · rw [hc]
    refine g.awake.imp_right fun h w hx => ?_
    rw [hw] at hx
    rcases List.mem_or_eq_of_mem_set hx with hx | rfl
    · exact h w hx
    · exact ha
  · unfold Ml.far
    rw [hc, hth, hmine, hw, Option.bind_some, Option.bind_some, List.getElem?_set_self hlt, hj]
    show s.call.far + q.far < s.call.far + p.far
    omega

theorem mlGoing_step (s : Ml) (op : MlOp) (g : MlGoing s) :
    ((s.step op).call = .destroyed ∨ (s.step op).ub = true) ∨
      (MlGoing (s.step op) ∧ ((s.step op).call.far + (s.step op).far < s.call.far + s.far ∨
        ((s.step op).call.far + (s.step op).far = s.call.far + s.far ∧ (s.step op).turn = s.turn ∧ ¬ s.turn.is op))) := by
  by_cases hu : s.ub = true
  · left; right; unfold Ml.step; rw [if_pos hu]; exact hu
  have hinv' := mlInv_step g.inv op
  have hni : s.call ≠ .idle := by rcases g.call with e | e | e <;> rw [e] <;> exact (nomatch ·)
  have stay : s.step op = s → ¬ s.turn.is op → ((s.step op).call = .destroyed ∨ (s.step op).ub = true) ∨
      (MlGoing (s.step op) ∧ ((s.step op).call.far + (s.step op).far < s.call.far + s.far ∨
        ((s.step op).call.far + (s.step op).far = s.call.far + s.far ∧ (s.step op).turn = s.turn ∧ ¬ s.turn.is op))) := fun e hn => by
    rw [e]; exact .inr ⟨g, .inr ⟨rfl, rfl, hn⟩⟩
  -- a step that touches neither the call nor the threads
  have apart : (s.step op).call = s.call → (s.step op).works = s.works → (s.step op).th = s.th → ¬ s.turn.is op → ((s.step op).call = .destroyed ∨ (s.step op).ub = true) ∨
      (MlGoing (s.step op) ∧ ((s.step op).call.far + (s.step op).far < s.call.far + s.far ∨
        ((s.step op).call.far + (s.step op).far = s.call.far + s.far ∧ (s.step op).turn = s.turn ∧ ¬ s.turn.is op))) := fun e1 e2 e3 hn => by
    refine .inr ⟨⟨hinv', by rw [e1]; exact g.call, by rw [e2]; exact g.calm, by rw [e1, e2]; exact g.awake⟩, .inr ⟨by unfold Ml.far; rw [e1, e2, e3], by unfold Ml.turn; rw [e1, e2, e3], hn⟩⟩
  have nturn : (∀ k j, op ≠ .work j k) → (∀ j, op ≠ .handled j) → op ≠ .caller → ¬ s.turn.is op := fun h1 h2 h3 => by
    cases s.turn with
    | caller => exact h3
    | work j => rintro ⟨k, e⟩; exact h1 k j e
    | handled j => exact h2 j
  -- a turn of the thread that does nothing
  have notWork : ∀ i k, op = .work i k → (∀ w, s.works[i]? = some w → w.pos = .ended ∨ s.call = .dNotify) → ¬ s.turn.is op := by
    intro i k e hw
    subst e
    unfold Ml.turn
    split
    · rename_i hc
      cases hth : s.th with
      | none => exact (nomatch ·)
      | some j =>
        dsimp only
        have hj := g.inv.last (by rw [hc]; rfl) j hth
        cases hwj : s.works[j]? with
        | none => have := List.getElem?_eq_none_iff.mp hwj; omega
        | some w =>
          rw [Option.map_some]
          split
          · exact (nomatch ·)
          · exact (nomatch ·)
          · rename_i h1 h2
            rintro ⟨k', e⟩
            cases e
            rcases hw w hwj with e | e
            · rw [e] at h1; exact h1 rfl
            · rw [hc] at e; cases e
    · exact (nomatch ·)
  cases op with
  | start => exact stay (by unfold Ml.step; rw [if_neg hu]; dsimp only; rw [if_neg hni]) (nturn (fun _ _ => (nomatch ·)) (fun _ => (nomatch ·)) (nomatch ·))
  | close => exact stay (by unfold Ml.step; rw [if_neg hu]; dsimp only; rw [if_neg hni]) (nturn (fun _ _ => (nomatch ·)) (fun _ => (nomatch ·)) (nomatch ·))
  | destroy => exact stay (by unfold Ml.step; rw [if_neg hu]; dsimp only; rw [if_neg hni]) (nturn (fun _ _ => (nomatch ·)) (fun _ => (nomatch ·)) (nomatch ·))
  | caller =>
    have e : s.step .caller = s.goCaller := by unfold Ml.step; rw [if_neg hu]
    rcases g.call with hc | hc | hc
    · have e2 : s.goCaller = { s.wakeAll with call := .dStop } := by unfold Ml.goCaller; rw [hc]
      rw [e, e2] at hinv' ⊢
      right
      have hwk : ∀ w : MlWork, w.pos ≠ .decided → w.woken.pos ≠ .decided ∧ w.woken.pos ≠ .asleep ∧ w.woken.pos.far ≤ w.pos.far := by
        intro w hw
        unfold MlWork.woken
        split
        · rename_i ha; exact ⟨(nomatch ·), (nomatch ·), by rw [ha]; show 3 ≤ 5; decide⟩
        · rename_i ha; exact ⟨hw, ha, Nat.le_refl _⟩
      refine ⟨⟨hinv', .inr (.inl rfl), fun w hw => ?_, .inr fun w hw => ?_⟩, .inl ?_⟩
      · obtain ⟨v, hv, rfl⟩ := List.mem_map.mp (show w ∈ s.works.map MlWork.woken from hw)
        exact (hwk v (g.calm v hv)).1
      · obtain ⟨v, hv, rfl⟩ := List.mem_map.mp (show w ∈ s.works.map MlWork.woken from hw)
        exact (hwk v (g.calm v hv)).2.1
      · have : ({ s.wakeAll with call := .dStop } : Ml).far ≤ s.far := by
          unfold Ml.far
          show ((s.th.bind fun j => (s.works.map MlWork.woken)[j]?).map fun w => w.pos.far).getD 0 ≤ _
          cases s.th with
          | none => exact Nat.le_refl _
          | some j =>
            rw [Option.bind_some, Option.bind_some, List.getElem?_map]
            cases hw : s.works[j]? with
            | none => exact Nat.le_refl _
            | some w => exact (hwk w (g.calm w (List.mem_of_getElem? hw))).2.2
        show 10 + _ < _
        rw [hc]
        show 10 + _ < 20 + _
        omega
    · have e2 : s.goCaller = match s.th with | some j => { s.askStop j with call := .dJoin } | none => { s with gone := true, call := .destroyed } := by unfold Ml.goCaller; rw [hc]; rfl
      rw [e, e2] at hinv' ⊢
      cases hth : s.th with
      | none => exact .inl (.inl rfl)
      | some j =>
        rw [hth] at hinv'
        dsimp only at hinv' ⊢
        right
        have hpos : ∀ w ∈ (s.askStop j).works, ∃ v ∈ s.works, w.pos = v.pos := by
          intro w hw
          obtain ⟨i, hi, rfl⟩ := List.mem_iff_getElem.mp hw
          have := askStop_pos s j i
          unfold Ml.posAt at this
          rw [List.getElem?_eq_getElem hi] at this
          cases hv : s.works[i]? with
          | none => rw [hv] at this; cases this
          | some v => rw [hv] at this; exact ⟨v, List.mem_of_getElem? hv, Option.some.inj this⟩
        have haw : ∀ w ∈ s.works, w.pos ≠ .asleep := g.awake.resolve_left (by rw [hc]; exact (nomatch ·))
        refine ⟨⟨hinv', .inr (.inr rfl), fun w hw => ?_, .inr fun w hw => ?_⟩, .inl ?_⟩
        · obtain ⟨v, hv, e⟩ := hpos w hw; rw [e]; exact g.calm v hv
        · obtain ⟨v, hv, e⟩ := hpos w hw; rw [e]; exact haw v hv
        · have : ({ s.askStop j with call := .dJoin } : Ml).far = s.far := by
            unfold Ml.far
            show ((s.th.bind fun i => (s.askStop j).works[i]?).map fun w => w.pos.far).getD 0 = _
            rw [hth, Option.bind_some, Option.bind_some]
            have := askStop_pos s j j
            unfold Ml.posAt at this
            cases h1 : (s.askStop j).works[j]? with
            | none => rw [h1] at this; cases h2 : s.works[j]? with
              | none => rfl
              | some v => rw [h2] at this; cases this
            | some w => rw [h1] at this; cases h2 : s.works[j]? with
              | none => rw [h2] at this; cases this
              | some v => rw [h2] at this; exact congrArg MlAt.far (Option.some.inj this)
          show 0 + _ < _
          rw [this, hc]
          show 0 + _ < 10 + _
          omega
    · have e2 : s.goCaller = match s.th with | some j => if (s.works[j]?).any (fun w => decide (w.pos = .ended)) then { s with th := none, gone := true, call := .destroyed } else s | none => s := by
        unfold Ml.goCaller; rw [hc]; rfl
      cases hth : s.th with
      | none => exact absurd hth (g.inv.join hc)
      | some j =>
        rw [hth] at e2
        dsimp only at e2
        by_cases hend : (s.works[j]?).any (fun w => decide (w.pos = .ended)) = true
        · rw [if_pos hend] at e2; rw [e, e2]; exact .inl (.inl rfl)
        · rw [if_neg hend] at e2
          refine stay (e.trans e2) ?_
          unfold Ml.turn
          rw [if_pos hc, hth]
          dsimp only
          split
          · rename_i h1
            have : s.posAt j = some MlAt.ended := h1
            unfold Ml.posAt at this
            cases hw : s.works[j]? with
            | none => rw [hw] at this; cases this
            | some w => rw [hw] at this hend; simp only [Option.any_some, decide_eq_true_eq] at hend; exact absurd (Option.some.inj this) hend
          · exact (nomatch ·)
          · rintro ⟨k, e⟩; cases e
  | work i k =>
    have e : s.step (.work i k) = s.goWork i k := by unfold Ml.step; rw [if_neg hu]; dsimp only; rw [if_neg (by rw [g.alive]; simp)]
    cases hi : s.works[i]? with
    | none => exact stay (by rw [e]; unfold Ml.goWork; rw [hi]) (notWork i k rfl fun w hw => by rw [hi] at hw; cases hw)
    | some w =>
      obtain ⟨p, st⟩ := w
      have go : ∀ q, p ≠ .ended → (s.step (.work i k)).call = s.call → (s.step (.work i k)).th = s.th → (s.step (.work i k)).works = s.works.set i ⟨q, st⟩ → q.far < p.far → ((s.step (.work i k)).call = .destroyed ∨ (s.step (.work i k)).ub = true) ∨
          (MlGoing (s.step (.work i k)) ∧ ((s.step (.work i k)).call.far + (s.step (.work i k)).far < s.call.far + s.far ∨
            ((s.step (.work i k)).call.far + (s.step (.work i k)).far = s.call.far + s.far ∧ (s.step (.work i k)).turn = s.turn ∧ ¬ s.turn.is (.work i k)))) := fun q hp h1 h2 h3 h4 => by
        have m := g.move hinv' hi hp h1 h2 h3 h4
        exact .inr ⟨m.1, .inl m.2⟩
      cases p with
      | test =>
        have e2 : s.step (.work i k) = { s with works := s.works.set i ⟨.ended, st⟩ } := by rw [e]; unfold Ml.goWork; rw [hi]; dsimp only; rw [g.off]; simp
        exact go .ended (nomatch ·) (by rw [e2]) (by rw [e2]) (by rw [e2]) (by decide)
      | look =>
        have e2 : s.step (.work i k) = { s with works := s.works.set i ⟨if st then .ended else .drain, st⟩ } := by rw [e]; unfold Ml.goWork; rw [hi]; dsimp only; rw [g.open, g.off]; simp
        exact go (if st then .ended else .drain) (nomatch ·) (by rw [e2]) (by rw [e2]) (by rw [e2]) (by cases st <;> decide)
      | decided => exact absurd rfl (g.calm _ (List.mem_of_getElem? hi))
      | asleep =>
        have hc := g.awake.resolve_right fun h => h _ (List.mem_of_getElem? hi) rfl
        exact stay (by rw [e]; unfold Ml.goWork; rw [hi]) (notWork i k rfl fun _ _ => .inr hc)
      | drain =>
        have e2 : s.step (.work i k) = { s with works := s.works.set i ⟨.test, st⟩ } := by
          rw [e]; unfold Ml.goWork; rw [hi]; dsimp only; rw [g.open, g.off]; cases s.queue <;> simp
        exact go .test (nomatch ·) (by rw [e2]) (by rw [e2]) (by rw [e2]) (by decide)
      | took m =>
        cases k with
        | answer a => exact go .drain (nomatch ·) (by rw [e]; unfold Ml.goWork; rw [hi]) (by rw [e]; unfold Ml.goWork; rw [hi]) (by rw [e]; unfold Ml.goWork; rw [hi]) (by show 2 < 4; decide)
        | request => exact go .drain (nomatch ·) (by rw [e]; unfold Ml.goWork; rw [hi]) (by rw [e]; unfold Ml.goWork; rw [hi]) (by rw [e]; unfold Ml.goWork; rw [hi]) (by show 2 < 4; decide)
        | notification => exact go .busy (nomatch ·) (by rw [e]; unfold Ml.goWork; rw [hi]) (by rw [e]; unfold Ml.goWork; rw [hi]) (by rw [e]; unfold Ml.goWork; rw [hi]) (by show 3 < 4; decide)
      | busy =>
        refine stay (by rw [e]; unfold Ml.goWork; rw [hi]) ?_
        have hmine := g.mine hi (nomatch ·)
        unfold Ml.turn
        rw [hmine]
        split
        · dsimp only; rw [hi]; exact (nomatch ·)
        · exact (nomatch ·)
      | ended => exact stay (by rw [e]; unfold Ml.goWork; rw [hi]) (notWork i k rfl fun w hw => by rw [hi] at hw; cases hw; exact .inl rfl)
  | handled i =>
    have e : s.step (.handled i) = match s.works[i]? with | some ⟨.busy, st⟩ => { s with works := s.works.set i ⟨.drain, st⟩ } | _ => s := by unfold Ml.step; rw [if_neg hu]; rfl
    by_cases hb : ∃ st, s.works[i]? = some ⟨.busy, st⟩
    · obtain ⟨st, hi⟩ := hb
      rw [hi] at e
      dsimp only at e
      have m := g.move (q := .drain) hinv' hi (nomatch ·) (by rw [e]) (by rw [e]) (by rw [e]) (by decide)
      exact .inr ⟨m.1, .inl m.2⟩
    · refine stay ?_ ?_
      · rw [e]
        split
        · rename_i st hi; exact absurd ⟨st, hi⟩ hb
        · rfl
      · unfold Ml.turn
        split
        · cases hth : s.th with
          | none => exact (nomatch ·)
          | some j =>
            dsimp only
            cases hwj : s.works[j]? with
            | none => rintro ⟨k, e⟩; cases e
            | some w =>
              obtain ⟨p, st⟩ := w
              cases p with
              | busy => intro e; cases e; exact hb ⟨st, hwj⟩
              | ended => exact (nomatch ·)
              | _ => rintro ⟨k, e⟩; cases e
        · exact (nomatch ·)
  | answered h =>
    have hn : ¬ s.turn.is (.answered h) := nturn (fun _ _ => (nomatch ·)) (fun _ => (nomatch ·)) (nomatch ·)
    refine apart ?_ ?_ ?_ hn <;> (unfold Ml.step; rw [if_neg hu]; dsimp only; split <;> (try split) <;> rfl)
  | deliver m i =>
    refine stay ?_ (nturn (fun _ _ => (nomatch ·)) (fun _ => (nomatch ·)) (nomatch ·))
    unfold Ml.step
    rw [if_neg hu]
    dsimp only
    rw [g.alive, g.off]
    simp
  | send r =>
    have hn : ¬ s.turn.is (.send r) := nturn (fun _ _ => (nomatch ·)) (fun _ => (nomatch ·)) (nomatch ·)
    refine apart ?_ ?_ ?_ hn <;> (unfold Ml.step; rw [if_neg hu]; dsimp only; split <;> (try split) <;> rfl)
  | peerDies =>
    have hn : ¬ s.turn.is .peerDies := nturn (fun _ _ => (nomatch ·)) (fun _ => (nomatch ·)) (nomatch ·)
    refine apart ?_ ?_ ?_ hn <;> (unfold Ml.step; rw [if_neg hu])

/-- The caller and every thread get a turn again and again, and notification handlers return. -/
structure MlFair (f : Nat → MlOp) : Prop where
  caller : ∀ T, ∃ t, T ≤ t ∧ f t = .caller
  work : ∀ j T, ∃ t k, T ≤ t ∧ f t = .work j k
  handled : ∀ j T, ∃ t, T ≤ t ∧ f t = .handled j

/-- C119. The destructor returns when the caller and the threads get a turn again and again and notification handlers return, provided that no thread is about to sleep when it wakes them
and no destroyed transport is used. It does so however many requests are being handled. Missing: a thread about to sleep (C58). -/
theorem C119_destroy_returns_partial (ops : List MlOp) (hc : (Ml.init.run ops).call = .dNotify) (hd : ∀ w ∈ (Ml.init.run ops).works, w.pos ≠ .decided) (f : Nat → MlOp) (hf : MlFair f)
    (hub : ∀ t, (statesOf Ml.step (Ml.init.run ops) f t).ub = false) : ∃ t, (statesOf Ml.step (Ml.init.run ops) f t).call = .destroyed := by
  have g : MlGoing (Ml.init.run ops) := ⟨mlInv_run ops, .inl hc, hd, .inl hc⟩
  obtain ⟨t, ht⟩ := leads Ml.step (Ml.init.run ops) f MlGoing (fun s => s.call = .destroyed ∨ s.ub = true) (fun s => s.call.far + s.far) Ml.turn MlTurn.is
    (fun s op h => mlGoing_step s op h) (fun s _ T => by
      cases s.turn with
      | caller => exact hf.caller T
      | work j => obtain ⟨t, k, h1, h2⟩ := hf.work j T; exact ⟨t, h1, k, h2⟩
      | handled j => exact hf.handled j T) g
  rcases ht with e | e
  · exact ⟨t, e⟩
  · rw [hub t] at e; cases e

/-- A fair execution. -/
def mlTurns (t : Nat) : MlOp := match (spiralAt t).1 % 3, (spiralAt t).1 / 3 with
  | 0, _ => .caller
  | 1, j => .work j .notification
  | _, j => .handled j

theorem mlTurns_fair : MlFair mlTurns := by
  refine ⟨fun T => ?_, fun j T => ?_, fun j T => ?_⟩
  · obtain ⟨u, h1, h2⟩ := spiral_again T 0
    exact ⟨u, h1, by unfold mlTurns; rw [h2]; rfl⟩
  · obtain ⟨u, h1, h2⟩ := spiral_again T (3 * j + 1)
    refine ⟨u, .notification, h1, ?_⟩
    have e1 : (3 * j + 1) % 3 = 1 := by omega
    have e2 : (3 * j + 1) / 3 = j := by omega
    unfold mlTurns; rw [h2, e1, e2]; rfl
  · obtain ⟨u, h1, h2⟩ := spiral_again T (3 * j + 2)
    refine ⟨u, h1, ?_⟩
    have e1 : (3 * j + 2) % 3 = 2 := by omega
    have e2 : (3 * j + 2) / 3 = j := by omega
    unfold mlTurns; rw [h2, e1, e2]; rfl

example : let ops : List MlOp := [.start, .deliver 1 0, .work 0 .request, .work 0 .request, .work 0 .request, .work 0 .notification, .destroy]
    (Ml.init.run ops).call = .dNotify ∧ (Ml.init.run ops).works = [⟨.busy, false⟩] := by decide +kernel

/-- In that execution no destroyed transport is used. -/
example : let ops : List MlOp := [.start, .deliver 1 0, .work 0 .request, .work 0 .request, .work 0 .request, .work 0 .notification, .destroy]
    ∀ t, (statesOf Ml.step (Ml.init.run ops) mlTurns t).ub = false := by
  intro ops t
  have key : ∀ t, MlInv (statesOf Ml.step (Ml.init.run ops) mlTurns t) ∧ (statesOf Ml.step (Ml.init.run ops) mlTurns t).ub = false := by
    intro t
    induction t with
    | zero => exact ⟨mlInv_run ops, by decide +kernel⟩
    | succ t ih =>
      obtain ⟨hi, hu⟩ := ih
      refine ⟨mlInv_step hi _, ?_⟩
      show ((statesOf Ml.step (Ml.init.run ops) mlTurns t).step (mlTurns t)).ub = false
      generalize statesOf Ml.step (Ml.init.run ops) mlTurns t = s at *
      have three : mlTurns t = .caller ∨ (∃ j, mlTurns t = .work j .notification) ∨ ∃ j, mlTurns t = .handled j := by
        unfold mlTurns
        split
        · exact .inl rfl
        · exact .inr (.inl ⟨_, rfl⟩)
        · exact .inr (.inr ⟨_, rfl⟩)
      unfold Ml.step
      rw [if_neg (by simp [hu])]
      rcases three with e | ⟨j, e⟩ | ⟨j, e⟩ <;> rw [e]
      · dsimp only
        unfold Ml.goCaller
        cases s.call <;> dsimp only <;> (try split) <;> (try split) <;> exact hu
      · dsimp only
        rw [if_neg]
        · unfold Ml.goWork
          cases s.works[j]? with
          | none => exact hu
          | some w =>
            obtain ⟨p, st⟩ := w
            cases p <;> dsimp only <;> (try split) <;> (try split) <;> (try split) <;> exact hu
        · rintro ⟨hg, hne⟩
          have hdst := hi.gone.mp hg
          cases hw : s.works[j]? with
          | none => rw [hw] at hne; cases hne
          | some w =>
            rw [hw] at hne
            rcases hi.others j (List.getElem?_eq_some_iff.mp hw).1 with e | e | ⟨e, -⟩
            · unfold Ml.posAt at e; rw [hw] at e; have e' : w.pos = .ended := Option.some.inj e; simp [e'] at hne
            · rw [hi.away hdst] at e; cases e
            · rw [hdst] at e; cases e
      · dsimp only
        split <;> exact hu
  exact (key t).2

/-- C119 fails: a thread that was about to sleep when the destructor woke the sleepers is not woken; the destructor does not return, whatever the turns. -/
theorem C119_destroy_counterexample :
    ∃ ops : List MlOp, (Ml.init.run ops).call = .dJoin ∧ ∀ more, ((Ml.init.run ops).run more).call = .dJoin := by
  refine ⟨[.start, .work 0 .request, .work 0 .request, .destroy, .caller, .work 0 .request, .caller], by decide +kernel, fun more => ?_⟩
  have key : ∀ s : Ml, (s.call = .dJoin ∧ s.th = some 0 ∧ s.connected = false ∧ s.gone = false ∧ s.works = [⟨.asleep, true⟩]) → ((s.run more).call = .dJoin ∧ (s.run more).th = some 0 ∧ (s.run more).connected = false ∧
      (s.run more).gone = false ∧ (s.run more).works = [⟨.asleep, true⟩]) := fun s hs =>
    ml_run_inv (P := fun s => s.call = .dJoin ∧ s.th = some 0 ∧ s.connected = false ∧ s.gone = false ∧ s.works = [⟨.asleep, true⟩]) hs fun t op _ ⟨h1, h2, h3, h4, h5⟩ => by
      have hni : t.call ≠ .idle := by rw [h1]; exact (nomatch ·)
      unfold Ml.step
      split
      · exact ⟨h1, h2, h3, h4, h5⟩
      · cases op with
        | start => dsimp only; exact ⟨h1, h2, h3, h4, h5⟩
        | close => dsimp only; exact ⟨h1, h2, h3, h4, h5⟩
        | destroy => dsimp only; exact ⟨h1, h2, h3, h4, h5⟩
        | caller => dsimp only; unfold Ml.goCaller; rw [h1, h2, h5]; exact ⟨h1, h2, h3, h4, h5⟩
        | work j k =>
          dsimp only
          rw [if_neg (by rw [h4]; simp)]
          unfold Ml.goWork
          rw [h5]
          cases j with
          | zero => exact ⟨h1, h2, h3, h4, h5⟩
          | succ n => exact ⟨h1, h2, h3, h4, h5⟩
        | handled j =>
          dsimp only
          rw [h5]
          cases j with
          | zero => exact ⟨h1, h2, h3, h4, h5⟩
          | succ n => exact ⟨h1, h2, h3, h4, h5⟩
        | answered i => dsimp only; split <;> (try split) <;> exact ⟨h1, h2, h3, h4, h5⟩
        | deliver m i =>
          dsimp only
          rw [h4, h3]
          split
          · exact ⟨h1, h2, h3, h4, h5⟩
          · rw [if_neg (nomatch ·), if_pos (.inl rfl)]; exact ⟨h1, h2, h3, h4, h5⟩
        | send r => dsimp only; split <;> (try split) <;> exact ⟨h1, h2, h3, h4, h5⟩
        | peerDies => exact ⟨h1, h2, h3, h4, h5⟩
  exact (key _ (by decide +kernel)).1

end Verif.InMemory
