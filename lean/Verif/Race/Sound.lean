import Verif.Race.Model

/-!
Two ways to be sure that a member is free of races: every access holds one mutex; or it is written by the first thread only, before that starts another.
-/

namespace Verif.Race

variable {L M K : Type} [DecidableEq L] [DecidableEq M]

theorem HB.lt {sy : Bool} {τ : List (Nat × Ev L M)} {i j : Nat} (h : HB sy τ i j) : i < j := by
  induction h with
  | one lt => exact lt
  | trans _ _ h1 h2 => omega

theorem get_append {α : Type} {τ : List α} (σ : List α) {i : Nat} {a : α} (h : τ[i]? = some a) : (τ ++ σ)[i]? = some a := by
  have : i < τ.length := (List.getElem?_eq_some_iff.1 h).1
  rw [List.getElem?_append_left this]; exact h

theorem HB.mono {sy : Bool} {τ : List (Nat × Ev L M)} (σ : List (Nat × Ev L M)) {i j : Nat} (h : HB sy τ i j) : HB sy (τ ++ σ) i j := by
  induction h with
  | one lt ha hb ho => exact .one lt (get_append σ ha) (get_append σ hb) ho
  | trans _ _ h1 h2 => exact .trans h1 h2

/-- Counting more as order only makes more happen before. -/
theorem HB.more {τ : List (Nat × Ev L M)} {i j : Nat} (sy : Bool) (h : HB false τ i j) : HB sy τ i j := by
  induction h with
  | one lt ha hb ho =>
    refine .one lt ha hb ?_
    simp only [orders, Bool.or_eq_true] at ho ⊢
    rcases ho with h | h
    · exact .inl h
    · refine .inr ?_
      split at h <;> simp_all
  | trans _ _ h1 h2 => exact .trans h1 h2

theorem HB.po {sy : Bool} {τ : List (Nat × Ev L M)} {i j : Nat} {a b : Nat × Ev L M} (lt : i < j) (ha : τ[i]? = some a) (hb : τ[j]? = some b) (h : a.1 = b.1) : HB sy τ i j :=
  .one lt ha hb (by simp [orders, h])

/-- The last place of the list. -/
theorem get_last {α : Type} (τ : List α) (e : α) : (τ ++ [e])[τ.length]? = some e := by simp

theorem get_snoc {α : Type} {τ : List α} {e : α} {i : Nat} {a : α} (h : (τ ++ [e])[i]? = some a) : τ[i]? = some a ∨ (i = τ.length ∧ a = e) := by
  rcases Nat.lt_trichotomy i τ.length with c | c | c
  · rw [List.getElem?_append_left c] at h; exact .inl h
  · subst c; simp at h; exact .inr ⟨rfl, h.symm⟩
  · rw [List.getElem?_append_right (by omega)] at h
    have : ([e] : List α)[i - τ.length]? = none := by simp; omega
    rw [this] at h; cases h

theorem get_lt {α : Type} {τ : List α} {i : Nat} {a : α} (h : τ[i]? = some a) : i < τ.length := (List.getElem?_eq_some_iff.1 h).1

/-! ### A mutex -/

/-- The list of events as `h`, the holder of `m`, requires it. -/
structure Kept (sy : Bool) (x : L) (m : M) (τ : List (Nat × Ev L M)) (h : Option Nat) : Prop where
  held : ∀ t, h = some t → ∃ l, τ[l]? = some (t, .lock m) ∧ ∀ (q u : Nat), τ[q]? = some (u, .unlock m) → q < l
  past : ∀ (p : Nat) e, τ[p]? = some e → e.2.touches x → h = some e.1 ∨ ∃ q u, τ[q]? = some (u, .unlock m) ∧ HB sy τ p q
  pairs : ∀ (p q : Nat) e f, p < q → τ[p]? = some e → τ[q]? = some f → e.2.touches x → f.2.touches x → HB sy τ p q

variable {sy : Bool} {x : L} {m : M}

theorem Kept.other {τ : List (Nat × Ev L M)} {h : Option Nat} (k : Kept sy x m τ h) (i : Nat) (e : Ev L M) (h1 : ¬ e.touches x) (h2 : e ≠ .unlock m) : Kept sy x m (τ ++ [(i, e)]) h := by
  refine ⟨fun t ht => ?_, fun p f hp hx => ?_, fun p q f g lt hp hq hf hg => ?_⟩
  · obtain ⟨l, a, b⟩ := k.held t ht
    refine ⟨l, get_append _ a, fun q u hq => ?_⟩
    rcases get_snoc hq with c | ⟨-, c⟩
    · exact b q u c
    · cases c; exact absurd rfl h2
  · rcases get_snoc hp with c | ⟨-, c⟩
    · rcases k.past p f c hx with d | ⟨q, u, d, e'⟩
      · exact .inl d
      · exact .inr ⟨q, u, get_append _ d, e'.mono _⟩
    · subst c; exact absurd hx h1
  · rcases get_snoc hq with c | ⟨-, c⟩
    · rcases get_snoc hp with d | ⟨d, -⟩
      · exact (k.pairs p q f g lt d c hf hg).mono _
      · have := get_lt c; omega
    · subst c; exact absurd hg h1

theorem Kept.access {τ : List (Nat × Ev L M)} {i : Nat} (k : Kept sy x m τ (some i)) (e : Ev L M) (h2 : e ≠ .unlock m) : Kept sy x m (τ ++ [(i, e)]) (some i) := by
  refine ⟨fun t ht => ?_, fun p f hp hx => ?_, fun p q f g lt hp hq hf hg => ?_⟩
  · obtain ⟨l, a, b⟩ := k.held t ht
    refine ⟨l, get_append _ a, fun q u hq => ?_⟩
    rcases get_snoc hq with c | ⟨-, c⟩
    · exact b q u c
    · cases c; exact absurd rfl h2
  · rcases get_snoc hp with c | ⟨-, c⟩
    · rcases k.past p f c hx with d | ⟨q, u, d, e'⟩
      · exact .inl d
      · exact .inr ⟨q, u, get_append _ d, e'.mono _⟩
    · subst c; exact .inl rfl
  · rcases get_snoc hq with c | ⟨c1, c2⟩
    · rcases get_snoc hp with d | ⟨d, -⟩
      · exact (k.pairs p q f g lt d c hf hg).mono _
      · have := get_lt c; omega
    · rcases get_snoc hp with d | ⟨d, -⟩
      · subst c1; subst c2
        rcases k.past p f d hf with w | ⟨o, u, w1, w2⟩
        · exact .po lt (get_append _ d) (get_last _ _) (by simpa using w.symm)
        · obtain ⟨l, a, b⟩ := k.held i rfl
          have := b o u w1
          refine (w2.mono _).trans (.trans (.one this (get_append _ w1) (get_append _ a) (by simp [orders])) ?_)
          exact .po (get_lt a) (get_append _ a) (get_last _ _) rfl
      · omega

theorem Kept.lock {τ : List (Nat × Ev L M)} (k : Kept sy x m τ none) (i : Nat) : Kept sy x m (τ ++ [(i, .lock m)]) (some i) := by
  have o := k.other i (.lock m) (by rintro (h | h) <;> cases h) (by intro h; cases h)
  refine ⟨fun t ht => ?_, fun p f hp hx => ?_, o.pairs⟩
  · cases ht
    refine ⟨τ.length, get_last _ _, fun q u hq => ?_⟩
    rcases get_snoc hq with c | ⟨-, c⟩
    · exact get_lt c
    · cases c
  · rcases o.past p f hp hx with d | d
    · cases d
    · exact .inr d

theorem Kept.unlock {τ : List (Nat × Ev L M)} {i : Nat} (k : Kept sy x m τ (some i)) : Kept sy x m (τ ++ [(i, .unlock m)]) none := by
  have nx : ¬ (Ev.unlock m : Ev L M).touches x := by rintro (h | h) <;> cases h
  refine ⟨fun t ht => ?_, fun p f hp hx => ?_, fun p q f g lt hp hq hf hg => ?_⟩
  · cases ht
  · rcases get_snoc hp with c | ⟨-, c⟩
    · rcases k.past p f c hx with d | ⟨q, u, d, e'⟩
      · cases d
        exact .inr ⟨τ.length, _, get_last _ _, .po (get_lt c) (get_append _ c) (get_last _ _) rfl⟩
      · exact .inr ⟨q, u, get_append _ d, e'.mono _⟩
    · subst c; exact absurd hx nx
  · rcases get_snoc hq with c | ⟨-, c⟩
    · rcases get_snoc hp with d | ⟨d, -⟩
      · exact (k.pairs p q f g lt d c hf hg).mono _
      · have := get_lt c; omega
    · subst c; exact absurd hg nx

/-- What remains to a thread that holds `m` or does not. -/
def okItems (x : L) (m : M) : Bool → List (Item L M K) → Prop
  | h, [] => h = false
  | h, .code c :: r => c.locked x m h = true ∧ okItems x m h r
  | h, .rel n :: r => if n = m then h = true ∧ okItems x m false r else okItems x m h r

theorem Code.locked_mono (x : L) (m : M) (c : Code L M K) : ∀ h, c.locked x m false = true → c.locked x m h = true := by
  induction c with
  | seq a b iha ihb =>
    intro h hc
    simp only [Code.locked, Bool.and_eq_true] at hc ⊢
    exact ⟨iha h hc.1, ihb h hc.2⟩
  | guard n a ih =>
    intro h hc
    simp only [Code.locked, Bool.false_or] at hc ⊢
    cases hd : decide (n = m) with
    | false => rw [hd] at hc; rw [Bool.or_false]; exact ih h hc
    | true => rw [hd] at hc; rw [Bool.or_true]; exact hc
  | loop a ih => intro h hc; exact ih h hc
  | read y => intro h hc; simp only [Code.locked, Bool.false_or] at hc ⊢; simp [hc]
  | write y => intro h hc; simp only [Code.locked, Bool.false_or] at hc ⊢; simp [hc]
  | _ => intro h hc; rfl

/-- Who holds `m`, as a Boolean for each thread. -/
def holds (s : Sys L M K) (m : M) (i : Nat) : Bool := decide (s.holder m = some i)

structure Disciplined (sy : Bool) (x : L) (m : M) (s : Sys L M K) : Prop where
  own : ∀ (i : Nat) l, s.threads[i]? = some l → okItems x m (holds s m i) l
  lt : ∀ i, s.holder m = some i → i < s.threads.length
  kept : Kept sy x m s.trace (s.holder m)

/-- The same after a step of thread `i` that leaves the holder of `m` alone. -/
theorem Disciplined.same {s t : Sys L M K} (d : Disciplined sy x m s) (i : Nat) (r : List (Item L M K)) (ht : t.threads = s.threads.set i r) (hh : t.holder m = s.holder m)
    (hr : i < s.threads.length → okItems x m (holds s m i) r) (hk : Kept sy x m t.trace (s.holder m)) : Disciplined sy x m t := by
  have e : ∀ j, holds t m j = holds s m j := fun j => by simp only [holds, hh]
  refine ⟨fun j l hj => ?_, fun j hj => ?_, by rw [hh]; exact hk⟩
  · rw [e]
    rw [ht] at hj
    rw [List.getElem?_set] at hj
    split at hj
    · rename_i c
      subst c
      split at hj
      · rename_i c; cases hj; exact hr c
      · cases hj
    · exact d.own j l hj
  · rw [ht, List.length_set]; exact d.lt j (hh ▸ hj)

theorem Disciplined.step {s : Sys L M K} (prog : K → Code L M K) (hp : ∀ k, (prog k).locked x m false = true) (d : Disciplined sy x m s) (op : Op) : Disciplined sy x m (s.step prog op) := by
  cases op with
  | leave i =>
    simp only [Sys.step, Sys.leave]
    split
    · rename_i c r hc
      exact d.same i r rfl rfl (fun _ => (d.own i _ hc).2) d.kept
    · exact d
  | go i =>
    simp only [Sys.step, Sys.go]
    split
    · rename_i c r hc
      have o := d.own i _ hc
      have il : i < s.threads.length := get_lt hc
      split
      · exact d.same i r rfl rfl (fun _ => o.2) d.kept
      · rename_i y
        refine d.same i r rfl rfl (fun _ => o.2) ?_
        by_cases hy : y = x
        · subst hy
          have h1 : holds s m i = true := by simpa [Code.locked] using o.1
          have h2 : s.holder m = some i := by simpa [holds] using h1
          have k := d.kept
          rw [h2] at k ⊢
          exact k.access _ (by intro h; cases h)
        · refine d.kept.other i _ ?_ (by intro h; cases h)
          rintro (h | h) <;> cases h
          exact hy rfl
      · rename_i y
        refine d.same i r rfl rfl (fun _ => o.2) ?_
        by_cases hy : y = x
        · subst hy
          have h1 : holds s m i = true := by simpa [Code.locked] using o.1
          have h2 : s.holder m = some i := by simpa [holds] using h1
          have k := d.kept
          rw [h2] at k ⊢
          exact k.access _ (by intro h; cases h)
        · refine d.kept.other i _ ?_ (by intro h; cases h)
          rintro (h | h) <;> cases h
          exact hy rfl
      · refine d.same i r rfl rfl (fun _ => o.2) (d.kept.other i _ ?_ (by intro h; cases h))
        rintro (h | h) <;> cases h
      · rename_i a b
        have := o.1
        simp only [Code.locked, Bool.and_eq_true] at this
        exact d.same i _ rfl rfl (fun _ => ⟨this.1, this.2, o.2⟩) d.kept
      · rename_i n a
        split
        · rename_i hn
          by_cases hm : n = m
          · subst hm
            have h1 : holds s n i = false := by simp [holds, hn]
            have o1 := o.1
            have o2 := o.2
            rw [h1] at o2
            simp only [Code.locked, decide_true, Bool.or_true] at o1
            refine ⟨fun j l hj => ?_, fun j hj => ?_, ?_⟩
            · simp only [Sys.did] at hj
              simp only [holds, if_pos]
              rw [List.getElem?_set] at hj
              split at hj
              · rename_i c
                subst c
                cases hj
                simp only [decide_true]
                exact ⟨o1, by simp only [okItems, if_pos]; exact ⟨trivial, o2⟩⟩
              · rename_i c
                have := d.own j l hj
                have e : holds s n j = false := by simp [holds, hn]
                rw [e] at this
                have : decide (some i = some j) = false := by simp [c]
                rw [this]; assumption
            · simp only [if_pos, Option.some.injEq] at hj
              subst hj
              simp only [Sys.did, List.length_set]; exact il
            · have k := d.kept
              rw [hn] at k
              simp only [if_pos, Sys.did]
              exact k.lock i
          · refine d.same i (.code a :: .rel n :: r) rfl ?_ (fun _ => ?_) ?_
            · show (if m = n then some i else s.holder m) = s.holder m
              rw [if_neg (fun h => hm h.symm)]
            · have o1 := o.1
              simp only [Code.locked, decide_eq_false hm, Bool.or_false] at o1
              exact ⟨o1, by simp only [okItems, if_neg hm]; exact o.2⟩
            · refine d.kept.other i _ ?_ (by intro h; cases h)
              rintro (h | h) <;> cases h
        · exact d
      · rename_i a
        exact d.same i _ rfl rfl (fun _ => ⟨o.1, o.1, o.2⟩) d.kept
      · rename_i k
        exact d.same i _ rfl rfl (fun _ => ⟨Code.locked_mono x m _ _ (hp k), o.2⟩) d.kept
      · rename_i k
        have base : Disciplined sy x m { s with threads := s.threads.set i r } := d.same i r rfl rfl (fun _ => o.2) d.kept
        refine ⟨fun j l hj => ?_, fun j hj => ?_, ?_⟩
        · rcases get_snoc hj with c | ⟨c1, c2⟩
          · exact base.own j l c
          · subst c2
            have : holds { threads := s.threads.set i r ++ [[.code (prog k)]], holder := s.holder, trace := s.trace ++ [(i, .spawn s.threads.length)] } m j = false := by
              simp only [holds, decide_eq_false_iff_not]
              intro h
              have := d.lt j h
              rw [c1, List.length_set] at this
              omega
            rw [this]
            exact ⟨hp k, rfl⟩
        · have := base.lt j hj
          simp only [List.length_append] at this ⊢
          omega
        · refine d.kept.other i _ ?_ (by intro h; cases h)
          rintro (h | h) <;> cases h
    · rename_i n r hc
      have o := d.own i _ hc
      have il : i < s.threads.length := get_lt hc
      by_cases hm : n = m
      · subst hm
        simp only [okItems, if_pos] at o
        have h2 : s.holder n = some i := by simpa [holds] using o.1
        refine ⟨fun j l hj => ?_, fun j hj => ?_, ?_⟩
        · simp only [Sys.did] at hj
          simp only [holds, if_pos, reduceCtorEq, decide_false]
          rw [List.getElem?_set] at hj
          split at hj
          · rename_i c
            subst c
            cases hj; exact o.2
          · rename_i c
            have := d.own j l hj
            have e : holds s n j = false := by simp [holds, h2, c]
            rw [e] at this; exact this
        · simp only [if_pos, reduceCtorEq] at hj
        · have k := d.kept
          rw [h2] at k
          simp only [if_pos, Sys.did]
          exact k.unlock
      · simp only [okItems, if_neg hm] at o
        refine d.same i r rfl ?_ (fun _ => o) ?_
        · show (if m = n then none else s.holder m) = s.holder m
          rw [if_neg (fun h => hm h.symm)]
        · refine d.kept.other i _ ?_ (by intro h; cases h; exact hm rfl)
          rintro (h | h) <;> cases h
    · exact d

/-- When every access of `x` is made with `m` held, there is no race on `x`, whatever threads there are and however they are scheduled. -/
theorem locked_sound (prog : K → Code L M K) (main : List (Code L M K)) (hp : ∀ k, (prog k).locked x m false = true) (hm : ∀ c ∈ main, c.locked x m false = true) (ops : List Op) :
    ¬ Racy sy ((Sys.init main).run prog ops).trace x := by
  have d : Disciplined sy x m ((Sys.init main).run prog ops) := by
    have gen : ∀ (ops : List Op) (s : Sys L M K), Disciplined sy x m s → Disciplined sy x m (s.run prog ops) := by
      intro ops
      induction ops with
      | nil => intro s d; exact d
      | cons op ops ih => intro s d; exact ih _ (d.step prog hp op)
    refine gen ops _ ⟨fun i l hi => ?_, fun i h => (nomatch h), ⟨fun t h => (nomatch h), fun p e h => ?_, fun p q e f _ h => ?_⟩⟩
    · cases i with
      | zero =>
        cases hi
        have e : holds (Sys.init main) m 0 = false := rfl
        rw [e]
        clear gen e
        induction main with
        | nil => rfl
        | cons c cs ih => exact ⟨hm c List.mem_cons_self, ih fun c h => hm c (List.mem_cons_of_mem _ h)⟩
      | succ i => cases hi
    · simp [Sys.init] at h
    · simp [Sys.init] at h
  rintro ⟨i, j, a, b, lt, ha, hb, xa, xb, -, no⟩
  exact no (d.kept.pairs i j a b lt ha hb xa xb)

/-- The same for a program that sets up and then calls what it likes. -/
theorem locked_use {sy : Bool} {x : L} {m : M} (prog : K → Code L M K) (setup : List (Code L M K)) (main : List K) (hp : ∀ k, (prog k).locked x m false = true)
    (hs : ∀ c ∈ setup, c.locked x m false = true) (ops : List Op) : ¬ Racy sy ((Sys.init (setup ++ main.map .call)).run prog ops).trace x := by
  refine locked_sound prog _ hp (fun c hc => ?_) ops
  rcases List.mem_append.1 hc with hc | hc
  · exact hs c hc
  · obtain ⟨k, _, rfl⟩ := List.mem_map.1 hc
    rfl

/-! ### Before any thread is started -/

/-- None of what remains writes `x`. -/
def sparing (x : L) (l : List (Item L M K)) : Prop := ∀ c, Item.code c ∈ l → c.spares x = true

/-- None of what remains starts a thread. -/
def still (l : List (Item L M K)) : Prop := ∀ c, Item.code c ∈ l → c.quiet = true

structure Early (sy : Bool) (x : L) (s : Sys L M K) : Prop where
  phase : (s.threads.length = 1 ∧ (∀ (p u t : Nat), s.trace[p]? ≠ some (t, .spawn u)) ∧ ∃ a b, s.threads[0]? = some (a ++ b) ∧ still a ∧ sparing x b) ∨ (∀ (i : Nat) l, s.threads[i]? = some l → sparing x l)
  pos : 0 < s.threads.length
  writes : ∀ (p t : Nat), s.trace[p]? = some (t, .write x) → t = 0 ∧ ∀ (q u v : Nat), s.trace[q]? = some (v, .spawn u) → p < q
  born : ∀ u, 0 < u → u < s.threads.length → ∃ q t, s.trace[q]? = some (t, .spawn u) ∧ (t = 0 ∨ ∃ o w, s.trace[o]? = some (0, .spawn w) ∧ HB sy s.trace o q)
  after : ∀ (p : Nat) (e : Nat × Ev L M), s.trace[p]? = some e → e.1 ≠ 0 → ∃ o w, s.trace[o]? = some (0, .spawn w) ∧ HB sy s.trace o p

theorem Early.sound {s : Sys L M K} (d : Early sy x s) : ¬ Racy sy s.trace x := by
  rintro ⟨i, j, ⟨t, a⟩, ⟨u, b⟩, lt, ha, hb, xa, xb, w, no⟩
  refine no ?_
  rcases w with w | w
  · simp only at w
    subst w
    obtain ⟨t0, before⟩ := d.writes i t ha
    subst t0
    by_cases hu : u = 0
    · exact .po lt ha hb hu.symm
    · obtain ⟨o, w, h1, h2⟩ := d.after j _ hb hu
      exact .trans (.po (before o w 0 h1) ha h1 rfl) h2
  · simp only at w
    subst w
    obtain ⟨t0, before⟩ := d.writes j u hb
    subst t0
    by_cases ht : t = 0
    · exact .po lt ha hb ht
    · obtain ⟨o, w, h1, h2⟩ := d.after i _ ha ht
      have := before o w 0 h1
      have := h2.lt
      omega

/-- Thread `i` exists: it is the first, or it was started. -/
theorem Early.root {s : Sys L M K} (d : Early sy x s) {i : Nat} (hi : i < s.threads.length) (h0 : i ≠ 0) (e : Ev L M) :
    ∃ o w, (s.trace ++ [(i, e)])[o]? = some (0, .spawn w) ∧ HB sy (s.trace ++ [(i, e)]) o s.trace.length := by
  obtain ⟨q, t, hq, ht⟩ := d.born i (by omega) hi
  have last : HB sy (s.trace ++ [(i, e)]) q s.trace.length := .one (get_lt hq) (get_append _ hq) (get_last _ _) (by simp [orders])
  rcases ht with ht | ⟨o, w, ho, hb⟩
  · subst ht; exact ⟨q, i, get_append _ hq, last⟩
  · exact ⟨o, w, get_append _ ho, .trans (hb.mono _) last⟩

/-- The next step of thread `i` puts `r` in place of what remained to it and shows `e`, which starts no thread. -/
theorem Early.shown {s t : Sys L M K} (d : Early sy x s) (i : Nat) (r : List (Item L M K)) (e : Ev L M) (hi : i < s.threads.length) (ht : t.threads = s.threads.set i r) (htr : t.trace = s.trace ++ [(i, e)])
    (he : ∀ u, e ≠ .spawn u) (hw : e = .write x → i = 0 ∧ ∀ (p u v : Nat), s.trace[p]? ≠ some (v, .spawn u))
    (hphase : (t.threads.length = 1 ∧ (∀ (p u v : Nat), s.trace[p]? ≠ some (v, .spawn u)) ∧ ∃ a b, t.threads[0]? = some (a ++ b) ∧ still a ∧ sparing x b) ∨
      (∀ (i : Nat) l, t.threads[i]? = some l → sparing x l)) : Early sy x t := by
  refine ⟨?_, by rw [ht, List.length_set]; exact d.pos, ?_, ?_, ?_⟩
  · rcases hphase with ⟨h1, h2, h3⟩ | h
    · refine .inl ⟨h1, fun p u v hp => ?_, h3⟩
      rw [htr] at hp
      rcases get_snoc hp with c | ⟨-, c⟩
      · exact h2 p u v c
      · cases c; exact he u rfl
    · exact .inr h
  · rw [htr]
    intro p v hp
    have tail : ∀ (q u v : Nat), (s.trace ++ [(i, e)])[q]? = some (v, .spawn u) → s.trace[q]? = some (v, .spawn u) := by
      intro q u v hq
      rcases get_snoc hq with c | ⟨-, c⟩
      · exact c
      · cases c; exact absurd rfl (he u)
    rcases get_snoc hp with c | ⟨c1, c2⟩
    · obtain ⟨a, b⟩ := d.writes p v c
      exact ⟨a, fun q u v hq => b q u v (tail q u v hq)⟩
    · cases c2
      obtain ⟨a, b⟩ := hw rfl
      exact ⟨a, fun q u v hq => absurd (tail q u v hq) (b q u v)⟩
  · rw [ht, htr, List.length_set]
    intro u h0 hu
    obtain ⟨q, v, hq, hv⟩ := d.born u h0 hu
    refine ⟨q, v, get_append _ hq, hv.imp id ?_⟩
    rintro ⟨o, w, ho, hb⟩
    exact ⟨o, w, get_append _ ho, hb.mono _⟩
  · rw [htr]
    intro p f hp hf
    rcases get_snoc hp with c | ⟨c1, c2⟩
    · obtain ⟨o, w, ho, hb⟩ := d.after p f c hf
      exact ⟨o, w, get_append _ ho, hb.mono _⟩
    · subst c1; subst c2
      exact d.root hi hf e

/-- The same for a step that shows nothing. -/
theorem Early.silent {s t : Sys L M K} (d : Early sy x s) (i : Nat) (r : List (Item L M K)) (ht : t.threads = s.threads.set i r) (htr : t.trace = s.trace)
    (hphase : (t.threads.length = 1 ∧ (∀ (p u v : Nat), s.trace[p]? ≠ some (v, .spawn u)) ∧ ∃ a b, t.threads[0]? = some (a ++ b) ∧ still a ∧ sparing x b) ∨
      (∀ (i : Nat) l, t.threads[i]? = some l → sparing x l)) : Early sy x t := by
  refine ⟨by rw [htr]; exact hphase, by rw [ht, List.length_set]; exact d.pos, by rw [htr]; exact d.writes, ?_, by rw [htr]; exact d.after⟩
  rw [ht, htr, List.length_set]; exact d.born

/-- The phase after thread `i` went on from `it :: r` to `r'`. -/
theorem Early.phase_set {s : Sys L M K} (d : Early sy x s) {i : Nat} {it : Item L M K} {r : List (Item L M K)} (hc : s.threads[i]? = some (it :: r)) (new : List (Item L M K))
    (h1 : still [it] → still new) (h2 : sparing x [it] → sparing x new) :
    ((s.threads.set i (new ++ r)).length = 1 ∧ (∀ (p u v : Nat), s.trace[p]? ≠ some (v, .spawn u)) ∧ ∃ a b, (s.threads.set i (new ++ r))[0]? = some (a ++ b) ∧ still a ∧ sparing x b) ∨
      (∀ (j : Nat) l, (s.threads.set i (new ++ r))[j]? = some l → sparing x l) := by
  have il := get_lt hc
  rcases d.phase with ⟨p1, p2, a, b, p3, p4, p5⟩ | p
  · have i0 : i = 0 := by omega
    subst i0
    refine .inl ⟨by rw [List.length_set]; exact p1, p2, ?_⟩
    rw [hc] at p3
    rw [List.getElem?_set_self il]
    cases a with
    | nil =>
      simp only [List.nil_append, Option.some.injEq] at p3
      subst p3
      refine ⟨[], new ++ r, rfl, fun c h => (nomatch h), fun c h => ?_⟩
      rcases List.mem_append.1 h with h | h
      · refine h2 (fun c h => p5 c ?_) c h
        rcases List.mem_singleton.1 h with rfl; exact List.mem_cons_self
      · exact p5 c (List.mem_cons_of_mem _ h)
    | cons a0 a =>
      simp only [List.cons_append, Option.some.injEq, List.cons.injEq] at p3
      obtain ⟨rfl, rfl⟩ := p3
      refine ⟨new ++ a, b, by rw [List.append_assoc], fun c h => ?_, p5⟩
      rcases List.mem_append.1 h with h | h
      · refine h1 (fun c h => p4 c ?_) c h
        rcases List.mem_singleton.1 h with rfl; exact List.mem_cons_self
      · exact p4 c (List.mem_cons_of_mem _ h)
  · refine .inr fun j l hj => ?_
    rw [List.getElem?_set] at hj
    split at hj
    · rename_i c
      subst c
      cases hj
      intro c h
      have q := p i _ hc
      rcases List.mem_append.1 h with h | h
      · refine h2 (fun c h => q c ?_) c h
        rcases List.mem_singleton.1 h with rfl; exact List.mem_cons_self
      · exact q c (List.mem_cons_of_mem _ h)
    · exact p j l hj

theorem one_still {c : Code L M K} : still [Item.code c] ↔ c.quiet = true := by
  constructor
  · intro h; exact h c (List.mem_singleton.2 rfl)
  · intro h d hd; cases List.mem_singleton.1 hd; exact h

theorem one_sparing {c : Code L M K} : sparing x [Item.code c] ↔ c.spares x = true := by
  constructor
  · intro h; exact h c (List.mem_singleton.2 rfl)
  · intro h d hd; cases List.mem_singleton.1 hd; exact h

theorem Early.step {s : Sys L M K} (prog : K → Code L M K) (hp : ∀ k, (prog k).spares x = true) (d : Early sy x s) (op : Op) : Early sy x (s.step prog op) := by
  have nil1 : ∀ {l : List (Item L M K)}, still l → still ([] : List (Item L M K)) := fun _ c h => (nomatch h)
  have nil2 : ∀ {l : List (Item L M K)}, sparing x l → sparing x ([] : List (Item L M K)) := fun _ c h => (nomatch h)
  cases op with
  | leave i =>
    simp only [Sys.step, Sys.leave]
    split
    · rename_i c r hc
      exact d.silent i r rfl rfl (d.phase_set hc [] nil1 nil2)
    · exact d
  | go i =>
    simp only [Sys.step, Sys.go]
    split
    · rename_i c r hc
      have il : i < s.threads.length := get_lt hc
      split
      · exact d.silent i r rfl rfl (d.phase_set hc [] nil1 nil2)
      · exact d.shown i r _ il rfl rfl (fun u h => by cases h) (fun h => by cases h) (d.phase_set hc [] nil1 nil2)
      · rename_i y
        refine d.shown i r _ il rfl rfl (fun u h => by cases h) (fun h => ?_) (d.phase_set hc [] nil1 nil2)
        cases h
        rcases d.phase with ⟨p1, p2, -⟩ | p
        · exact ⟨by omega, p2⟩
        · have := p i _ hc _ List.mem_cons_self
          simp [Code.spares] at this
      · exact d.shown i r _ il rfl rfl (fun u h => by cases h) (fun h => by cases h) (d.phase_set hc [] nil1 nil2)
      · rename_i a b
        refine d.silent i (.code a :: .code b :: r) rfl rfl (d.phase_set hc [.code a, .code b] (fun h => ?_) (fun h => ?_))
        · rw [one_still] at h
          simp only [Code.quiet, Bool.and_eq_true] at h
          intro c hc
          simp only [List.mem_cons, Item.code.injEq, List.not_mem_nil, or_false] at hc
          rcases hc with rfl | rfl
          · exact h.1
          · exact h.2
        · rw [one_sparing] at h
          simp only [Code.spares, Bool.and_eq_true] at h
          intro c hc
          simp only [List.mem_cons, Item.code.injEq, List.not_mem_nil, or_false] at hc
          rcases hc with rfl | rfl
          · exact h.1
          · exact h.2
      · rename_i n a
        split
        · refine d.shown i (.code a :: .rel n :: r) _ il rfl rfl (fun u h => by cases h) (fun h => by cases h) (d.phase_set hc [.code a, .rel n] (fun h => ?_) (fun h => ?_))
          · rw [one_still] at h
            intro c hc
            simp only [List.mem_cons, Item.code.injEq, List.not_mem_nil, or_false, reduceCtorEq] at hc
            rw [hc]; exact h
          · rw [one_sparing] at h
            intro c hc
            simp only [List.mem_cons, Item.code.injEq, List.not_mem_nil, or_false, reduceCtorEq] at hc
            rw [hc]; exact h
        · exact d
      · rename_i a
        refine d.silent i (.code a :: .code (.loop a) :: r) rfl rfl (d.phase_set hc [.code a, .code (.loop a)] (fun h => ?_) (fun h => ?_))
        · rw [one_still] at h
          intro c hc
          simp only [List.mem_cons, Item.code.injEq, List.not_mem_nil, or_false] at hc
          rcases hc with rfl | rfl <;> exact h
        · rw [one_sparing] at h
          intro c hc
          simp only [List.mem_cons, Item.code.injEq, List.not_mem_nil, or_false] at hc
          rcases hc with rfl | rfl <;> exact h
      · rename_i k
        refine d.silent i (.code (prog k) :: r) rfl rfl (d.phase_set hc [.code (prog k)] (fun h => ?_) (fun _ => ?_))
        · rw [one_still] at h; cases h
        · rw [one_sparing]; exact hp k
      · rename_i k
        have rest : ∀ (j : Nat) l, (s.threads.set i r)[j]? = some l → sparing x l := by
          have noS : ¬ still [(Item.code (.spawn k) : Item L M K)] := by rw [one_still]; intro h; cases h
          rcases d.phase with ⟨p1, p2, a, b, p3, p4, p5⟩ | p
          · have i0 : i = 0 := by omega
            subst i0
            rw [hc] at p3
            cases a with
            | cons a0 a =>
              simp only [List.cons_append, Option.some.injEq, List.cons.injEq] at p3
              exact absurd (fun c h => p4 c (by rw [← p3.1, List.mem_singleton.1 h]; exact List.mem_cons_self)) noS
            | nil =>
              simp only [List.nil_append, Option.some.injEq] at p3
              subst p3
              intro j l hj
              have : j < 1 := by have := get_lt hj; rw [List.length_set] at this; omega
              have : j = 0 := by omega
              subst this
              rw [List.getElem?_set_self il] at hj
              cases hj
              exact fun c h => p5 c (List.mem_cons_of_mem _ h)
          · intro j l hj
            rw [List.getElem?_set] at hj
            split at hj
            · rename_i c
              subst c
              cases hj; exact fun c h => p i _ hc c (List.mem_cons_of_mem _ h)
            · exact p j l hj
        refine ⟨.inr fun j l hj => ?_, by simp, fun p t hp' => ?_, fun u h0 hu => ?_, fun p e hp' he => ?_⟩
        · rcases get_snoc hj with c | ⟨-, c⟩
          · exact rest j l c
          · subst c; rw [one_sparing]; exact hp k
        · rcases get_snoc hp' with c | ⟨-, c⟩
          · obtain ⟨a, b⟩ := d.writes p t c
            refine ⟨a, fun q u v hq => ?_⟩
            rcases get_snoc hq with w | ⟨w, -⟩
            · exact b q u v w
            · rw [w]; exact get_lt c
          · cases c
        · simp only [List.length_append, List.length_set, List.length_cons, List.length_nil] at hu
          by_cases hul : u < s.threads.length
          · obtain ⟨q, v, hq, hv⟩ := d.born u h0 hul
            refine ⟨q, v, get_append _ hq, hv.imp id ?_⟩
            rintro ⟨o, w, ho, hb⟩
            exact ⟨o, w, get_append _ ho, hb.mono _⟩
          · have : u = s.threads.length := by omega
            subst this
            refine ⟨s.trace.length, i, get_last _ _, ?_⟩
            by_cases hi0 : i = 0
            · exact .inl hi0
            · exact .inr (d.root il hi0 _)
        · rcases get_snoc hp' with c | ⟨c1, c2⟩
          · obtain ⟨o, w, ho, hb⟩ := d.after p e c he
            exact ⟨o, w, get_append _ ho, hb.mono _⟩
          · subst c1; subst c2
            exact d.root il he _
    · rename_i n r hc
      exact d.shown i r _ (get_lt hc) rfl rfl (fun u h => by cases h) (fun h => by cases h) (d.phase_set hc [] nil1 nil2)
    · exact d

/-- When `x` is written by the first thread only, before it starts another, there is no race on `x`. -/
theorem early_sound (prog : K → Code L M K) (a b : List (Code L M K)) (hp : ∀ k, (prog k).spares x = true) (ha : ∀ c ∈ a, c.quiet = true) (hb : ∀ c ∈ b, c.spares x = true) (ops : List Op) :
    ¬ Racy sy ((Sys.init (a ++ b)).run prog ops).trace x := by
  have gen : ∀ (ops : List Op) (s : Sys L M K), Early sy x s → Early sy x (s.run prog ops) := by
    intro ops
    induction ops with
    | nil => intro s d; exact d
    | cons op ops ih => intro s d; exact ih _ (d.step prog hp op)
  refine (gen ops (Sys.init (a ++ b)) ⟨.inl ⟨rfl, fun p u t h => ?_, a.map .code, b.map .code, ?_, fun c h => ?_, fun c h => ?_⟩, Nat.one_pos, fun p t h => ?_, fun u h0 hu => ?_, fun p e h => ?_⟩).sound
  · simp [Sys.init] at h
  · simp [Sys.init]
  · obtain ⟨d, h1, h2⟩ := List.mem_map.1 h; cases h2; exact ha _ h1
  · obtain ⟨d, h1, h2⟩ := List.mem_map.1 h; cases h2; exact hb _ h1
  · simp [Sys.init] at h
  · simp [Sys.init] at hu; omega
  · simp [Sys.init] at h

/-- How a race is shown: a set of events that contains the first access, is closed under order and does not contain the second. -/
theorem not_before {sy : Bool} {τ : List (Nat × Ev L M)} (S : Nat → Bool) (closed : ∀ (j : Nat) b, τ[j]? = some b → ∀ (i : Nat) a, τ[i]? = some a → i < j → orders sy a b = true → S i = true → S j = true)
    {i j : Nat} (hi : S i = true) (hj : S j = false) : ¬ HB sy τ i j := by
  have key : ∀ {i j : Nat}, HB sy τ i j → S i = true → S j = true := by
    intro i j h
    induction h with
    | one lt ha hb ho => exact closed _ _ hb _ _ ha lt ho
    | trans _ _ h1 h2 => exact fun h => h2 (h1 h)
  intro h
  rw [key h hi] at hj
  cases hj

/-! ### A race can be seen -/

/-- The places of events that come after place `i`, as they are found going through the list once. -/
def after (sy : Bool) (τ : List (Nat × Ev L M)) (i : Nat) : List Nat :=
  (List.range τ.length).foldl (fun s j => if i < j ∧ s.any (fun k => match τ[k]?, τ[j]? with
    | some a, some b => orders sy a b
    | _, _ => false) then j :: s else s) [i]

/-- `s` is closed under `orders`. -/
def closedB (sy : Bool) (τ : List (Nat × Ev L M)) (s : List Nat) : Bool :=
  (List.range τ.length).all fun j => (List.range j).all fun i => match τ[i]?, τ[j]? with
    | some a, some b => !orders sy a b || !s.contains i || s.contains j
    | _, _ => true

/-- The accesses at places `i` and `j` race. -/
def raceAt (sy : Bool) (τ : List (Nat × Ev L M)) (x : L) (i j : Nat) : Bool :=
  match τ[i]?, τ[j]? with
  | some a, some b =>
    decide (i < j) && (decide (a.2 = .read x) || decide (a.2 = .write x)) && (decide (b.2 = .read x) || decide (b.2 = .write x)) && (decide (a.2 = .write x) || decide (b.2 = .write x)) &&
      closedB sy τ (after sy τ i) && (after sy τ i).contains i && !(after sy τ i).contains j
  | _, _ => false

theorem raceAt_racy {sy : Bool} {τ : List (Nat × Ev L M)} {x : L} {i j : Nat} (h : raceAt sy τ x i j = true) : Racy sy τ x := by
  unfold raceAt at h
  split at h
  · next a b ha hb =>
    simp only [Bool.and_eq_true, Bool.or_eq_true, decide_eq_true_eq, Bool.not_eq_true'] at h
    obtain ⟨⟨⟨⟨⟨⟨h1, h2⟩, h3⟩, h4⟩, h5⟩, h6⟩, h7⟩ := h
    refine ⟨i, j, a, b, h1, ha, hb, h2, h3, h4, not_before (fun k => (after sy τ i).contains k) ?_ h6 h7⟩
    intro j b hb i a ha lt ho hs
    have h := List.all_eq_true.1 (List.all_eq_true.1 h5 j (List.mem_range.2 (get_lt hb))) i (List.mem_range.2 lt)
    simp only [ha, hb, ho] at h
    simp only [Bool.not_true, Bool.false_or, Bool.or_eq_true, Bool.not_eq_true'] at h
    rcases h with h | h
    · rw [hs] at h
      cases h
    · exact h
  · cases h

/-! ### For executions -/

/-- Thread `i` makes `n` steps. -/
def gos (i n : Nat) : List Op := List.replicate n (.go i)

/-- Thread `i` leaves out the next `n` statements of a block. -/
def skips (i n : Nat) : List Op := (List.replicate n [Op.go i, Op.leave i]).flatten

end Verif.Race
