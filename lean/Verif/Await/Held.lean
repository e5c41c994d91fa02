import Verif.Await.Lemmas

/-!
What the bodies keep true of the members stays true, and is true of whatever calls made later see.
-/

namespace Verif.Await

variable {S Q A R : Type}

/-- The body keeps `P` true of the members. -/
def KeepsP (P : S → Prop) : Body S Q A R → Prop
  | .ret _ => True
  | .arg k => KeepsP P k
  | .own u k => (∀ s, P s → P (u s)) ∧ ∀ s, KeepsP P (k s)
  | .ask _ k => ∀ a, KeepsP P (k a)

/-- The same where a call stands. -/
def KeepsSt (P : S → Prop) : St S Q A R → Prop
  | .run b => KeepsP P b
  | .check _ k | .wait _ k => ∀ a, KeepsP P (k a)
  | .over _ => True

/-- `P` is true now; calls from number `n` on have never seen anything else; and no call will change it. -/
structure Held (P : S → Prop) (n : Nat) (s : Sys S Q A R) : Prop where
  own : P s.own
  saw : ∀ (i : Nat) (x : Call S Q A R), n ≤ i → s.calls[i]? = some x → ∀ s', Ev.saw s' ∈ x.path → P s'
  keeps : ∀ (i : Nat) (x : Call S Q A R), s.calls[i]? = some x → KeepsSt P x.st

/-- What is done from outside keeps `P` true. -/
def OpKeeps (P : S → Prop) : Op S Q A R → Prop
  | .call b => KeepsP P b
  | .change u => ∀ s, P s → P (u s)
  | _ => True

theorem held_set {P : S → Prop} {n : Nat} {s : Sys S Q A R} (h : Held P n s) {i : Nat} {x : Call S Q A R} (hi : s.calls[i]? = some x) (y : Call S Q A R)
    (own : S) (ho : P own) (cells : List (Option A)) (hs : n ≤ i → ∀ s', Ev.saw s' ∈ y.path → P s') (hk : KeepsSt P y.st) :
    Held P n (⟨own, s.alive, cells, s.calls.set i y, s.ub⟩ : Sys S Q A R) := by
  refine ⟨ho, fun j z hj hz => ?_, fun j z hz => ?_⟩
  · rcases get_set hi hz with ⟨rfl, rfl⟩ | ⟨_, hz⟩
    · exact hs hj
    · exact h.saw j z hj hz
  · rcases get_set hi hz with ⟨_, rfl⟩ | ⟨_, hz⟩
    · exact hk
    · exact h.keeps j z hz

theorem held_go {P : S → Prop} {n : Nat} {s : Sys S Q A R} (h : Held P n s) {i : Nat} {x : Call S Q A R} (hi : s.calls[i]? = some x) : Held P n (s.go i x) := by
  have hx := h.keeps i x hi
  have hs := fun hn => h.saw i x hn hi
  have snoc : ∀ (e : Ev S Q A), (∀ s', e = .saw s' → P s') → n ≤ i → ∀ s', Ev.saw s' ∈ x.path ++ [e] → P s' := by
    intro e he hn s' hs'
    rcases List.mem_append.1 hs' with hs' | hs'
    · exact hs hn s' hs'
    · exact he s' (List.mem_singleton.1 hs').symm
  unfold Sys.go
  split
  · exact held_set h hi _ _ h.own _ hs trivial
  · rename_i k hst
    rw [hst] at hx
    split
    · exact held_set h hi _ _ h.own _ hs hx
    · exact ⟨h.own, h.saw, h.keeps⟩
  · rename_i u k hst
    rw [hst] at hx
    split
    · exact held_set h hi _ _ (hx.1 _ h.own) _ (snoc _ fun s' he => by cases he; exact h.own) (hx.2 _)
    · exact ⟨h.own, h.saw, h.keeps⟩
  · rename_i q k hst
    rw [hst] at hx
    split
    · exact held_set h hi _ _ h.own _ (snoc _ fun s' he => by cases he) hx
    · exact ⟨h.own, h.saw, h.keeps⟩
  · rename_i c k hst
    rw [hst] at hx
    split
    · exact held_set h hi _ _ h.own _ (snoc _ fun s' he => by cases he) (hx _)
    · exact held_set h hi _ _ h.own _ hs hx
  · rename_i c k hst
    rw [hst] at hx
    split
    · exact held_set h hi _ _ h.own _ (snoc _ fun s' he => by cases he) (hx _)
    · exact h
  · exact h

theorem held_step {P : S → Prop} {n : Nat} {s : Sys S Q A R} (h : Held P n s) (op : Op S Q A R) (hop : OpKeeps P op) : Held P n (s.step op) := by
  unfold Sys.step
  split
  · exact h
  · cases op with
    | call b =>
      dsimp only
      split
      · have hz : ∀ (j : Nat) (z : Call S Q A R), (s.calls ++ [⟨b, .run b, false, true, []⟩])[j]? = some z → s.calls[j]? = some z ∨ z = ⟨b, .run b, false, true, []⟩ := by
          intro j z hz
          rcases Nat.lt_or_ge j s.calls.length with hj | hj
          · rw [List.getElem?_append_left hj] at hz
            exact .inl hz
          · rw [List.getElem?_append_right hj] at hz
            right
            cases hjj : j - s.calls.length with
            | zero => rw [hjj] at hz; exact (Option.some.inj hz).symm
            | succ m => rw [hjj] at hz; cases hz
        refine ⟨h.own, fun j z hn hj => ?_, fun j z hj => ?_⟩
        · rcases hz j z hj with hj | rfl
          · exact h.saw j z hn hj
          · intro s' hs'; cases hs'
        · rcases hz j z hj with hj | rfl
          · exact h.keeps j z hj
          · exact hop
      · exact h
    | go i =>
      dsimp only
      split
      · rename_i x hx; exact held_go h hx
      · exact h
    | fill c a => dsimp only; split <;> exact ⟨h.own, h.saw, h.keeps⟩
    | drop i =>
      dsimp only
      split
      · rename_i x hx
        split
        · exact held_set h hx _ _ h.own _ (fun hn => h.saw i x hn hx) (h.keeps i x hx)
        · exact h
      · exact h
    | change u => dsimp only; split <;> first | exact ⟨hop _ h.own, h.saw, h.keeps⟩ | exact h
    | destroy => dsimp only; split <;> first | exact ⟨h.own, h.saw, h.keeps⟩ | exact h

theorem held_run {P : S → Prop} {n : Nat} (ops : List (Op S Q A R)) : ∀ (s : Sys S Q A R), Held P n s → (∀ op ∈ ops, OpKeeps P op) → Held P n (s.run ops) := by
  induction ops with
  | nil => intro s h _; exact h
  | cons op ops ih => intro s h hops; exact ih _ (held_step h op (hops op List.mem_cons_self)) fun o ho => hops o (List.mem_cons_of_mem _ ho)

theorem held_init {P : S → Prop} {s0 : S} (h : P s0) : Held P 0 (Sys.init s0 : Sys S Q A R) :=
  ⟨h, fun _ _ _ hx => (by cases hx), fun _ _ hx => by cases hx⟩

end Verif.Await
