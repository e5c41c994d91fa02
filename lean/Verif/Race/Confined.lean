import Verif.Race.Sound

/-!
A third way of being free of races: a member that only one thread ever touches.
-/

set_option linter.unusedSectionVars false

namespace Verif.Race

variable {L M K : Type} [DecidableEq L] [DecidableEq M] [DecidableEq K]

/-- The code neither calls function `k` nor starts a thread with it. -/
def Code.shuns (k : K) : Code L M K → Bool
  | .seq a b => a.shuns k && b.shuns k
  | .guard _ a => a.shuns k
  | .loop a => a.shuns k
  | .call j => !decide (j = k)
  | .spawn j => !decide (j = k)
  | _ => true

/-- The code does not touch `x`. -/
def Code.avoids (x : L) : Code L M K → Bool
  | .read y => !decide (y = x)
  | .write y => !decide (y = x)
  | .seq a b => a.avoids x && b.avoids x
  | .guard _ a => a.avoids x
  | .loop a => a.avoids x
  | _ => true

/-- What one step does to the thread that makes it: its first item, what comes in its place, the threads that are started and the event seen. `n` is the number of threads. -/
inductive Small (prog : K → Code L M K) (n : Nat) : Item L M K → List (Item L M K) → List (List (Item L M K)) → List (Ev L M) → Prop where
  | gone (c) : Small prog n (.code c) [] [] []
  | read (x) : Small prog n (.code (.read x)) [] [] [.read x]
  | write (x) : Small prog n (.code (.write x)) [] [] [.write x]
  | sync (x) : Small prog n (.code (.sync x)) [] [] [.sync x]
  | seq (a b) : Small prog n (.code (.seq a b)) [.code a, .code b] [] []
  | guard (m a) : Small prog n (.code (.guard m a)) [.code a, .rel m] [] [.lock m]
  | loop (a) : Small prog n (.code (.loop a)) [.code a, .code (.loop a)] [] []
  | call (k) : Small prog n (.code (.call k)) [.code (prog k)] [] []
  | spawn (k) : Small prog n (.code (.spawn k)) [] [[.code (prog k)]] [.spawn n]
  | rel (m) : Small prog n (.rel m) [] [] [.unlock m]

theorem step_small (prog : K → Code L M K) (s : Sys L M K) (op : Op) : s.step prog op = s ∨
    ∃ i it r new more evs, s.threads[i]? = some (it :: r) ∧ Small prog s.threads.length it new more evs ∧
      (s.step prog op).threads = s.threads.set i (new ++ r) ++ more ∧ (s.step prog op).trace = s.trace ++ evs.map (fun e => (i, e)) := by
  cases op with
  | leave i =>
    simp only [Sys.step, Sys.leave]
    split
    · next c r h => exact .inr ⟨i, _, r, [], [], [], h, .gone c, by simp, by simp⟩
    · exact .inl rfl
  | go i =>
    simp only [Sys.step, Sys.go]
    split
    · next c r h =>
      cases c with
      | skip => exact .inr ⟨i, _, r, [], [], [], h, .gone _, by simp, by simp⟩
      | read x => exact .inr ⟨i, _, r, [], [], [_], h, .read x, by simp [Sys.did], by simp [Sys.did]⟩
      | write x => exact .inr ⟨i, _, r, [], [], [_], h, .write x, by simp [Sys.did], by simp [Sys.did]⟩
      | sync x => exact .inr ⟨i, _, r, [], [], [_], h, .sync x, by simp [Sys.did], by simp [Sys.did]⟩
      | seq a b => exact .inr ⟨i, _, r, _, [], [], h, .seq a b, by simp, by simp⟩
      | guard m a =>
        by_cases hm : s.holder m = none
        · exact .inr ⟨i, _, r, _, [], [_], h, .guard m a, by simp [hm, Sys.did], by simp [hm, Sys.did]⟩
        · exact .inl (by simp [hm])
      | loop a => exact .inr ⟨i, _, r, _, [], [], h, .loop a, by simp, by simp⟩
      | call k => exact .inr ⟨i, _, r, _, [], [], h, .call k, by simp, by simp⟩
      | spawn k => exact .inr ⟨i, _, r, [], _, [_], h, .spawn k, by simp, by simp⟩
    · next m r h => exact .inr ⟨i, _, r, [], [], [_], h, .rel m, by simp [Sys.did], by simp [Sys.did]⟩
    · exact .inl rfl

def Item.okFor (p : Code L M K → Bool) : Item L M K → Bool
  | .code c => p c
  | .rel _ => true

/-- Neither touches `x` nor starts the thread that does. -/
def Code.outside (x : L) (k : K) (c : Code L M K) : Bool := c.avoids x && c.shuns k

variable {sy : Bool} {x : L} {k₀ : K}

theorem Small.shuns {prog : K → Code L M K} {n : Nat} {it new more evs} (h : Small prog n it new more evs) (hp : ∀ k, (prog k).shuns k₀ = true) (hi : it.okFor (Code.shuns k₀) = true) :
    ∀ j ∈ new, j.okFor (Code.shuns k₀) = true := by
  cases h <;> simp_all [Item.okFor, Code.shuns]

theorem Small.outside {prog : K → Code L M K} {n : Nat} {it new more evs} (h : Small prog n it new more evs) (hp : ∀ k, k ≠ k₀ → (prog k).outside x k₀ = true)
    (hi : it.okFor (Code.outside x k₀) = true) : (∀ j ∈ new, j.okFor (Code.outside x k₀) = true) ∧ (∀ e ∈ evs, ¬ e.touches x) := by
  cases h <;> simp_all [Item.okFor, Code.outside, Code.shuns, Code.avoids, Ev.touches]

theorem Small.more {prog : K → Code L M K} {n : Nat} {it new more evs} (h : Small prog n it new more evs) (hp : ∀ k, k ≠ k₀ → (prog k).outside x k₀ = true)
    (hi : it.okFor (Code.shuns k₀) = true) : ∀ t ∈ more, ∀ j ∈ t, j.okFor (Code.outside x k₀) = true := by
  cases h <;> simp_all [Item.okFor, Code.shuns]

theorem outside_shuns {it : Item L M K} (h : it.okFor (Code.outside x k₀) = true) : it.okFor (Code.shuns k₀) = true := by
  cases it <;> simp_all [Item.okFor, Code.outside]

/-- Before the thread is started: the first thread is to start it, nobody touches `x`. After: only thread `t` may touch `x`, and nobody starts another. -/
def Alone (x : L) (k₀ : K) (s : Sys L M K) : Prop :=
  ((∃ a b, s.threads[0]? = some (a ++ .code (.spawn k₀) :: b) ∧ (∀ j ∈ a ++ b, j.okFor (Code.outside x k₀) = true) ∧
      (∀ (i : Nat) l, i ≠ 0 → s.threads[i]? = some l → ∀ j ∈ l, j.okFor (Code.outside x k₀) = true)) ∧ (∀ e ∈ s.trace, ¬ e.2.touches x)) ∨
  (∃ t, (∀ (i : Nat) l, i ≠ t → s.threads[i]? = some l → ∀ j ∈ l, j.okFor (Code.outside x k₀) = true) ∧ (∀ l, s.threads[t]? = some l → ∀ j ∈ l, j.okFor (Code.shuns k₀) = true) ∧
    ∀ e ∈ s.trace, e.2.touches x → e.1 = t)

theorem Alone.sound {s : Sys L M K} (h : Alone x k₀ s) : ¬ Racy sy s.trace x := by
  rintro ⟨i, j, a, b, lt, ha, hb, ta, tb, _, nh⟩
  rcases h with ⟨_, h⟩ | ⟨t, _, _, h⟩
  · exact h a (List.mem_of_getElem? ha) ta
  · exact nh (HB.po lt ha hb (by rw [h a (List.mem_of_getElem? ha) ta, h b (List.mem_of_getElem? hb) tb]))

/-- Where a thread of the next state comes from. -/
theorem threads_next {α : Type} {l : List (List α)} {i : Nat} {it : α} {r new : List α} {more : List (List α)} (h : l[i]? = some (it :: r)) {j : Nat} {t : List α}
    (hj : (l.set i (new ++ r) ++ more)[j]? = some t) : (j = i ∧ t = new ++ r) ∨ (j ≠ i ∧ l[j]? = some t) ∨ (l.length ≤ j ∧ t ∈ more) := by
  have hi := get_lt h
  by_cases hlt : j < l.length
  · rw [List.getElem?_append_left (by simpa using hlt)] at hj
    by_cases hji : j = i
    · subst hji
      rw [List.getElem?_set_self hlt] at hj
      cases hj
      exact .inl ⟨rfl, rfl⟩
    · rw [List.getElem?_set_ne (Ne.symm hji)] at hj
      exact .inr (.inl ⟨hji, hj⟩)
  · rw [List.getElem?_append_right (by simpa using Nat.le_of_not_lt hlt)] at hj
    exact .inr (.inr ⟨Nat.le_of_not_lt hlt, List.mem_of_getElem? hj⟩)

theorem Alone.step {s : Sys L M K} (prog : K → Code L M K) (hp : ∀ k, k ≠ k₀ → (prog k).outside x k₀ = true) (h0 : (prog k₀).shuns k₀ = true) (h : Alone x k₀ s) (op : Op) :
    Alone x k₀ (s.step prog op) := by
  have hs : ∀ k, (prog k).shuns k₀ = true := by
    intro k
    by_cases hk : k = k₀
    · rw [hk]
      exact h0
    · have := hp k hk
      simp only [Code.outside, Bool.and_eq_true] at this
      exact this.2
  rcases step_small prog s op with he | ⟨i, it, r, new, more, evs, hi, sm, ht, htr⟩
  · rw [he]
    exact h
  rcases h with ⟨⟨a, b, h0t, hab, hoth⟩, htc⟩ | ⟨t, hoth, hown, htc⟩
  · by_cases hi0 : i = 0
    · subst hi0
      rw [h0t] at hi
      cases a with
      | nil =>
        simp only [List.nil_append, Option.some.injEq, List.cons.injEq] at hi
        obtain ⟨rfl, rfl⟩ := hi
        simp only [List.nil_append] at h0t hab
        -- the thread is started, or the statement left out
        cases sm with
        | gone =>
          refine .inr ⟨0, ?_, ?_, ?_⟩
          · intro i l hi hl j hj
            rw [ht] at hl
            rcases threads_next h0t hl with ⟨h, _⟩ | ⟨_, hl⟩ | ⟨_, hm⟩
            · exact absurd h hi
            · exact hoth i l hi hl j hj
            · cases hm
          · intro l hl j hj
            rw [ht] at hl
            rcases threads_next h0t hl with ⟨_, rfl⟩ | ⟨h, _⟩ | ⟨_, hm⟩
            · exact outside_shuns (hab j hj)
            · exact absurd rfl h
            · cases hm
          · intro e he htx
            rw [htr] at he
            simp only [List.map_nil, List.append_nil] at he
            exact absurd htx (htc e he)
        | spawn =>
          refine .inr ⟨s.threads.length, ?_, ?_, ?_⟩
          · intro i l hi hl j hj
            have hlt := get_lt hl
            rw [ht] at hl hlt
            rcases threads_next h0t hl with ⟨_, rfl⟩ | ⟨h, hl⟩ | ⟨h, _⟩
            · exact hab j hj
            · exact hoth i l h hl j hj
            · simp at hlt
              omega
          · intro l hl j hj
            rw [ht] at hl
            rcases threads_next h0t hl with ⟨h, _⟩ | ⟨_, hl⟩ | ⟨_, hm⟩
            · have := get_lt h0t
              omega
            · have := get_lt hl
              omega
            · rw [List.mem_singleton.1 hm] at hj
              rw [List.mem_singleton.1 hj]
              exact h0
          · intro e he htx
            rw [htr] at he
            rcases List.mem_append.1 he with he | he
            · exact absurd htx (htc e he)
            · simp only [List.map_cons, List.map_nil, List.mem_singleton] at he
              subst he
              rcases htx with h | h <;> cases h
      | cons a0 a =>
        simp only [List.cons_append, Option.some.injEq, List.cons.injEq] at hi
        obtain ⟨rfl, rfl⟩ := hi
        have hit : a0.okFor (Code.outside x k₀) = true := hab a0 (by simp)
        obtain ⟨hnew, hev⟩ := sm.outside hp hit
        have hmore := sm.more hp (outside_shuns hit)
        refine .inl ⟨⟨new ++ a, b, ?_, ?_, ?_⟩, ?_⟩
        · rw [ht, List.getElem?_append_left (by simpa using get_lt h0t), List.getElem?_set_self (get_lt h0t), List.append_assoc]
        · intro j hj
          rcases List.mem_append.1 hj with hj | hj
          · rcases List.mem_append.1 hj with hj | hj
            · exact hnew j hj
            · exact hab j (by simp [hj])
          · exact hab j (by simp [hj])
        · intro i l hi hl j hj
          rw [ht] at hl
          rcases threads_next h0t hl with ⟨h, _⟩ | ⟨_, hl⟩ | ⟨_, hm⟩
          · exact absurd h hi
          · exact hoth i l hi hl j hj
          · exact hmore l hm j hj
        · intro e he
          rw [htr] at he
          rcases List.mem_append.1 he with he | he
          · exact htc e he
          · obtain ⟨e', he', rfl⟩ := List.mem_map.1 he
            exact hev e' he'
    · have hit : it.okFor (Code.outside x k₀) = true := hoth i _ hi0 hi it (by simp)
      obtain ⟨hnew, hev⟩ := sm.outside hp hit
      have hmore := sm.more hp (outside_shuns hit)
      refine .inl ⟨⟨a, b, ?_, hab, ?_⟩, ?_⟩
      · rw [ht, List.getElem?_append_left (by simpa using get_lt h0t), List.getElem?_set_ne hi0]
        exact h0t
      · intro i' l hi' hl j hj
        rw [ht] at hl
        rcases threads_next hi hl with ⟨_, rfl⟩ | ⟨_, hl⟩ | ⟨_, hm⟩
        · rcases List.mem_append.1 hj with hj | hj
          · exact hnew j hj
          · exact hoth i _ hi0 hi j (by simp [hj])
        · exact hoth i' l hi' hl j hj
        · exact hmore l hm j hj
      · intro e he
        rw [htr] at he
        rcases List.mem_append.1 he with he | he
        · exact htc e he
        · obtain ⟨e', he', rfl⟩ := List.mem_map.1 he
          exact hev e' he'
  · have hsh : it.okFor (Code.shuns k₀) = true := by
      by_cases hit : i = t
      · subst hit
        exact hown _ hi it (by simp)
      · exact outside_shuns (hoth i _ hit hi it (by simp))
    have hmore := sm.more hp hsh
    refine .inr ⟨t, ?_, ?_, ?_⟩
    · intro i' l hi' hl j hj
      rw [ht] at hl
      rcases threads_next hi hl with ⟨rfl, rfl⟩ | ⟨_, hl⟩ | ⟨_, hm⟩
      · rcases List.mem_append.1 hj with hj | hj
        · exact (sm.outside hp (hoth i' _ hi' hi it (by simp))).1 j hj
        · exact hoth i' _ hi' hi j (by simp [hj])
      · exact hoth i' l hi' hl j hj
      · exact hmore l hm j hj
    · intro l hl j hj
      rw [ht] at hl
      rcases threads_next hi hl with ⟨rfl, rfl⟩ | ⟨_, hl⟩ | ⟨_, hm⟩
      · rcases List.mem_append.1 hj with hj | hj
        · exact sm.shuns hs hsh j hj
        · exact hown _ hi j (by simp [hj])
      · exact hown l hl j hj
      · exact outside_shuns (hmore l hm j hj)
    · intro e he htx
      rw [htr] at he
      rcases List.mem_append.1 he with he | he
      · exact htc e he htx
      · obtain ⟨e', he', rfl⟩ := List.mem_map.1 he
        by_cases hit : i = t
        · exact hit
        · exact absurd htx ((sm.outside hp (hoth i _ hit hi it (by simp))).2 e' he')

/-- A member that only the code of one function touches, which is run by one thread: there is no race on it. -/
theorem alone_sound (prog : K → Code L M K) (a b : List (Code L M K)) (hp : ∀ k, k ≠ k₀ → (prog k).outside x k₀ = true) (h0 : (prog k₀).shuns k₀ = true)
    (hab : ∀ c ∈ a ++ b, c.outside x k₀ = true) (ops : List Op) : ¬ Racy sy ((Sys.init (a ++ .spawn k₀ :: b)).run prog ops).trace x := by
  suffices h : ∀ (ops : List Op) (s : Sys L M K), Alone x k₀ s → Alone x k₀ (s.run prog ops) by
    refine (h ops _ (.inl ⟨⟨a.map .code, b.map .code, by simp [Sys.init], ?_, ?_⟩, by simp [Sys.init]⟩)).sound
    · intro j hj
      rw [← List.map_append] at hj
      obtain ⟨c, hc, rfl⟩ := List.mem_map.1 hj
      exact hab c hc
    · intro i l hi hl
      cases i with
      | zero => exact absurd rfl hi
      | succ i => simp [Sys.init] at hl
  intro ops
  induction ops with
  | nil => exact fun s h => h
  | cons op ops ih => exact fun s h => ih _ (h.step prog hp h0 op)

end Verif.Race
