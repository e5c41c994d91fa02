import Verif.Await.Model

/-!
The invariants of the coroutine machine.
-/

namespace Verif.Await

variable {S Q A R : Type}

/-- `Ends b evs r`: the body `b`, seeing and doing `evs`, ends with `r`. Every `got` answers the request sent just before it. -/
def Ends : Body S Q A R → List (Ev S Q A) → R → Prop
  | .ret r', evs, r => evs = [] ∧ r' = r
  | .arg k, evs, r => Ends k evs r
  | .own _ k, evs, r => ∃ s rest, evs = .saw s :: rest ∧ Ends (k s) rest r
  | .ask q k, evs, r => ∃ c a rest, evs = .sent c q :: .got c a :: rest ∧ Ends (k a) rest r

/-- The requests in a path. -/
def sentOf : List (Ev S Q A) → List Nat
  | [] => []
  | .sent c _ :: l => c :: sentOf l
  | _ :: l => sentOf l

theorem sentOf_append (a b : List (Ev S Q A)) : sentOf (a ++ b) = sentOf a ++ sentOf b := by
  induction a with
  | nil => rfl
  | cons e l ih => cases e <;> simp [sentOf, ih]

/-- How the body goes on from where the call stands. -/
def Tail (p : Body S Q A R) (path : List (Ev S Q A)) : St S Q A R → Prop
  | .run b => ∀ evs r, Ends b evs r → Ends p (path ++ evs) r
  | .check c k | .wait c k => ∀ a evs r, Ends (k a) evs r → Ends p (path ++ .got c a :: evs) r
  | .over r => Ends p path r

/-- What holds of a call beside the futures. -/
structure Tr (cells : List (Option A)) (x : Call S Q A R) : Prop where
  tail : Tail x.prog x.path x.st
  got : ∀ c a, Ev.got c a ∈ x.path → cells[c]? = some (some a)
  sent : ∀ c ∈ sentOf x.path, c < cells.length
  waits : ∀ c k, x.st = .check c k ∨ x.st = .wait c k → c ∈ sentOf x.path

structure Inv (s : Sys S Q A R) : Prop where
  tr : ∀ (i : Nat) (x : Call S Q A R), s.calls[i]? = some x → Tr s.cells x
  perm : (s.calls.flatMap fun x => sentOf x.path).Perm (List.range s.cells.length)

theorem get_set {T : Type} {l : List T} {i j : Nat} {x y z : T} (hi : l[i]? = some x) (h : (l.set i y)[j]? = some z) :
    (j = i ∧ z = y) ∨ (j ≠ i ∧ l[j]? = some z) := by
  by_cases hij : j = i
  · subst hij
    left
    have hlt : j < l.length := by
      rcases Nat.lt_or_ge j l.length with h' | h'
      · exact h'
      · rw [List.getElem?_eq_none h'] at hi; cases hi
    rw [List.getElem?_set_self hlt] at h
    exact ⟨rfl, (Option.some.inj h).symm⟩
  · right
    rw [List.getElem?_set_ne (fun e => hij e.symm)] at h
    exact ⟨hij, h⟩

theorem set_get {T : Type} {l : List T} {i : Nat} {x : T} (hi : l[i]? = some x) (y : T) : (l.set i y)[i]? = some y := by
  have hlt : i < l.length := by
    rcases Nat.lt_or_ge i l.length with h' | h'
    · exact h'
    · rw [List.getElem?_eq_none h'] at hi; cases hi
  exact List.getElem?_set_self hlt

theorem split_at {T : Type} {l : List T} {i : Nat} {x : T} (hi : l[i]? = some x) (y : T) :
    ∃ a b, l = a ++ x :: b ∧ l.set i y = a ++ y :: b := by
  induction l generalizing i with
  | nil => cases hi
  | cons z l ih =>
    cases i with
    | zero => cases hi; exact ⟨[], l, rfl, rfl⟩
    | succ i =>
      obtain ⟨a, b, h1, h2⟩ := ih (i := i) hi
      exact ⟨z :: a, b, by rw [h1]; rfl, by simp [h2]⟩

/-- Replacing a call by one with the same requests. -/
theorem flat_same {l : List (Call S Q A R)} {i : Nat} {x : Call S Q A R} (hi : l[i]? = some x) (y : Call S Q A R)
    (h : sentOf y.path = sentOf x.path) : (l.set i y).flatMap (fun x => sentOf x.path) = l.flatMap fun x => sentOf x.path := by
  obtain ⟨a, b, h1, h2⟩ := split_at hi y
  rw [h2, h1]
  simp [List.flatMap_append, h]

theorem flat_more {l : List (Call S Q A R)} {i : Nat} {x : Call S Q A R} (hi : l[i]? = some x) (y : Call S Q A R) (n : Nat)
    (h : sentOf y.path = sentOf x.path ++ [n]) :
    ((l.set i y).flatMap fun x => sentOf x.path).Perm ((l.flatMap fun x => sentOf x.path) ++ [n]) := by
  obtain ⟨a, b, h1, h2⟩ := split_at hi y
  rw [h2, h1]
  simp only [List.flatMap_append, List.flatMap_cons, h, List.append_assoc]
  exact List.Perm.append_left _ (List.Perm.append_left _ List.perm_append_comm)

theorem Tr.mono {cells cells' : List (Option A)} {x : Call S Q A R} (h : Tr cells x)
    (hg : ∀ (c : Nat) (a : A), cells[c]? = some (some a) → cells'[c]? = some (some a)) (hl : cells.length ≤ cells'.length) : Tr cells' x :=
  ⟨h.tail, fun c a hm => hg c a (h.got c a hm), fun c hm => Nat.lt_of_lt_of_le (h.sent c hm) hl, h.waits⟩

/-- Replacing call `i` by one that is right and has the same requests. -/
theorem Inv.set {s : Sys S Q A R} (h : Inv s) {i : Nat} {x : Call S Q A R} (hi : s.calls[i]? = some x) (y : Call S Q A R) (own : S) (al u : Bool)
    (hy : Tr s.cells y) (hp : sentOf y.path = sentOf x.path) : Inv (⟨own, al, s.cells, s.calls.set i y, u⟩ : Sys S Q A R) := by
  refine ⟨fun j z hz => ?_, ?_⟩
  · rcases get_set hi hz with ⟨_, rfl⟩ | ⟨_, hz⟩
    · exact hy
    · exact h.tr j z hz
  · show ((s.calls.set i y).flatMap fun x => sentOf x.path).Perm _
    rw [flat_same hi y hp]
    exact h.perm

theorem sentOf_saw (p : List (Ev S Q A)) (s : S) : sentOf (p ++ [.saw s]) = sentOf p := by simp [sentOf_append, sentOf]
theorem sentOf_got (p : List (Ev S Q A)) (c : Nat) (a : A) : sentOf (p ++ [.got c a]) = sentOf p := by simp [sentOf_append, sentOf]
theorem sentOf_sent (p : List (Ev S Q A)) (c : Nat) (q : Q) : sentOf (p ++ [.sent c q]) = sentOf p ++ [c] := by simp [sentOf_append, sentOf]

theorem Inv.got {s : Sys S Q A R} (h : Inv s) {i : Nat} {x : Call S Q A R} (hi : s.calls[i]? = some x) {c : Nat} {k : A → Body S Q A R}
    (hst : x.st = .check c k ∨ x.st = .wait c k) {a : A} (ha : s.cells[c]? = some (some a)) :
    Inv { s with calls := s.calls.set i { x with st := .run (k a), path := x.path ++ [.got c a] } } := by
  have hx := h.tr i x hi
  refine h.set hi _ _ _ _ ⟨?_, ?_, ?_, ?_⟩ (sentOf_got _ _ _)
  · have ht := hx.tail
    intro evs r he
    have : Ends x.prog (x.path ++ .got c a :: evs) r := by
      rcases hst with hst | hst <;> rw [hst] at ht <;> exact ht a evs r he
    simpa using this
  · intro c' a' hm
    rcases List.mem_append.1 hm with hm | hm
    · exact hx.got c' a' hm
    · simp at hm; obtain ⟨rfl, rfl⟩ := hm; exact ha
  · intro c' hm
    rw [sentOf_got] at hm
    exact hx.sent c' hm
  · intro c' k' hm
    rcases hm with hm | hm <;> cases hm

theorem Inv.go {s : Sys S Q A R} (h : Inv s) {i : Nat} {x : Call S Q A R} (hi : s.calls[i]? = some x) : Inv (s.go i x) := by
  have hx := h.tr i x hi
  have ht := hx.tail
  have hub : ∀ u, Inv { s with ub := u } := fun u => ⟨h.tr, h.perm⟩
  unfold Sys.go
  split
  · rename_i r hst
    rw [hst] at ht
    refine h.set hi _ _ _ _ ⟨?_, hx.got, hx.sent, fun c k hm => by rcases hm with hm | hm <;> cases hm⟩ rfl
    have := ht [] r ⟨rfl, rfl⟩
    rw [List.append_nil] at this
    exact this
  · rename_i k hst
    rw [hst] at ht
    split
    · exact h.set hi _ _ _ _ ⟨fun evs r he => ht evs r he, hx.got, hx.sent, fun c k hm => by rcases hm with hm | hm <;> cases hm⟩ rfl
    · exact hub _
  · rename_i u k hst
    rw [hst] at ht
    split
    · refine h.set hi _ _ _ _ ⟨?_, ?_, ?_, fun c k hm => by rcases hm with hm | hm <;> cases hm⟩ (sentOf_saw _ _)
      · intro evs r he
        have := ht (.saw s.own :: evs) r ⟨_, _, rfl, he⟩
        simpa using this
      · intro c a hm
        rcases List.mem_append.1 hm with hm | hm
        · exact hx.got c a hm
        · simp at hm
      · intro c hm
        rw [sentOf_saw] at hm
        exact hx.sent c hm
    · exact hub _
  · rename_i q k hst
    rw [hst] at ht
    split
    · refine ⟨fun j z hz => ?_, ?_⟩
      · have hmono : ∀ (c : Nat) (a : A), s.cells[c]? = some (some a) → (s.cells ++ [none])[c]? = some (some a) := by
          intro c a hc
          rw [List.getElem?_append_left]
          · exact hc
          · rcases Nat.lt_or_ge c s.cells.length with h' | h'
            · exact h'
            · rw [List.getElem?_eq_none h'] at hc; cases hc
        rcases get_set hi hz with ⟨_, rfl⟩ | ⟨_, hz⟩
        · refine ⟨?_, ?_, ?_, ?_⟩
          · intro a evs r he
            have := ht (.sent s.cells.length q :: .got s.cells.length a :: evs) r ⟨_, _, _, rfl, he⟩
            simpa using this
          · intro c a hm
            rcases List.mem_append.1 hm with hm | hm
            · exact hmono c a (hx.got c a hm)
            · simp at hm
          · intro c hm
            rw [sentOf_sent] at hm
            rcases List.mem_append.1 hm with hm | hm
            · have := hx.sent c hm
              simp; omega
            · simp at hm; subst hm; simp
          · intro c k' hm
            rcases hm with hm | hm
            · simp at hm
              rw [sentOf_sent]; simp [← hm.1]
            · cases hm
        · exact (h.tr j z hz).mono hmono (by simp)
      · show ((s.calls.set i _).flatMap fun x => sentOf x.path).Perm (List.range (s.cells ++ [none]).length)
        refine (flat_more hi _ s.cells.length (sentOf_sent _ _ _)).trans ?_
        rw [List.length_append, List.length_singleton, List.range_succ]
        exact List.Perm.append_right _ h.perm
    · exact hub _
  · rename_i c k hst
    split
    · rename_i a ha
      exact h.got hi (.inl hst) ha
    · rw [hst] at ht
      refine h.set hi _ _ _ _ ⟨ht, hx.got, hx.sent, ?_⟩ rfl
      intro c' k' hm
      rcases hm with hm | hm
      · cases hm
      · simp at hm
        exact hm.1 ▸ hx.waits c k (.inl hst)
  · rename_i c k hst
    split
    · rename_i a ha
      exact h.got hi (.inr hst) ha
    · exact h
  · exact h

theorem Inv.step {s : Sys S Q A R} (h : Inv s) (op : Op S Q A R) : Inv (s.step op) := by
  unfold Sys.step
  split
  · exact h
  · cases op with
    | call b =>
      dsimp only
      split
      · refine ⟨fun j z hz => ?_, ?_⟩
        · rcases Nat.lt_or_ge j s.calls.length with hj | hj
          · rw [List.getElem?_append_left hj] at hz
            exact h.tr j z hz
          · rw [List.getElem?_append_right hj] at hz
            have : z = ⟨b, .run b, false, true, []⟩ := by
              cases hjj : j - s.calls.length with
              | zero => rw [hjj] at hz; exact (Option.some.inj hz).symm
              | succ n => rw [hjj] at hz; cases hz
            subst this
            exact ⟨fun evs r he => he, fun c a hm => (by cases hm), fun c hm => (by cases hm), fun c k hm => by rcases hm with hm | hm <;> cases hm⟩
        · show ((s.calls ++ [(⟨b, .run b, false, true, []⟩ : Call S Q A R)]).flatMap fun x => sentOf x.path).Perm _
          rw [List.flatMap_append]
          simpa [sentOf] using h.perm
      · exact h
    | go i =>
      dsimp only
      split
      · rename_i x hx; exact h.go hx
      · exact h
    | fill c a =>
      dsimp only
      split
      · rename_i hc
        refine ⟨fun j z hz => (h.tr j z hz).mono ?_ (by simp), ?_⟩
        · intro c' a' hc'
          have hne : c' ≠ c := by rintro rfl; rw [hc] at hc'; cases hc'
          rw [List.getElem?_set_ne (fun e => hne e.symm)]
          exact hc'
        · show _root_.List.Perm _ (List.range (s.cells.set c (some a)).length)
          rw [List.length_set]
          exact h.perm
      · exact h
    | drop i =>
      dsimp only
      split
      · rename_i x hx
        split
        · have hx' := h.tr i x hx
          exact h.set hx _ _ _ _ ⟨hx'.tail, hx'.got, hx'.sent, hx'.waits⟩ rfl
        · exact h
      · exact h
    | change u =>
      dsimp only
      split
      · exact ⟨h.tr, h.perm⟩
      · exact h
    | destroy =>
      dsimp only
      split
      · exact ⟨h.tr, h.perm⟩
      · exact h

theorem run_nil (s : Sys S Q A R) : s.run [] = s := rfl
theorem run_cons (s : Sys S Q A R) (op : Op S Q A R) (ops : List (Op S Q A R)) : s.run (op :: ops) = (s.step op).run ops := rfl
theorem run_append (s : Sys S Q A R) (a b : List (Op S Q A R)) : s.run (a ++ b) = (s.run a).run b := by simp [Sys.run, List.foldl_append]

theorem inv_run (s0 : S) (ops : List (Op S Q A R)) : Inv ((Sys.init s0).run ops) := by
  have : ∀ (ops : List (Op S Q A R)) (s : Sys S Q A R), Inv s → Inv (s.run ops) := by
    intro ops
    induction ops with
    | nil => intro s h; exact h
    | cons op ops ih => intro s h; exact ih _ (h.step op)
  exact this ops _ ⟨fun i x hx => (by cases hx), List.Perm.refl _⟩

/-! ### What a step does to one call -/

/-- What other threads and the caller can do to a call. -/
theorem go_other {s : Sys S Q A R} {i j : Nat} {x y : Call S Q A R} (hi : s.calls[i]? = some x) (hj : s.calls[j]? = some y) (hne : j ≠ i) :
    (s.go i x).calls[j]? = some y := by
  unfold Sys.go
  split <;> (try split) <;> first
    | exact hj
    | (show (s.calls.set i _)[j]? = some y; rw [List.getElem?_set_ne (fun e => hne e.symm)]; exact hj)

/-- A step leaves a call as it is, drops its arguments, or is a step of its own. -/
theorem step_call (s : Sys S Q A R) (op : Op S Q A R) (j : Nat) (y : Call S Q A R) (hj : s.calls[j]? = some y) :
    (s.step op).calls[j]? = some y ∨ (op = .drop j ∧ y.back = true ∧ (s.step op).calls[j]? = some { y with args := false }) ∨
      (op = .go j ∧ s.ub = false ∧ s.step op = s.go j y) := by
  unfold Sys.step
  split
  · exact .inl hj
  · rename_i hub
    cases op with
    | call b =>
      dsimp only
      split
      · left
        show (s.calls ++ _)[j]? = some y
        rw [List.getElem?_append_left]
        · exact hj
        · rcases Nat.lt_or_ge j s.calls.length with h' | h'
          · exact h'
          · rw [List.getElem?_eq_none h'] at hj; cases hj
      · exact .inl hj
    | go i =>
      dsimp only
      split
      · rename_i x hx
        by_cases hij : j = i
        · subst hij
          rw [hj] at hx
          cases hx
          exact .inr (.inr ⟨rfl, by simpa using hub, rfl⟩)
        · exact .inl (go_other hx hj hij)
      · exact .inl hj
    | fill c a =>
      dsimp only
      split <;> exact .inl hj
    | drop i =>
      dsimp only
      split
      · rename_i x hx
        split
        · rename_i hb
          by_cases hij : j = i
          · subst hij
            rw [hj] at hx
            cases hx
            exact .inr (.inl ⟨rfl, hb, set_get hj _⟩)
          · left
            show (s.calls.set i _)[j]? = some y
            rw [List.getElem?_set_ne (fun e => hij e.symm)]
            exact hj
        · exact .inl hj
      · exact .inl hj
    | change u => dsimp only; split <;> exact .inl hj
    | destroy => dsimp only; split <;> exact .inl hj

/-- A future that has ended stays as it is. -/
theorem step_cell (s : Sys S Q A R) (op : Op S Q A R) (c : Nat) (a : A) (hc : s.cells[c]? = some (some a)) : (s.step op).cells[c]? = some (some a) := by
  have hlt : c < s.cells.length := by
    rcases Nat.lt_or_ge c s.cells.length with h' | h'
    · exact h'
    · rw [List.getElem?_eq_none h'] at hc; cases hc
  unfold Sys.step
  split
  · exact hc
  · cases op with
    | call b => dsimp only; split <;> exact hc
    | go i =>
      dsimp only
      split
      · unfold Sys.go
        split <;> (try split) <;> first
          | exact hc
          | (show (s.cells ++ [none])[c]? = _; rw [List.getElem?_append_left hlt]; exact hc)
      · exact hc
    | fill c' a' =>
      dsimp only
      split
      · rename_i hc'
        have hne : c ≠ c' := by rintro rfl; rw [hc] at hc'; cases hc'
        show (s.cells.set c' _)[c]? = _
        rw [List.getElem?_set_ne (fun e => hne e.symm)]
        exact hc
      · exact hc
    | drop i => dsimp only; split <;> (try split) <;> exact hc
    | change u => dsimp only; split <;> exact hc
    | destroy => dsimp only; split <;> exact hc

theorem run_cell (ops : List (Op S Q A R)) : ∀ (s : Sys S Q A R) (c : Nat) (a : A), s.cells[c]? = some (some a) → (s.run ops).cells[c]? = some (some a) := by
  induction ops with
  | nil => intro s c a h; exact h
  | cons op ops ih => intro s c a h; exact ih _ c a (step_cell s op c a h)

theorem step_ub (s : Sys S Q A R) (op : Op S Q A R) (h : s.ub = true) : s.step op = s := by unfold Sys.step; rw [if_pos h]

theorem run_ub (ops : List (Op S Q A R)) : ∀ (s : Sys S Q A R), s.ub = true → s.run ops = s := by
  induction ops with
  | nil => intro s _; rfl
  | cons op ops ih => intro s h; rw [run_cons, step_ub s op h]; exact ih s h

/-- A call that is over stays over, with the same result and the same path. -/
theorem over_step (s : Sys S Q A R) (op : Op S Q A R) (j : Nat) (y : Call S Q A R) (r : R) (hj : s.calls[j]? = some y) (ho : y.st = .over r) :
    ∃ z : Call S Q A R, (s.step op).calls[j]? = some z ∧ z.st = .over r ∧ z.prog = y.prog ∧ z.path = y.path := by
  rcases step_call s op j y hj with h | ⟨_, _, h⟩ | ⟨_, _, h⟩
  · exact ⟨y, h, ho, rfl, rfl⟩
  · exact ⟨_, h, ho, rfl, rfl⟩
  · rw [h]
    unfold Sys.go
    rw [ho]
    exact ⟨y, hj, ho, rfl, rfl⟩

theorem over_run (ops : List (Op S Q A R)) : ∀ (s : Sys S Q A R) (j : Nat) (y : Call S Q A R) (r : R), s.calls[j]? = some y → y.st = .over r →
    ∃ z : Call S Q A R, (s.run ops).calls[j]? = some z ∧ z.st = .over r ∧ z.prog = y.prog ∧ z.path = y.path := by
  induction ops with
  | nil => intro s j y r hj ho; exact ⟨y, hj, ho, rfl, rfl⟩
  | cons op ops ih =>
    intro s j y r hj ho
    obtain ⟨z, h1, h2, h3, h4⟩ := over_step s op j y r hj ho
    obtain ⟨w, g1, g2, g3, g4⟩ := ih _ j z r h1 h2
    exact ⟨w, g1, g2, g3.trans h3, g4.trans h4⟩

/-! ### Going on -/

/-- The body ends within `n` steps, without another request. -/
def Within : Nat → Body S Q A R → Prop
  | n, .ret _ => 1 ≤ n
  | n, .arg k => 1 ≤ n ∧ Within (n - 1) k
  | n, .own _ k => 1 ≤ n ∧ ∀ s, Within (n - 1) (k s)
  | _, .ask _ _ => False

theorem Within.mono {b : Body S Q A R} : ∀ {n m : Nat}, Within n b → n ≤ m → Within m b := by
  induction b with
  | ret r => intro n m h hm; exact Nat.le_trans h hm
  | arg k ih => intro n m h hm; exact ⟨Nat.le_trans h.1 hm, ih h.2 (by omega)⟩
  | own u k ih => intro n m h hm; exact ⟨Nat.le_trans h.1 hm, fun s => ih s (h.2 s) (by omega)⟩
  | ask q k ih => intro n m h hm; exact h.elim

/-- The steps the thread of call `i` makes. -/
def goes (i : Nat) : List (Op S Q A R) → Nat
  | [] => 0
  | .go j :: l => (if j = i then 1 else 0) + goes i l
  | _ :: l => goes i l

theorem goes_cons_ne (i : Nat) (op : Op S Q A R) (l : List (Op S Q A R)) (h : op ≠ .go i) : goes i (op :: l) = goes i l := by
  cases op with
  | go j => simp only [goes]; rw [if_neg (fun e => h (by rw [e]))]; simp
  | _ => rfl

/-- A call whose body has no request ahead comes to its end within that many steps of its thread, whatever the others do. -/
theorem within_run (ops : List (Op S Q A R)) : ∀ (s : Sys S Q A R) (i n : Nat) (x : Call S Q A R), s.calls[i]? = some x →
    (match x.st with | .run b => Within n b | .over _ => True | _ => False) → n ≤ goes i ops →
    (s.run ops).ub = true ∨ ∃ (y : Call S Q A R) (r : R), (s.run ops).calls[i]? = some y ∧ y.st = .over r := by
  induction ops with
  | nil =>
    intro s i n x hi hw hn
    right
    have hn : n = 0 := by simpa [goes] using hn
    subst hn
    cases hst : x.st with
    | run b =>
      rw [hst] at hw
      cases b with
      | ret r => exact absurd hw (by simp [Within])
      | arg k => exact absurd hw.1 (by simp)
      | own u k => exact absurd hw.1 (by simp)
      | ask q k => exact hw.elim
    | check c k => rw [hst] at hw; exact hw.elim
    | wait c k => rw [hst] at hw; exact hw.elim
    | over r => exact ⟨x, r, hi, hst⟩
  | cons op ops ih =>
    intro s i n x hi hw hn
    cases hst : x.st with
    | check c k => rw [hst] at hw; exact hw.elim
    | wait c k => rw [hst] at hw; exact hw.elim
    | over r =>
      right
      obtain ⟨z, h1, h2, _⟩ := over_run (op :: ops) s i x r hi hst
      exact ⟨z, r, h1, h2⟩
    | run b =>
      rw [hst] at hw
      dsimp only at hw
      rw [run_cons]
      cases hub : s.ub with
      | true =>
        left
        rw [step_ub s op hub, run_ub ops s hub]
        exact hub
      | false =>
        rcases step_call s op i x hi with h | ⟨ho, _, h⟩ | ⟨ho, _, h⟩
        · by_cases hop : op = .go i
          · subst hop
            -- the step was its own, so it did something
            have hs : s.step (.go i) = s.go i x := by
              unfold Sys.step
              rw [if_neg (by simp [hub])]
              dsimp only
              rw [hi]
            rw [hs] at h ⊢
            unfold Sys.go at h ⊢
            rw [hst] at h ⊢
            have hn' : n - 1 ≤ goes i ops := by
              simp [goes] at hn; omega
            cases b with
            | ret r =>
              dsimp only at h ⊢
              exact ih _ i 0 _ (set_get hi _) (by dsimp only) (Nat.zero_le _)
            | arg k =>
              dsimp only at h ⊢
              split
              · exact ih _ i (n - 1) _ (set_get hi _) hw.2 hn'
              · left; exact congrArg Sys.ub (run_ub ops { s with ub := true } rfl)
            | own u k =>
              dsimp only at h ⊢
              split
              · exact ih _ i (n - 1) _ (set_get hi _) (hw.2 _) hn'
              · left; exact congrArg Sys.ub (run_ub ops { s with ub := true } rfl)
            | ask q k => exact hw.elim
          · exact ih _ i n x h (by rw [hst]; exact hw) (by rw [goes_cons_ne i op ops hop] at hn; exact hn)
        · subst ho
          exact ih _ i n _ h (by dsimp only; rw [hst]; exact hw) (by rw [goes_cons_ne i _ ops (by simp)] at hn; exact hn)
        · subst ho
          rw [h]
          unfold Sys.go
          rw [hst]
          have hn' : n - 1 ≤ goes i ops := by
            simp [goes] at hn; omega
          cases b with
          | ret r => exact ih _ i 0 _ (set_get hi _) (by dsimp only) (Nat.zero_le _)
          | arg k =>
            dsimp only
            split
            · exact ih _ i (n - 1) _ (set_get hi _) hw.2 hn'
            · left; exact congrArg Sys.ub (run_ub ops { s with ub := true } rfl)
          | own u k =>
            dsimp only
            split
            · exact ih _ i (n - 1) _ (set_get hi _) (hw.2 _) hn'
            · left; exact congrArg Sys.ub (run_ub ops { s with ub := true } rfl)
          | ask q k => exact hw.elim

/-- A call whose future has ended comes to its end. -/
theorem answered_run (ops : List (Op S Q A R)) : ∀ (s : Sys S Q A R) (i n c : Nat) (k : A → Body S Q A R) (x : Call S Q A R) (a : A),
    s.calls[i]? = some x → (x.st = .check c k ∨ x.st = .wait c k) → s.cells[c]? = some (some a) → Within n (k a) → n + 1 ≤ goes i ops →
    (s.run ops).ub = true ∨ ∃ (y : Call S Q A R) (r : R), (s.run ops).calls[i]? = some y ∧ y.st = .over r := by
  induction ops with
  | nil => intro s i n c k x a _ _ _ _ hn; simp [goes] at hn
  | cons op ops ih =>
    intro s i n c k x a hi hst ha hw hn
    rw [run_cons]
    cases hub : s.ub with
    | true =>
      left
      rw [step_ub s op hub, run_ub ops s hub]
      exact hub
    | false =>
      have own : op = .go i → (s.step op) = { s with calls := s.calls.set i { x with st := .run (k a), path := x.path ++ [.got c a] } } := by
        rintro rfl
        have hs : s.step (.go i) = s.go i x := by
          unfold Sys.step
          rw [if_neg (by simp [hub])]
          dsimp only
          rw [hi]
        rw [hs]
        unfold Sys.go
        rcases hst with hst | hst <;> rw [hst] <;> dsimp only <;> rw [ha]
      by_cases hop : op = .go i
      · rw [own hop]
        refine within_run ops _ i n _ (set_get hi _) hw ?_
        subst hop
        simp [goes] at hn; omega
      · have hn' : n + 1 ≤ goes i ops := by rw [goes_cons_ne i op ops hop] at hn; exact hn
        rcases step_call s op i x hi with h | ⟨ho, _, h⟩ | ⟨ho, _, h⟩
        · exact ih _ i n c k x a h hst (step_cell s op c a ha) hw hn'
        · exact ih _ i n c k _ a h hst (step_cell s op c a ha) hw hn'
        · exact absurd ho hop

/-! ### Undefined behaviour -/

/-- The body reads no parameter (if `a`) and nothing of the client (if `o`). -/
def Free (a o : Bool) : Body S Q A R → Prop
  | .ret _ => True
  | .arg k => a = false ∧ Free a o k
  | .own _ k => o = false ∧ ∀ s, Free a o (k s)
  | .ask _ k => o = false ∧ ∀ x, Free a o (k x)

/-- The body does so only up to its first request. -/
def Neat (a o : Bool) : Body S Q A R → Prop
  | .ret _ => True
  | .arg k => Neat a o k
  | .own _ k => ∀ s, Neat a o (k s)
  | .ask _ k => ∀ x, Free a o (k x)

theorem Free.neat {a o : Bool} {b : Body S Q A R} : Free a o b → Neat a o b := by
  induction b with
  | ret r => intro _; trivial
  | arg k ih => intro h; exact ih h.2
  | own u k ih => intro h s; exact ih s (h.2 s)
  | ask q k ih => intro h x; exact h.2 x

/-- `Neat` for a call under way. -/
def NeatSt (a o : Bool) (x : Call S Q A R) : Prop :=
  match x.st with
  | .run b => if x.back then Free a o b else Neat a o b
  | .check _ k | .wait _ k => ∀ v, Free a o (k v)
  | .over _ => True

def isOver (x : Call S Q A R) : Prop := ∃ r, x.st = .over r

/-- What the invariant says of one call; `d` says whether the client is destroyed. -/
structure Safe (alive : Bool) (x : Call S Q A R) : Prop where
  arg : Neat true false x.prog → NeatSt true false x
  own : Neat false true x.prog → NeatSt false true x
  gone : x.args = false → x.back = true ∧ (isOver x ∨ Neat true false x.prog)
  dead : alive = false → x.back = true ∧ (isOver x ∨ Neat false true x.prog)

/-- What a caller has to keep to: parameters may go early, and the client may be destroyed early, only for calls that allow it. -/
def Kept (s : Sys S Q A R) : Op S Q A R → Prop
  | .drop i => ∀ x : Call S Q A R, s.calls[i]? = some x → isOver x ∨ Neat true false x.prog
  | .destroy => ∀ (i : Nat) (x : Call S Q A R), s.calls[i]? = some x → isOver x ∨ Neat false true x.prog
  | _ => True

/-- `Kept` at every step. -/
def KeptAll : Sys S Q A R → List (Op S Q A R) → Prop
  | _, [] => True
  | s, op :: ops => Kept s op ∧ KeptAll (s.step op) ops

theorem NeatSt.run {a o : Bool} {x : Call S Q A R} {b : Body S Q A R} (hst : x.st = .run b) (h : NeatSt a o x) : Neat a o b := by
  unfold NeatSt at h
  rw [hst] at h
  dsimp only at h
  split at h
  · exact h.neat
  · exact h

theorem NeatSt.run_back {a o : Bool} {x : Call S Q A R} {b : Body S Q A R} (hst : x.st = .run b) (hb : x.back = true) (h : NeatSt a o x) : Free a o b := by
  unfold NeatSt at h
  rw [hst] at h
  dsimp only at h
  rw [if_pos hb] at h
  exact h

/-- One step inside a body keeps `NeatSt`. -/
theorem NeatSt.sub {a o : Bool} {x : Call S Q A R} {b b' : Body S Q A R} (p : List (Ev S Q A)) (hst : x.st = .run b) (h : NeatSt a o x)
    (h1 : Neat a o b → Neat a o b') (h2 : Free a o b → Free a o b') : NeatSt a o { x with st := .run b', path := p } := by
  unfold NeatSt at h ⊢
  rw [hst] at h
  dsimp only at h ⊢
  split at h
  · rename_i hb; rw [if_pos hb]; exact h2 h
  · rename_i hb; rw [if_neg hb]; exact h1 h

def Good (s : Sys S Q A R) : Prop := s.ub = false ∧ ∀ (i : Nat) (x : Call S Q A R), s.calls[i]? = some x → Safe s.alive x

theorem Good.set {s : Sys S Q A R} (h : Good s) {i : Nat} {x : Call S Q A R} (hi : s.calls[i]? = some x) (y : Call S Q A R) (own : S)
    (cells : List (Option A)) (hy : Safe s.alive y) : Good (⟨own, s.alive, cells, s.calls.set i y, s.ub⟩ : Sys S Q A R) := by
  refine ⟨h.1, fun j z hz => ?_⟩
  rcases get_set hi hz with ⟨_, rfl⟩ | ⟨_, hz⟩
  · exact hy
  · exact h.2 j z hz

theorem not_over_run {x : Call S Q A R} (h : ∀ r, x.st ≠ .over r) : ¬ isOver x := fun ⟨r, hr⟩ => h r hr

/-- A step of a call that is not over. -/
theorem Safe.next {al : Bool} {x : Call S Q A R} (h : Safe al x) (hno : ¬ isOver x) (y : Call S Q A R) (hp : y.prog = x.prog) (ha : y.args = x.args)
    (hb : x.back = true → y.back = true) (h1 : NeatSt true false x → NeatSt true false y) (h2 : NeatSt false true x → NeatSt false true y) : Safe al y :=
  ⟨fun hn => h1 (h.arg (hp ▸ hn)), fun hn => h2 (h.own (hp ▸ hn)),
   fun hg => by
    obtain ⟨h3, h4⟩ := h.gone (ha ▸ hg)
    exact ⟨hb h3, .inr (hp ▸ h4.resolve_left hno)⟩,
   fun hd => by
    obtain ⟨h3, h4⟩ := h.dead hd
    exact ⟨hb h3, .inr (hp ▸ h4.resolve_left hno)⟩⟩

theorem Good.go {s : Sys S Q A R} (h : Good s) {i : Nat} {x : Call S Q A R} (hi : s.calls[i]? = some x) : Good (s.go i x) := by
  have hx := h.2 i x hi
  unfold Sys.go
  split
  · rename_i r hst
    refine h.set hi _ _ _ ⟨fun _ => trivial, fun _ => trivial, fun _ => ⟨rfl, .inl ⟨r, rfl⟩⟩, fun _ => ⟨rfl, .inl ⟨r, rfl⟩⟩⟩
  · rename_i k hst
    have hno : ¬ isOver x := not_over_run (by rw [hst]; intro r hr; cases hr)
    split
    · refine h.set hi _ _ _ (hx.next hno _ rfl rfl id (fun g => ?_) fun g => ?_)
      · exact NeatSt.sub x.path hst g id fun f => f.2
      · exact NeatSt.sub x.path hst g id fun f => f.2
    · rename_i ha
      obtain ⟨hb, hk⟩ := hx.gone (by simpa using ha)
      have := NeatSt.run_back hst hb (hx.arg (hk.resolve_left hno))
      exact absurd this.1 (by simp)
  · rename_i u k hst
    have hno : ¬ isOver x := not_over_run (by rw [hst]; intro r hr; cases hr)
    split
    · refine h.set hi _ _ _ (hx.next hno _ rfl rfl id (fun g => ?_) fun g => ?_)
      · exact NeatSt.sub _ hst g (fun f => f _) fun f => f.2 _
      · exact NeatSt.sub _ hst g (fun f => f _) fun f => f.2 _
    · rename_i ha
      obtain ⟨hb, hk⟩ := hx.dead (by simpa using ha)
      have := NeatSt.run_back hst hb (hx.own (hk.resolve_left hno))
      exact absurd this.1 (by simp)
  · rename_i q k hst
    have hno : ¬ isOver x := not_over_run (by rw [hst]; intro r hr; cases hr)
    split
    · refine h.set hi _ _ _ (hx.next hno _ rfl rfl id (fun g => ?_) fun g => ?_)
      · exact fun v => NeatSt.run hst g v
      · exact fun v => NeatSt.run hst g v
    · rename_i ha
      obtain ⟨hb, hk⟩ := hx.dead (by simpa using ha)
      have := NeatSt.run_back hst hb (hx.own (hk.resolve_left hno))
      exact absurd this.1 (by simp)
  · rename_i c k hst
    have hno : ¬ isOver x := not_over_run (by rw [hst]; intro r hr; cases hr)
    have hf : ∀ a o, NeatSt a o x → ∀ v, Free a o (k v) := by
      intro a o g; unfold NeatSt at g; rw [hst] at g; exact g
    split
    · rename_i v hv
      refine h.set hi _ _ _ (hx.next hno _ rfl rfl id (fun g => ?_) fun g => ?_)
      · unfold NeatSt; dsimp only; split; · exact hf _ _ g v
        exact (hf _ _ g v).neat
      · unfold NeatSt; dsimp only; split; · exact hf _ _ g v
        exact (hf _ _ g v).neat
    · exact h.set hi _ _ _ (hx.next hno _ rfl rfl (fun _ => rfl) (fun g => hf _ _ g) fun g => hf _ _ g)
  · rename_i c k hst
    have hno : ¬ isOver x := not_over_run (by rw [hst]; intro r hr; cases hr)
    have hf : ∀ a o, NeatSt a o x → ∀ v, Free a o (k v) := by
      intro a o g; unfold NeatSt at g; rw [hst] at g; exact g
    split
    · rename_i v hv
      refine h.set hi _ _ _ (hx.next hno _ rfl rfl id (fun g => ?_) fun g => ?_)
      · unfold NeatSt; dsimp only; split; · exact hf _ _ g v
        exact (hf _ _ g v).neat
      · unfold NeatSt; dsimp only; split; · exact hf _ _ g v
        exact (hf _ _ g v).neat
    · exact h
  · exact h

theorem Good.step {s : Sys S Q A R} (h : Good s) (op : Op S Q A R) (hk : Kept s op) : Good (s.step op) := by
  unfold Sys.step
  rw [if_neg (by rw [h.1]; simp)]
  cases op with
  | call b =>
    dsimp only
    split
    · rename_i hal
      refine ⟨h.1, fun j z hz => ?_⟩
      rcases Nat.lt_or_ge j s.calls.length with hj | hj
      · rw [List.getElem?_append_left hj] at hz
        exact h.2 j z hz
      · rw [List.getElem?_append_right hj] at hz
        have : z = ⟨b, .run b, false, true, []⟩ := by
          cases hjj : j - s.calls.length with
          | zero => rw [hjj] at hz; exact (Option.some.inj hz).symm
          | succ n => rw [hjj] at hz; cases hz
        subst this
        refine ⟨fun hn => hn, fun hn => hn, fun hg => (by cases hg), fun hd => ?_⟩
        dsimp only at hd
        rw [hal] at hd; cases hd
    · exact h
  | go i =>
    dsimp only
    split
    · rename_i x hx; exact h.go hx
    · exact h
  | fill c a => dsimp only; split <;> exact h
  | drop i =>
    dsimp only
    split
    · rename_i x hx
      split
      · rename_i hb
        have hx' := h.2 i x hx
        exact h.set hx _ _ _ ⟨hx'.arg, hx'.own, fun _ => ⟨hb, hk x hx⟩, hx'.dead⟩
      · exact h
    · exact h
  | change u => dsimp only; split <;> exact h
  | destroy =>
    dsimp only
    split
    · rename_i hall
      refine ⟨h.1, fun i x hx => ?_⟩
      have hx' := h.2 i x hx
      have hb : x.back = true := List.all_eq_true.1 hall x (List.mem_of_getElem? hx)
      exact ⟨hx'.arg, hx'.own, hx'.gone, fun _ => ⟨hb, hk i x hx⟩⟩
    · exact h

theorem good_run (ops : List (Op S Q A R)) : ∀ (s : Sys S Q A R), Good s → KeptAll s ops → Good (s.run ops) := by
  induction ops with
  | nil => intro s h _; exact h
  | cons op ops ih => intro s h hk; exact ih _ (h.step op hk.1) hk.2

theorem good_init (s0 : S) : Good (Sys.init s0 : Sys S Q A R) := ⟨rfl, fun i x hx => (by cases hx)⟩

/-! ### Programs of a kind -/

/-- All calls made are of a kind. -/
theorem progs_step {P : Body S Q A R → Prop} (s : Sys S Q A R) (op : Op S Q A R) (hop : ∀ b, op = .call b → P b)
    (h : ∀ (i : Nat) (x : Call S Q A R), s.calls[i]? = some x → P x.prog) : ∀ (i : Nat) (x : Call S Q A R), (s.step op).calls[i]? = some x → P x.prog := by
  have hset : ∀ (j : Nat) (y y' : Call S Q A R), s.calls[j]? = some y → y'.prog = y.prog → ∀ (i : Nat) (x : Call S Q A R), (s.calls.set j y')[i]? = some x → P x.prog := by
    intro j y y' hj hp i x hx
    rcases get_set hj hx with ⟨_, rfl⟩ | ⟨_, hx⟩
    · rw [hp]; exact h j y hj
    · exact h i x hx
  unfold Sys.step
  split
  · exact h
  · cases op with
    | call b =>
      dsimp only
      split
      · intro j z hz
        rcases Nat.lt_or_ge j s.calls.length with hj | hj
        · rw [List.getElem?_append_left hj] at hz
          exact h j z hz
        · rw [List.getElem?_append_right hj] at hz
          have : z = ⟨b, .run b, false, true, []⟩ := by
            cases hjj : j - s.calls.length with
            | zero => rw [hjj] at hz; exact (Option.some.inj hz).symm
            | succ n => rw [hjj] at hz; cases hz
          subst this
          exact hop b rfl
      · exact h
    | go i =>
      dsimp only
      split
      · rename_i x hx
        unfold Sys.go
        split <;> (try split) <;> first
          | exact h
          | exact hset i x _ hx rfl
      · exact h
    | fill c a => dsimp only; split <;> exact h
    | drop i =>
      dsimp only
      split
      · rename_i x hx
        split
        · exact hset i x _ hx rfl
        · exact h
      · exact h
    | change u => dsimp only; split <;> exact h
    | destroy => dsimp only; split <;> exact h

end Verif.Await
