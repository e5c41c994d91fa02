import Verif.Lock.Model

/-! Lemmas about the model of `Verif.Lock.Model`: the mutex is held by one thread that releases it, and the work to do decreases. -/

namespace Verif.Lock

variable {N C : Type}

/-- The handler never uses its server. -/
def Quiet (body : C → List (Stmt N C)) (c : C) : Prop := ∀ x ∈ body c, x = .work

/-- The work behind a statement, when `W k n` bounds the work behind name `n` of kind `k`. -/
def Stmt.cost (W : Kind → N → Nat) : Stmt N C → Nat
  | .work => 1
  | .use _ => 4
  | .call k n => W k n + 4
  | .serve _ (.get k n) => W k n + 5
  | .serve _ _ => 5

def costs (W : Kind → N → Nat) (p : List (Stmt N C)) : Nat := (p.map (Stmt.cost W)).sum

/-- Code `c` may stand under name `n` of kind `k`: its work is within the bound, and as a prompt it leaves the server alone. -/
def Fits (body : C → List (Stmt N C)) (W : Kind → N → Nat) (k : Kind) (n : N) (c : C) : Prop :=
  costs W (body c) ≤ W k n ∧ (k = .prompt → Quiet body c)

/-- Every registration among the statements is of code that fits. -/
def Sound (body : C → List (Stmt N C)) (W : Kind → N → Nat) (p : List (Stmt N C)) : Prop :=
  ∀ k n c, Stmt.use (.register k n c) ∈ p → Fits body W k n c

/-- The acts of a thread that does (`true`) or does not (`false`) hold the mutex: it locks only when it does not, and releases what it locks. -/
def Bal : Bool → List (Act N C) → Prop
  | h, [] => h = false
  | h, .stmt x :: r => (h = true → x = .work) ∧ Bal h r
  | h, .acq :: r => h = false ∧ Bal true r
  | h, .rel :: r => h = true ∧ Bal false r
  | h, .put _ _ _ :: r => h = true ∧ Bal true r
  | h, .look _ _ :: r => h = true ∧ Bal false r
  | h, .flag _ :: r => h = false ∧ Bal false r
  | h, .answer _ :: r => h = false ∧ Bal false r

theorem bal_stmts (p : List (Stmt N C)) (r : List (Act N C)) (h : Bal false r) : Bal false (p.map .stmt ++ r) := by
  induction p with
  | nil => exact h
  | cons x p ih => exact ⟨by simp, ih⟩

theorem bal_works (p : List (Stmt N C)) (r : List (Act N C)) (hp : ∀ x ∈ p, x = .work) (h : Bal true r) : Bal true (p.map .stmt ++ r) := by
  induction p with
  | nil => exact h
  | cons x p ih => exact ⟨fun _ => hp x (by simp), ih (fun y hy => hp y (by simp [hy]))⟩

theorem bal_acts (b : Bool) (x : Stmt N C) (r : List (Act N C)) (h : Bal false r) : Bal false (x.acts b ++ r) := by
  cases x with
  | work => exact h
  | use u =>
    cases u with
    | register k n c => simp [Stmt.acts, Bal, h]
    | unregister k n => simp [Stmt.acts, Bal, h]
    | list => simp [Stmt.acts, Bal, h]
    | updated => cases b <;> simp [Stmt.acts, Bal, h]
  | call k n => simp [Stmt.acts, Bal, h]
  | serve id q =>
    cases q with
    | get k n => simp [Stmt.acts, Req.acts, Bal, h]
    | list => simp [Stmt.acts, Req.acts, Bal, h]
    | subscribe u => cases u <;> simp [Stmt.acts, Req.acts, Bal, h]
    | unsubscribe u => simp [Stmt.acts, Req.acts, Bal, h]
    | free => simp [Stmt.acts, Req.acts, Bal, h]

theorem bal_found (body : C → List (Stmt N C)) (k : Kind) (c : Option C) (r : List (Act N C)) (h : Bal false r)
    (hq : ∀ c', c = some c' → k = .prompt → Quiet body c') : Bal true (found body k c r) := by
  unfold found
  cases c with
  | none => exact ⟨rfl, h⟩
  | some c =>
    dsimp only
    split
    · next e => exact bal_works _ _ (hq c rfl e) ⟨rfl, h⟩
    · exact ⟨rfl, bal_stmts _ _ h⟩

/-- The work behind an act. -/
def Act.cost (W : Kind → N → Nat) : Act N C → Nat
  | .stmt x => x.cost W
  | .look k n => W k n + 2
  | _ => 1

def weigh (W : Kind → N → Nat) (l : List (Act N C)) : Nat := (l.map (Act.cost W)).sum

theorem weigh_append (W : Kind → N → Nat) (a b : List (Act N C)) : weigh W (a ++ b) = weigh W a + weigh W b := by
  simp [weigh]

theorem weigh_stmts (W : Kind → N → Nat) (p : List (Stmt N C)) : weigh W (p.map .stmt) = costs W p := by
  simp only [weigh, costs, List.map_map]
  rfl

theorem weigh_acts (W : Kind → N → Nat) (b : Bool) (x : Stmt N C) : weigh W (x.acts b) < x.cost W := by
  cases x with
  | work => simp [Stmt.acts, weigh, Stmt.cost]
  | use u => cases u <;> cases b <;> simp [Stmt.acts, weigh, Stmt.cost, Act.cost]
  | call k n => simp [Stmt.acts, weigh, Stmt.cost, Act.cost]; omega
  | serve id q =>
    cases q with
    | get k n => simp [Stmt.acts, Req.acts, weigh, Stmt.cost, Act.cost]; omega
    | list => simp [Stmt.acts, Req.acts, weigh, Stmt.cost, Act.cost]
    | subscribe u => cases u <;> simp [Stmt.acts, Req.acts, weigh, Stmt.cost, Act.cost]
    | unsubscribe u => simp [Stmt.acts, Req.acts, weigh, Stmt.cost, Act.cost]
    | free => simp [Stmt.acts, Req.acts, weigh, Stmt.cost, Act.cost]

theorem weigh_found (body : C → List (Stmt N C)) (W : Kind → N → Nat) (k : Kind) (n : N) (c : Option C) (r : List (Act N C))
    (h : ∀ c', c = some c' → costs W (body c') ≤ W k n) : weigh W (found body k c r) < W k n + 2 + weigh W r := by
  unfold found
  cases c with
  | none => simp [weigh, Act.cost]
  | some c =>
    have hc := h c rfl
    dsimp only
    split
    · rw [weigh_append, weigh_stmts]
      simp only [weigh, List.map_cons, List.sum_cons, Act.cost]
      omega
    · have : weigh W (Act.rel :: ((body c).map .stmt ++ r)) = 1 + (costs W (body c) + weigh W r) := by
        rw [← weigh_stmts, ← weigh_append]
        simp [weigh, Act.cost]
      rw [this]
      omega

/-- The work left for the whole server. -/
def Sys.left (W : Kind → N → Nat) (s : Sys N C) : Nat := (s.threads.map (weigh W)).sum

theorem sum_set (f : List (Act N C) → Nat) : ∀ (l : List (List (Act N C))) (i : Nat) (a b : List (Act N C)), l[i]? = some a →
    ((l.set i b).map f).sum + f a = (l.map f).sum + f b := by
  intro l
  induction l with
  | nil => intro i a b h; simp at h
  | cons x l ih =>
    intro i a b h
    cases i with
    | zero =>
      simp only [List.getElem?_cons_zero, Option.some.injEq] at h
      subst h
      simp only [List.set_cons_zero, List.map_cons, List.sum_cons]
      omega
    | succ i =>
      simp only [List.getElem?_cons_succ] at h
      have := ih i a b h
      simp only [List.set_cons_succ, List.map_cons, List.sum_cons]
      omega

/-- The registrations among the acts are of code that fits. -/
def Fine (body : C → List (Stmt N C)) (W : Kind → N → Nat) (l : List (Act N C)) : Prop :=
  (∀ k n c, Act.stmt (.use (.register k n c)) ∈ l → Fits body W k n c) ∧ (∀ k n c, Act.put k n (some c) ∈ l → Fits body W k n c)

theorem fine_tail {body : C → List (Stmt N C)} {W : Kind → N → Nat} {a : Act N C} {l : List (Act N C)} (h : Fine body W (a :: l)) : Fine body W l :=
  ⟨fun k n c hm => h.1 k n c (by simp [hm]), fun k n c hm => h.2 k n c (by simp [hm])⟩

theorem fine_append {body : C → List (Stmt N C)} {W : Kind → N → Nat} {a b : List (Act N C)} (ha : Fine body W a) (hb : Fine body W b) :
    Fine body W (a ++ b) := by
  constructor
  · intro k n c hm
    rcases List.mem_append.1 hm with h | h
    · exact ha.1 k n c h
    · exact hb.1 k n c h
  · intro k n c hm
    rcases List.mem_append.1 hm with h | h
    · exact ha.2 k n c h
    · exact hb.2 k n c h

theorem fine_stmts {body : C → List (Stmt N C)} {W : Kind → N → Nat} {p : List (Stmt N C)} (h : Sound body W p) : Fine body W (p.map .stmt) := by
  constructor
  · intro k n c hm
    simp only [List.mem_map, Act.stmt.injEq, exists_eq_right] at hm
    exact h k n c hm
  · intro k n c hm
    simp at hm

theorem fine_acts {body : C → List (Stmt N C)} {W : Kind → N → Nat} (b : Bool) {x : Stmt N C} (h : ∀ k n c, x = .use (.register k n c) → Fits body W k n c) :
    Fine body W (x.acts b) := by
  cases x with
  | work => simp [Stmt.acts, Fine]
  | use u =>
    cases u with
    | register k n c =>
      have hf := h k n c rfl
      constructor
      · intro k' n' c' hm
        simp [Stmt.acts] at hm
      · intro k' n' c' hm
        simp only [Stmt.acts, List.mem_cons, reduceCtorEq, Act.put.injEq, Option.some.injEq, List.not_mem_nil, or_false, false_or] at hm
        obtain ⟨rfl, rfl, rfl⟩ := hm
        exact hf
    | unregister k n => simp [Stmt.acts, Fine]
    | list => simp [Stmt.acts, Fine]
    | updated => cases b <;> simp [Stmt.acts, Fine]
  | call k n => simp [Stmt.acts, Fine]
  | serve id q =>
    cases q with
    | subscribe u => cases u <;> simp [Stmt.acts, Req.acts, Fine]
    | _ => simp [Stmt.acts, Req.acts, Fine]

theorem fine_found {body : C → List (Stmt N C)} {W : Kind → N → Nat} (hb : ∀ c, Sound body W (body c)) (k : Kind) (c : Option C) {r : List (Act N C)}
    (h : Fine body W r) : Fine body W (found body k c r) := by
  have hr : Fine body W (Act.rel :: r) := ⟨fun k n c hm => h.1 k n c (by simpa using hm), fun k n c hm => h.2 k n c (by simpa using hm)⟩
  unfold found
  cases c with
  | none => exact hr
  | some c =>
    dsimp only
    split
    · exact fine_append (fine_stmts (hb c)) hr
    · have := fine_append (fine_stmts (hb c)) h
      exact ⟨fun k n c hm => this.1 k n c (by simpa using hm), fun k n c hm => this.2 k n c (by simpa using hm)⟩

/-- What holds of a server whose registered code fits. -/
structure Inv (body : C → List (Stmt N C)) (W : Kind → N → Nat) (s : Sys N C) : Prop where
  bal : ∀ (i : Nat) (l : List (Act N C)), s.threads[i]? = some l → Bal (decide (s.holder = some i)) l
  own : ∀ i, s.holder = some i → i < s.threads.length
  reg : ∀ k n c, s.reg k n = some c → Fits body W k n c
  fine : ∀ l ∈ s.threads, Fine body W l

theorem inv_init (body : C → List (Stmt N C)) (W : Kind → N → Nat) (reg : Kind → N → Option C) (h : ∀ k n c, reg k n = some c → Fits body W k n c) :
    Inv body W (Sys.init reg) := by
  refine ⟨?_, ?_, h, ?_⟩
  · intro i l hl; simp [Sys.init] at hl
  · intro i hi; simp [Sys.init] at hi
  · intro l hl; simp [Sys.init] at hl

theorem inv_start {body : C → List (Stmt N C)} {W : Kind → N → Nat} [DecidableEq N] {s : Sys N C} (hi : Inv body W s) {p : List (Stmt N C)} (hp : Sound body W p) :
    Inv body W (s.step body (.start p)) := by
  refine ⟨?_, ?_, hi.reg, ?_⟩
  · intro i l hl
    show Bal (decide (s.holder = some i)) l
    simp only [Sys.step, List.getElem?_append] at hl
    split at hl
    · exact hi.bal i l hl
    · next hlt =>
      have hne : ¬ s.holder = some i := fun h => hlt (hi.own i h)
      have : l = p.map .stmt := by
        rcases Nat.eq_or_lt_of_le (Nat.le_of_not_lt hlt) with e | e
        · subst e; simpa using hl.symm
        · have : ∃ m, i - s.threads.length = m + 1 := ⟨i - s.threads.length - 1, by omega⟩
          obtain ⟨m, hm⟩ := this
          rw [hm] at hl
          simp at hl
      subst this
      rw [decide_eq_false hne]
      have := bal_stmts p ([] : List (Act N C)) rfl
      simpa using this
  · intro i h
    have := hi.own i h
    simp only [Sys.step, List.length_append]
    omega
  · intro l hl
    simp only [Sys.step, List.mem_append, List.mem_singleton] at hl
    rcases hl with hl | rfl
    · exact hi.fine l hl
    · exact fine_stmts hp

/-- An act of thread `i` in terms of what it leaves: the thread that was not moved keeps its acts. -/
theorem inv_moved {body : C → List (Stmt N C)} {W : Kind → N → Nat} {s : Sys N C} (hi : Inv body W s) {i : Nat} {l new : List (Act N C)} (hl : s.threads[i]? = some l)
    {s' : Sys N C} (ht : s'.threads = s.threads.set i new)
    (hh : s'.holder = s.holder ∨ (s.holder = none ∧ s'.holder = some i) ∨ (s.holder = some i ∧ s'.holder = none))
    (hb : Bal (decide (s'.holder = some i)) new) (hf : Fine body W new) (hr : ∀ k n c, s'.reg k n = some c → Fits body W k n c) : Inv body W s' := by
  have hlt : i < s.threads.length := (List.getElem?_eq_some_iff.1 hl).1
  refine ⟨?_, ?_, hr, ?_⟩
  · intro j m hm
    rw [ht] at hm
    by_cases e : i = j
    · subst e
      rw [List.getElem?_set_self hlt] at hm
      injection hm with hm
      subst hm
      exact hb
    · rw [List.getElem?_set_ne e] at hm
      have hold := hi.bal j m hm
      have : (s'.holder = some j) ↔ (s.holder = some j) := by
        rcases hh with h | ⟨h1, h2⟩ | ⟨h1, h2⟩
        · rw [h]
        · rw [h1, h2]; simp [e]
        · rw [h1, h2]; simp [e]
      rwa [decide_eq_decide.2 this]
  · intro j hj
    rw [ht, List.length_set]
    rcases hh with h | ⟨h1, h2⟩ | ⟨h1, h2⟩
    · exact hi.own j (h ▸ hj)
    · rw [h2] at hj; injection hj with hj; omega
    · rw [h2] at hj; simp at hj
  · intro m hm
    rw [ht] at hm
    rcases List.mem_or_eq_of_mem_set hm with h | rfl
    · exact hi.fine m h
    · exact hf

variable [DecidableEq N]

/-- One act that is done keeps the invariant and reduces the work left. -/
theorem inv_exec {body : C → List (Stmt N C)} {W : Kind → N → Nat} (hb : ∀ c, Sound body W (body c)) {s : Sys N C} (hi : Inv body W s) {i : Nat} {a : Act N C}
    {rest : List (Act N C)} (hl : s.threads[i]? = some (a :: rest)) {s' : Sys N C} (he : s.exec body i a rest = some s') :
    Inv body W s' ∧ s'.left W < s.left W := by
  have hbal := hi.bal i _ hl
  have hfine := hi.fine _ (List.mem_of_getElem? hl)
  have htail := fine_tail hfine
  have hw : weigh W (a :: rest) = a.cost W + weigh W rest := by simp [weigh]
  have key : ∀ new : List (Act N C), s'.threads = s.threads.set i new → weigh W new < a.cost W + weigh W rest → s'.left W < s.left W := by
    intro new ht hlt
    have h := sum_set (weigh W) s.threads i (a :: rest) new hl
    simp only [Sys.left, ht]
    omega
  cases a with
  | stmt x =>
    simp only [Sys.exec, Option.some.injEq] at he
    subst he
    refine ⟨inv_moved hi hl rfl (.inl rfl) ?_ ?_ hi.reg, key _ rfl ?_⟩
    · show Bal (decide (s.holder = some i)) _
      by_cases h : s.holder = some i
      · simp only [h, decide_true] at hbal ⊢
        have : x = .work := hbal.1 rfl
        subst this
        exact hbal.2
      · simp only [h, decide_false] at hbal ⊢
        exact bal_acts _ _ _ hbal.2
    · refine fine_append (fine_acts _ ?_) htail
      intro k n c e
      subst e
      exact hfine.1 k n c (by simp)
    · rw [weigh_append]
      have := weigh_acts W s.subs x
      simp only [Act.cost]
      omega
  | acq =>
    simp only [Sys.exec] at he
    split at he
    · next hn =>
      simp only [Option.some.injEq] at he
      subst he
      refine ⟨inv_moved hi hl rfl (.inr (.inl ⟨hn, rfl⟩)) ?_ htail hi.reg, key _ rfl (by simp [Act.cost])⟩
      simpa using hbal.2
    · simp at he
  | rel =>
    simp only [Sys.exec, Option.some.injEq] at he
    subst he
    have h : s.holder = some i := by simpa using hbal.1
    exact ⟨inv_moved hi hl rfl (.inr (.inr ⟨h, rfl⟩)) hbal.2 htail hi.reg, key _ rfl (by simp [Act.cost])⟩
  | put k n c =>
    simp only [Sys.exec, Option.some.injEq] at he
    subst he
    have h : s.holder = some i := by simpa using hbal.1
    refine ⟨inv_moved hi hl rfl (.inl rfl) ?_ htail ?_, key _ rfl (by simp [Act.cost])⟩
    · show Bal (decide (s.holder = some i)) _
      rw [decide_eq_true h]
      exact hbal.2
    · intro k' n' c' hc
      simp only [write] at hc
      split at hc
      · next e =>
        obtain ⟨rfl, rfl⟩ := e
        subst hc
        exact hfine.2 _ _ _ (by simp)
      · exact hi.reg k' n' c' hc
  | look k n =>
    simp only [Sys.exec, Option.some.injEq] at he
    subst he
    have h : s.holder = some i := by simpa using hbal.1
    refine ⟨inv_moved hi hl rfl (.inl rfl) ?_ (fine_found hb k _ htail) hi.reg, key _ rfl ?_⟩
    · show Bal (decide (s.holder = some i)) _
      rw [decide_eq_true h]
      exact bal_found body k _ rest hbal.2 (fun c' hc => (hi.reg k n c' hc).2)
    · have := weigh_found body W k n (s.reg k n) rest (fun c' hc => (hi.reg k n c' hc).1)
      simp only [Act.cost]
      exact this
  | flag b =>
    simp only [Sys.exec, Option.some.injEq] at he
    subst he
    refine ⟨inv_moved hi hl rfl (.inl rfl) ?_ htail hi.reg, key _ rfl (by simp [Act.cost])⟩
    show Bal (decide (s.holder = some i)) _
    rw [hbal.1]
    exact hbal.2
  | answer id =>
    simp only [Sys.exec, Option.some.injEq] at he
    subst he
    refine ⟨inv_moved hi hl rfl (.inl rfl) ?_ htail hi.reg, key _ rfl (by simp [Act.cost])⟩
    show Bal (decide (s.holder = some i)) _
    rw [hbal.1]
    exact hbal.2

/-- Thread `i` has an act to do and need not wait for the mutex. -/
def Moves (s : Sys N C) (i : Nat) : Prop := ∃ a rest, s.threads[i]? = some (a :: rest) ∧ (a = .acq → s.holder = none)

theorem moves_exec {body : C → List (Stmt N C)} {s : Sys N C} {i : Nat} (h : Moves s i) :
    ∃ a rest s', s.threads[i]? = some (a :: rest) ∧ s.exec body i a rest = some s' ∧ s.step body (.go i) = s' := by
  obtain ⟨a, rest, hl, ha⟩ := h
  have : ∃ s', s.exec body i a rest = some s' := by
    cases a <;> simp [Sys.exec]
    exact ha rfl
  obtain ⟨s', hs⟩ := this
  refine ⟨a, rest, s', hl, hs, ?_⟩
  simp only [Sys.step, hl, hs, Option.getD_some]

theorem stays_step {body : C → List (Stmt N C)} {s : Sys N C} {i : Nat} (h : ¬ Moves s i) : s.step body (.go i) = s := by
  simp only [Sys.step]
  split
  · next a rest hl =>
    have : a = .acq ∧ s.holder ≠ none := by
      by_cases e : a = .acq
      · refine ⟨e, fun hn => h ⟨a, rest, hl, fun _ => hn⟩⟩
      · exact absurd ⟨a, rest, hl, fun he => absurd he e⟩ h
    obtain ⟨rfl, hn⟩ := this
    simp [Sys.exec, hn]
  · rfl

theorem inv_go {body : C → List (Stmt N C)} {W : Kind → N → Nat} (hb : ∀ c, Sound body W (body c)) {s : Sys N C} (hi : Inv body W s) (i : Nat) :
    Inv body W (s.step body (.go i)) ∧ (Moves s i → (s.step body (.go i)).left W < s.left W) := by
  by_cases h : Moves s i
  · obtain ⟨a, rest, s', hl, he, e⟩ := moves_exec (body := body) h
    rw [e]
    have := inv_exec hb hi hl he
    exact ⟨this.1, fun _ => this.2⟩
  · rw [stays_step h]
    exact ⟨hi, fun hm => absurd hm h⟩

/-- Nothing left to do on any thread. -/
def Idle (s : Sys N C) : Prop := ∀ l ∈ s.threads, l = []

/-- A server with work left always has a thread that need not wait. -/
theorem some_moves {body : C → List (Stmt N C)} {W : Kind → N → Nat} {s : Sys N C} (hi : Inv body W s) (h : ¬ Idle s) : ∃ i, Moves s i := by
  cases hh : s.holder with
  | some i =>
    have hlt := hi.own i hh
    refine ⟨i, ?_⟩
    have hl : s.threads[i]? = some s.threads[i] := List.getElem?_eq_getElem hlt
    have hb := hi.bal i _ hl
    rw [decide_eq_true hh] at hb
    cases hc : s.threads[i] with
    | nil => rw [hc] at hb; simp [Bal] at hb
    | cons a rest =>
      rw [hc] at hb
      refine ⟨a, rest, by rw [hl, hc], ?_⟩
      intro e
      subst e
      simp [Bal] at hb
  | none =>
    by_cases hex : ∃ l ∈ s.threads, l ≠ []
    · obtain ⟨l, hl, hne⟩ := hex
      obtain ⟨i, hi'⟩ := List.getElem?_of_mem hl
      cases l with
      | nil => exact absurd rfl hne
      | cons a rest => exact ⟨i, a, rest, hi', fun _ => hh⟩
    · exfalso
      apply h
      intro l hl
      exact Classical.byContradiction fun hne => hex ⟨l, hl, hne⟩

/-- Thread `i` alone, when it holds the mutex or nobody does. -/
theorem own_moves {body : C → List (Stmt N C)} {W : Kind → N → Nat} {s : Sys N C} (hi : Inv body W s) {i : Nat} (hh : s.holder = none ∨ s.holder = some i)
    {a : Act N C} {rest : List (Act N C)} (hl : s.threads[i]? = some (a :: rest)) : Moves s i := by
  refine ⟨a, rest, hl, ?_⟩
  intro e
  rcases hh with h | h
  · exact h
  · have := hi.bal i _ hl
    subst e
    rw [decide_eq_true h] at this
    simp [Bal] at this

/-- Request `id` is still to be answered by some thread. -/
def Pending (s : Sys N C) (id : Nat) : Prop := ∃ l ∈ s.threads, Act.answer id ∈ l ∨ ∃ r, Act.stmt (.serve id r) ∈ l

theorem pending_exec {body : C → List (Stmt N C)} {s : Sys N C} {i : Nat} {a : Act N C} {rest : List (Act N C)} (hl : s.threads[i]? = some (a :: rest)) {s' : Sys N C}
    (he : s.exec body i a rest = some s') {id : Nat} (h : id ∈ s.answered ∨ Pending s id) : id ∈ s'.answered ∨ Pending s' id := by
  have hlt : i < s.threads.length := (List.getElem?_eq_some_iff.1 hl).1
  -- what the thread has left is contained in what it has afterwards
  have key : ∀ new : List (Act N C), s'.threads = s.threads.set i new → (∀ x ∈ s.answered, x ∈ s'.answered) →
      (∀ x ∈ rest, x ∈ new) → ((a = .answer id → id ∈ s'.answered) ∧ ∀ r, a = .stmt (.serve id r) → Act.answer id ∈ new) →
      id ∈ s'.answered ∨ Pending s' id := by
    intro new ht ha hr hhead
    rcases h with h | ⟨l, hm, hp⟩
    · exact .inl (ha _ h)
    · obtain ⟨j, hj⟩ := List.getElem?_of_mem hm
      by_cases e : i = j
      · subst e
        rw [hl] at hj
        injection hj with hj
        subst hj
        have hnew : new ∈ s'.threads := by
          rw [ht]
          exact List.mem_of_getElem? (List.getElem?_set_self hlt)
        rcases hp with hp | ⟨r, hp⟩
        · rcases List.mem_cons.1 hp with e | hp
          · exact .inl (hhead.1 e.symm)
          · exact .inr ⟨new, hnew, .inl (hr _ hp)⟩
        · rcases List.mem_cons.1 hp with e | hp
          · exact .inr ⟨new, hnew, .inl (hhead.2 r e.symm)⟩
          · exact .inr ⟨new, hnew, .inr ⟨r, hr _ hp⟩⟩
      · refine .inr ⟨l, ?_, hp⟩
        rw [ht]
        apply List.mem_of_getElem? (i := j)
        rw [List.getElem?_set_ne e]
        exact hj
  cases a with
  | stmt x =>
    simp only [Sys.exec, Option.some.injEq] at he
    subst he
    refine key _ rfl (fun x hx => hx) (fun x hx => by simp [hx]) ⟨by simp, ?_⟩
    intro r e
    simp only [Act.stmt.injEq] at e
    subst e
    simp [Stmt.acts]
  | acq =>
    simp only [Sys.exec] at he
    split at he
    · simp only [Option.some.injEq] at he
      subst he
      exact key _ rfl (fun x hx => hx) (fun x hx => hx) ⟨by simp, by simp⟩
    · simp at he
  | rel =>
    simp only [Sys.exec, Option.some.injEq] at he
    subst he
    exact key _ rfl (fun x hx => hx) (fun x hx => hx) ⟨by simp, by simp⟩
  | put k n c =>
    simp only [Sys.exec, Option.some.injEq] at he
    subst he
    exact key _ rfl (fun x hx => hx) (fun x hx => hx) ⟨by simp, by simp⟩
  | look k n =>
    simp only [Sys.exec, Option.some.injEq] at he
    subst he
    refine key _ rfl (fun x hx => hx) (fun x hx => ?_) ⟨by simp, by simp⟩
    unfold found
    cases s.reg k n with
    | none => simp [hx]
    | some c => dsimp only; split <;> simp [hx]
  | flag b =>
    simp only [Sys.exec, Option.some.injEq] at he
    subst he
    exact key _ rfl (fun x hx => hx) (fun x hx => hx) ⟨by simp, by simp⟩
  | answer id' =>
    simp only [Sys.exec, Option.some.injEq] at he
    subst he
    refine key _ rfl (fun x hx => by simp [hx]) (fun x hx => hx) ⟨?_, by simp⟩
    intro e
    simp only [Act.answer.injEq] at e
    simp [e]

theorem pending_go {body : C → List (Stmt N C)} {s : Sys N C} (i : Nat) {id : Nat} (h : id ∈ s.answered ∨ Pending s id) :
    id ∈ (s.step body (.go i)).answered ∨ Pending (s.step body (.go i)) id := by
  by_cases hm : Moves s i
  · obtain ⟨a, rest, s', hl, he, e⟩ := moves_exec (body := body) hm
    rw [e]
    exact pending_exec hl he h
  · rwa [stays_step hm]

theorem pending_start {body : C → List (Stmt N C)} {s : Sys N C} (p : List (Stmt N C)) {id : Nat} (h : id ∈ s.answered ∨ Pending s id) :
    id ∈ (s.step body (.start p)).answered ∨ Pending (s.step body (.start p)) id := by
  rcases h with h | ⟨l, hl, hp⟩
  · exact .inl h
  · exact .inr ⟨l, by simp [Sys.step, hl], hp⟩

theorem pending_run {body : C → List (Stmt N C)} (ops : List (Op N C)) : ∀ (s : Sys N C) (id : Nat),
    (id ∈ s.answered ∨ Pending s id) ∨ (∃ p r, Op.start p ∈ ops ∧ Stmt.serve id r ∈ p) → id ∈ (s.run body ops).answered ∨ Pending (s.run body ops) id := by
  induction ops with
  | nil =>
    intro s id h
    rcases h with h | ⟨p, r, hp, _⟩
    · exact h
    · simp at hp
  | cons op ops ih =>
    intro s id h
    show id ∈ ((s.step body op).run body ops).answered ∨ _
    apply ih
    rcases h with h | ⟨p, r, hp, hr⟩
    · left
      cases op with
      | start p => exact pending_start p h
      | go i => exact pending_go i h
    · rcases List.mem_cons.1 hp with e | hp
      · subst e
        left
        right
        exact ⟨p.map .stmt, by simp [Sys.step], .inr ⟨r, by simp [hr]⟩⟩
      · exact .inr ⟨p, r, hp, hr⟩

theorem inv_run {body : C → List (Stmt N C)} {W : Kind → N → Nat} (hb : ∀ c, Sound body W (body c)) (ops : List (Op N C)) : ∀ s : Sys N C, Inv body W s →
    (∀ p, Op.start p ∈ ops → Sound body W p) → Inv body W (s.run body ops) := by
  induction ops with
  | nil => intro s hi _; exact hi
  | cons op ops ih =>
    intro s hi hp
    refine ih _ ?_ (fun p h => hp p (by simp [h]))
    cases op with
    | start p => exact inv_start hi (hp p (by simp))
    | go i => exact (inv_go hb hi i).1

theorem run_append {body : C → List (Stmt N C)} (a b : List (Op N C)) : ∀ s : Sys N C, s.run body (a ++ b) = (s.run body a).run body b := by
  induction a with
  | nil => intro s; rfl
  | cons op a ih => intro s; exact ih _

end Verif.Lock
