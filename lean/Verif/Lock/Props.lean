import Verif.Lock.Lemmas

/-!
C105: the server answers every request it works on, whatever its handlers do with the server and however its threads are scheduled.

True when the handlers of prompts leave their server alone; false, for every prompt whose handler uses the registry, by a thread that waits for a mutex it holds.
-/

namespace Verif

open Lock

section
variable {N C : Type} [DecidableEq N]

/-- The threads are scheduled one act at a time in the order `f`, for `t` acts. -/
def turns (N C : Type) (f : Nat → Nat) (t : Nat) : List (Op N C) := (List.range t).map fun m => .go (f m)

/-- The request needs the registry: all but those that are answered from elsewhere and a subscription without a uri. -/
def NeedsRegistry : Req N → Prop
  | .get _ _ => True
  | .list => True
  | .subscribe uri => uri = true
  | .unsubscribe _ => True
  | .free => False

/-- The statement uses the registry, whatever the state of the server. -/
def UsesRegistry : Stmt N C → Prop
  | .work => False
  | .use .updated => False
  | .use _ => True
  | .call _ _ => True
  | .serve _ r => NeedsRegistry r

theorem turns_succ (f : Nat → Nat) (t : Nat) : turns N C f (t + 1) = turns N C f t ++ [.go (f t)] := by
  simp [turns, List.range_succ]

theorem run_turns_succ (body : C → List (Stmt N C)) (s : Sys N C) (f : Nat → Nat) (t : Nat) :
    s.run body (turns N C f (t + 1)) = (s.run body (turns N C f t)).step body (.go (f t)) := by
  rw [turns_succ, run_append]
  rfl

theorem length_step (body : C → List (Stmt N C)) (s : Sys N C) (i : Nat) : (s.step body (.go i)).threads.length = s.threads.length := by
  by_cases hm : Moves s i
  · obtain ⟨a, rest, s', hl, he, e⟩ := moves_exec (body := body) hm
    rw [e]
    cases a with
    | acq =>
      simp only [Sys.exec] at he
      split at he
      · simp only [Option.some.injEq] at he; subst he; simp
      · simp at he
    | _ => simp only [Sys.exec, Option.some.injEq] at he; subst he; simp
  · rw [stays_step hm]

theorem length_run (body : C → List (Stmt N C)) (ops : List (Op N C)) : ∀ s : Sys N C, (s.run body ops).threads.length ≤ s.threads.length + ops.length := by
  induction ops with
  | nil => intro s; simp [Sys.run]
  | cons op ops ih =>
    intro s
    have h := ih (s.step body op)
    have h' : (s.step body op).threads.length ≤ s.threads.length + 1 := by
      cases op with
      | start p => simp [Sys.step]
      | go i => rw [length_step]; omega
    show ((s.step body op).run body ops).threads.length ≤ _
    simp only [List.length_cons]
    omega

theorem inv_turns {body : C → List (Stmt N C)} {W : Kind → N → Nat} (hb : ∀ c, Sound body W (body c)) {s : Sys N C} (hi : Inv body W s) (f : Nat → Nat) (t : Nat) :
    Inv body W (s.run body (turns N C f t)) := by
  refine inv_run hb _ s hi ?_
  intro p hp
  simp [turns] at hp

theorem length_turns (body : C → List (Stmt N C)) (s : Sys N C) (f : Nat → Nat) (t : Nat) : (s.run body (turns N C f t)).threads.length = s.threads.length := by
  induction t with
  | zero => rfl
  | succ t ih => rw [run_turns_succ, length_step, ih]

theorem moves_lt {s : Sys N C} {i : Nat} (h : Moves s i) : i < s.threads.length := by
  obtain ⟨a, rest, hl, _⟩ := h
  exact (List.getElem?_eq_some_iff.1 hl).1

/-- A fair schedule empties the threads. -/
theorem idle_turns {body : C → List (Stmt N C)} {W : Kind → N → Nat} (hb : ∀ c, Sound body W (body c)) {s : Sys N C} (hi : Inv body W s) (f : Nat → Nat)
    (hf : ∀ i n, i < s.threads.length → ∃ m, n ≤ m ∧ f m = i) :
    ∀ (w t : Nat), (s.run body (turns N C f t)).left W ≤ w → ∃ t', t ≤ t' ∧ Idle (s.run body (turns N C f t')) := by
  intro w
  induction w with
  | zero =>
    intro t hw
    refine ⟨t, Nat.le_refl t, ?_⟩
    apply Classical.byContradiction
    intro hni
    obtain ⟨i, hm⟩ := some_moves (inv_turns hb hi f t) hni
    have := (inv_go hb (inv_turns hb hi f t) i).2 hm
    omega
  | succ w ih =>
    intro t hw
    by_cases hidle : Idle (s.run body (turns N C f t))
    · exact ⟨t, Nat.le_refl t, hidle⟩
    · obtain ⟨i, hm⟩ := some_moves (inv_turns hb hi f t) hidle
      have hlt := moves_lt hm
      rw [length_turns] at hlt
      obtain ⟨m, hle, hfm⟩ := hf i t hlt
      -- before or at turn `m` some act is done
      have : ∃ u, t ≤ u ∧ (s.run body (turns N C f u)).left W < (s.run body (turns N C f t)).left W := by
        have walk : ∀ d, (∃ u, t ≤ u ∧ (s.run body (turns N C f u)).left W < (s.run body (turns N C f t)).left W) ∨
            s.run body (turns N C f (t + d)) = s.run body (turns N C f t) := by
          intro d
          induction d with
          | zero => exact .inr rfl
          | succ d ihd =>
            rcases ihd with h | h
            · exact .inl h
            · by_cases hmv : Moves (s.run body (turns N C f t)) (f (t + d))
              · left
                refine ⟨t + d + 1, by omega, ?_⟩
                rw [run_turns_succ, h]
                exact (inv_go hb (inv_turns hb hi f t) _).2 hmv
              · right
                rw [← Nat.add_assoc, run_turns_succ, h, stays_step hmv]
        rcases walk (m - t) with h | h
        · exact h
        · have e : t + (m - t) = m := by omega
          rw [e] at h
          refine ⟨m + 1, by omega, ?_⟩
          rw [run_turns_succ, h, hfm]
          exact (inv_go hb (inv_turns hb hi f t) i).2 hm
      obtain ⟨u, hu, hlt'⟩ := this
      obtain ⟨t', ht', hid⟩ := ih u (by omega)
      exact ⟨t', by omega, hid⟩

theorem answered_step (body : C → List (Stmt N C)) (s : Sys N C) (op : Op N C) {id : Nat} (h : id ∈ s.answered) : id ∈ (s.step body op).answered := by
  cases op with
  | start p => exact h
  | go i =>
    by_cases hm : Moves s i
    · obtain ⟨a, rest, s', hl, he, e⟩ := moves_exec (body := body) hm
      rw [e]
      cases a with
      | acq =>
        simp only [Sys.exec] at he
        split at he
        · simp only [Option.some.injEq] at he; subst he; exact h
        · simp at he
      | _ => simp only [Sys.exec, Option.some.injEq] at he; subst he; simp [h]
    · rwa [stays_step hm]

theorem answered_run' (body : C → List (Stmt N C)) (ops : List (Op N C)) : ∀ (s : Sys N C) {id : Nat}, id ∈ s.answered → id ∈ (s.run body ops).answered := by
  induction ops with
  | nil => intro s id h; exact h
  | cons op ops ih => intro s id h; exact ih _ (answered_step body s op h)

theorem pending_idle {s : Sys N C} (h : Idle s) (id : Nat) : ¬ Pending s id := by
  rintro ⟨l, hl, hp⟩
  rw [h l hl] at hp
  simp at hp

/-- As long as no prompt handler uses its server, and the work behind every name is bounded, every request that was given to any thread is answered, under
every schedule that gives each thread its turn again and again; no fairness of the mutex is needed, and handlers of tools and resources may register,
unregister, list, and call tools, resources and prompts of their server at will.

Partial: the two counterexamples below show what prompt handlers do to this. -/
theorem C105_answered_partial (body : C → List (Stmt N C)) (W : Kind → N → Nat) (reg : Kind → N → Option C)
    (hb : ∀ c, Sound body W (body c)) (hr : ∀ k n c, reg k n = some c → Fits body W k n c)
    (ops : List (Op N C)) (hp : ∀ p, Op.start p ∈ ops → Sound body W p)
    (f : Nat → Nat) (hf : ∀ i n, i < ops.length → ∃ m, n ≤ m ∧ f m = i) :
    ∃ t, ∀ more : List (Op N C), ∀ p id r, Op.start p ∈ ops → Stmt.serve id r ∈ p →
      id ∈ ((Sys.init reg).run body (ops ++ turns N C f t ++ more)).answered := by
  have hi := inv_run hb ops (Sys.init reg) (inv_init body W reg hr) hp
  have hlen := length_run body ops (Sys.init reg)
  have hlen' : ((Sys.init reg).run body ops).threads.length ≤ ops.length := by simpa [Sys.init] using hlen
  obtain ⟨t, _, hid⟩ := idle_turns hb hi f (fun i n h => hf i n (by omega)) _ 0 (Nat.le_refl _)
  refine ⟨t, ?_⟩
  intro more p id r hs hm
  rw [run_append, run_append]
  apply answered_run'
  have h1 := pending_run (body := body) ops (Sys.init reg) id (.inr ⟨p, r, hs, hm⟩)
  have h2 := pending_run (body := body) (turns N C f t) _ id (.inl h1)
  rcases h2 with h | h
  · exact h
  · exact absurd h (pending_idle hid id)

/-- A thread finishes alone when nobody else holds the mutex. -/
theorem alone {body : C → List (Stmt N C)} {W : Kind → N → Nat} (hb : ∀ c, Sound body W (body c)) (i : Nat) : ∀ (w : Nat) (s : Sys N C), Inv body W s →
    (s.holder = none ∨ s.holder = some i) → s.left W ≤ w → ∃ k, (s.run body (List.replicate k (.go i))).threads[i]?.getD [] = [] := by
  intro w
  induction w with
  | zero =>
    intro s hi hh hw
    refine ⟨0, ?_⟩
    show s.threads[i]?.getD [] = []
    cases hl : s.threads[i]? with
    | none => rfl
    | some l =>
      cases l with
      | nil => rfl
      | cons a rest =>
        have := (inv_go hb hi i).2 (own_moves hi hh hl)
        omega
  | succ w ih =>
    intro s hi hh hw
    cases hl : s.threads[i]? with
    | none => exact ⟨0, by simp [Sys.run, hl]⟩
    | some l =>
      cases l with
      | nil => exact ⟨0, by simp [Sys.run, hl]⟩
      | cons a rest =>
        have hm := own_moves hi hh hl
        have hd := inv_go hb hi i
        have hlt := hd.2 hm
        have hh' : (s.step body (.go i)).holder = none ∨ (s.step body (.go i)).holder = some i := by
          obtain ⟨a', rest', s', hl', he, e⟩ := moves_exec (body := body) hm
          rw [e]
          cases a' with
          | acq =>
            simp only [Sys.exec] at he
            split at he
            · simp only [Option.some.injEq] at he; subst he; exact .inr rfl
            · simp at he
          | rel => simp only [Sys.exec, Option.some.injEq] at he; subst he; exact .inl rfl
          | _ => simp only [Sys.exec, Option.some.injEq] at he; subst he; exact hh
        obtain ⟨k, hk⟩ := ih _ hd.1 hh' (by omega)
        refine ⟨k + 1, ?_⟩
        rw [List.replicate_succ]
        exact hk

/-- Request `id` is to be answered by thread `i`. -/
theorem pending_own (body : C → List (Stmt N C)) (i id : Nat) (k : Nat) : ∀ (s : Sys N C),
    (id ∈ s.answered ∨ ∃ l, s.threads[i]? = some l ∧ (Act.answer id ∈ l ∨ ∃ r, Act.stmt (.serve id r) ∈ l)) →
    (s.run body (List.replicate k (.go i))).threads[i]?.getD [] = [] → id ∈ (s.run body (List.replicate k (.go i))).answered := by
  -- forget the other threads: only thread `i` is scheduled
  induction k with
  | zero =>
    intro s h he
    rcases h with h | ⟨l, hl, hp⟩
    · exact h
    · have : s.threads[i]?.getD [] = [] := he
      rw [hl] at this
      have e : l = [] := this
      subst e
      simp at hp
  | succ k ih =>
    intro s h he
    rw [List.replicate_succ] at he ⊢
    refine ih (s.step body (.go i)) ?_ he
    rcases h with h | ⟨l, hl, hp⟩
    · exact .inl (answered_step body s _ h)
    · by_cases hm : Moves s i
      · obtain ⟨a, rest, s', hl', hx, e⟩ := moves_exec (body := body) hm
        rw [e]
        rw [hl] at hl'
        injection hl' with hl'
        subst hl'
        have hlt : i < s.threads.length := (List.getElem?_eq_some_iff.1 hl).1
        have key : ∀ new : List (Act N C), s'.threads = s.threads.set i new → (∀ x ∈ rest, x ∈ new) →
            ((a = .answer id → id ∈ s'.answered) ∧ ∀ r, a = .stmt (.serve id r) → Act.answer id ∈ new) →
            id ∈ s'.answered ∨ ∃ l, s'.threads[i]? = some l ∧ (Act.answer id ∈ l ∨ ∃ r, Act.stmt (.serve id r) ∈ l) := by
          intro new ht hr hhead
          have hnew : s'.threads[i]? = some new := by rw [ht]; exact List.getElem?_set_self hlt
          rcases hp with hp | ⟨r, hp⟩
          · rcases List.mem_cons.1 hp with e | hp
            · exact .inl (hhead.1 e.symm)
            · exact .inr ⟨new, hnew, .inl (hr _ hp)⟩
          · rcases List.mem_cons.1 hp with e | hp
            · exact .inr ⟨new, hnew, .inl (hhead.2 r e.symm)⟩
            · exact .inr ⟨new, hnew, .inr ⟨r, hr _ hp⟩⟩
        cases a with
        | stmt x =>
          simp only [Sys.exec, Option.some.injEq] at hx
          subst hx
          refine key _ rfl (fun x hx => by simp [hx]) ⟨by simp, ?_⟩
          intro r e
          simp only [Act.stmt.injEq] at e
          subst e
          simp [Stmt.acts]
        | acq =>
          simp only [Sys.exec] at hx
          split at hx
          · simp only [Option.some.injEq] at hx
            subst hx
            exact key _ rfl (fun x hx => hx) ⟨by simp, by simp⟩
          · simp at hx
        | look k n =>
          simp only [Sys.exec, Option.some.injEq] at hx
          subst hx
          refine key _ rfl (fun x hx => ?_) ⟨by simp, by simp⟩
          unfold found
          cases s.reg k n with
          | none => simp [hx]
          | some c => dsimp only; split <;> simp [hx]
        | answer id' =>
          simp only [Sys.exec, Option.some.injEq] at hx
          subst hx
          refine key _ rfl (fun x hx => hx) ⟨?_, by simp⟩
          intro e
          simp only [Act.answer.injEq] at e
          simp [e]
        | rel => simp only [Sys.exec, Option.some.injEq] at hx; subst hx; exact key _ rfl (fun x hx => hx) ⟨by simp, by simp⟩
        | put k n c => simp only [Sys.exec, Option.some.injEq] at hx; subst hx; exact key _ rfl (fun x hx => hx) ⟨by simp, by simp⟩
        | flag b => simp only [Sys.exec, Option.some.injEq] at hx; subst hx; exact key _ rfl (fun x hx => hx) ⟨by simp, by simp⟩
      · rw [stays_step hm]
        exact .inr ⟨l, hl, hp⟩

/-- While handlers of tools and resources run (no thread is inside a use of the registry then), another thread needs none of them to go on: it can serve all
its requests, whatever they are, with nobody else scheduled.

Partial: prompt handlers leave their server alone, as above; while one of them runs this is false (the last counterexample). -/
theorem C105_beside_partial (body : C → List (Stmt N C)) (W : Kind → N → Nat) (reg : Kind → N → Option C)
    (hb : ∀ c, Sound body W (body c)) (hr : ∀ k n c, reg k n = some c → Fits body W k n c)
    (ops : List (Op N C)) (hp : ∀ p, Op.start p ∈ ops → Sound body W p) (hfree : ((Sys.init reg).run body ops).holder = none)
    (p : List (Stmt N C)) (hs : Sound body W p) :
    ∃ k, ∀ id r, Stmt.serve id r ∈ p →
      id ∈ ((Sys.init reg).run body (ops ++ .start p :: List.replicate k (.go ((Sys.init reg).run body ops).threads.length))).answered := by
  have hi := inv_run hb ops (Sys.init reg) (inv_init body W reg hr) hp
  have hi' := inv_start hi hs
  obtain ⟨k, hk⟩ := alone hb ((Sys.init reg).run body ops).threads.length _ _ hi' (.inl hfree) (Nat.le_refl _)
  refine ⟨k, ?_⟩
  intro id r hm
  rw [run_append]
  refine pending_own body _ id k _ (.inr ⟨p.map .stmt, ?_, .inr ⟨r, by simp [hm]⟩⟩) hk
  simp [Sys.step]

/-- The acts of a thread when the mutex is never released again: nothing before the next attempt to lock releases it, reads the registry, or answers `w`. -/
def Stopped (w : Nat) : List (Act N C) → Prop
  | [] => True
  | .acq :: _ => True
  | .stmt x :: r => (∀ q, x = .serve w q → NeedsRegistry q) ∧ Stopped w r
  | .flag _ :: r => Stopped w r
  | .answer id :: r => id ≠ w ∧ Stopped w r
  | .rel :: _ => False
  | .put _ _ _ :: _ => False
  | .look _ _ :: _ => False

theorem stopped_stmts (w : Nat) (p : List (Stmt N C)) (h : ∀ q, Stmt.serve w q ∈ p → NeedsRegistry q) : Stopped w (p.map .stmt : List (Act N C)) := by
  induction p with
  | nil => trivial
  | cons x p ih =>
    refine ⟨fun q e => h q (by simp [e]), ih (fun q hq => h q (by simp [hq]))⟩

theorem stopped_acts (w : Nat) (b : Bool) (x : Stmt N C) (r : List (Act N C)) (hx : ∀ q, x = .serve w q → NeedsRegistry q) (h : Stopped w r) :
    Stopped w (x.acts b ++ r) := by
  cases x with
  | work => exact h
  | use u => cases u <;> cases b <;> first | exact h | trivial
  | call k n => trivial
  | serve id q =>
    cases q with
    | get k n => trivial
    | list => trivial
    | subscribe u =>
      cases u with
      | true => trivial
      | false =>
        refine ⟨?_, h⟩
        rintro rfl
        have := hx _ rfl
        simp [NeedsRegistry] at this
    | unsubscribe u => trivial
    | free =>
      refine ⟨?_, h⟩
      rintro rfl
      exact (hx _ rfl).elim

/-- The mutex is held, and every thread but perhaps `j` is before an attempt to lock it. -/
structure Jam (w : Nat) (j : Option Nat) (s : Sys N C) : Prop where
  held : s.holder ≠ none
  stopped : ∀ (i : Nat) (l : List (Act N C)), s.threads[i]? = some l → some i ≠ j → Stopped w l
  silent : w ∉ s.answered
  here : ∀ i, j = some i → i < s.threads.length

theorem jam_step (body : C → List (Stmt N C)) {w : Nat} {j : Option Nat} {s : Sys N C} (h : Jam w j s) (op : Op N C) (hj : ∀ i, op = .go i → some i ≠ j)
    (hw : ∀ p q, op = .start p → Stmt.serve w q ∈ p → NeedsRegistry q) : Jam w j (s.step body op) := by
  cases op with
  | start p =>
    refine ⟨h.held, ?_, h.silent, ?_⟩
    · intro i l hl hne
      simp only [Sys.step, List.getElem?_append] at hl
      split at hl
      · exact h.stopped i l hl hne
      · have : l = p.map .stmt := by
          cases e : i - s.threads.length with
          | zero => rw [e] at hl; simpa using hl.symm
          | succ m => rw [e] at hl; simp at hl
        subst this
        exact stopped_stmts w p (fun q hq => hw p q rfl hq)
    · intro i hi
      have := h.here i hi
      simp only [Sys.step, List.length_append]
      omega
  | go i =>
    by_cases hm : Moves s i
    · obtain ⟨a, rest, s', hl, he, e⟩ := moves_exec (body := body) hm
      rw [e]
      have hst := h.stopped i _ hl (hj i rfl)
      have hlt : i < s.threads.length := (List.getElem?_eq_some_iff.1 hl).1
      have key : ∀ new : List (Act N C), s'.threads = s.threads.set i new → s'.holder = s.holder → Stopped w new → w ∉ s'.answered → Jam w j s' := by
        intro new ht hh hnew hsil
        refine ⟨by rw [hh]; exact h.held, ?_, hsil, ?_⟩
        · intro i' l hl' hne
          rw [ht] at hl'
          by_cases e' : i = i'
          · subst e'
            rw [List.getElem?_set_self hlt] at hl'
            injection hl' with hl'
            subst hl'
            exact hnew
          · rw [List.getElem?_set_ne e'] at hl'
            exact h.stopped i' l hl' hne
        · intro i' hi'
          rw [ht, List.length_set]
          exact h.here i' hi'
      cases a with
      | stmt x =>
        simp only [Sys.exec, Option.some.injEq] at he
        subst he
        exact key _ rfl rfl (stopped_acts w s.subs x rest hst.1 hst.2) h.silent
      | acq =>
        simp only [Sys.exec] at he
        split at he
        · next hn => exact absurd hn h.held
        · simp at he
      | flag b =>
        simp only [Sys.exec, Option.some.injEq] at he
        subst he
        exact key _ rfl rfl hst h.silent
      | answer id =>
        simp only [Sys.exec, Option.some.injEq] at he
        subst he
        refine key _ rfl rfl hst.2 ?_
        intro hmem
        rcases List.mem_cons.1 hmem with e | hmem
        · exact hst.1 e.symm
        · exact h.silent hmem
      | rel => exact hst.elim
      | put k n c => exact hst.elim
      | look k n => exact hst.elim
    · rw [stays_step hm]
      exact h

theorem jam_run (body : C → List (Stmt N C)) {w : Nat} {j : Option Nat} (ops : List (Op N C)) : ∀ {s : Sys N C}, Jam w j s → (∀ i, Op.go i ∈ ops → some i ≠ j) →
    (∀ p q, Op.start p ∈ ops → Stmt.serve w q ∈ p → NeedsRegistry q) → Jam w j (s.run body ops) := by
  induction ops with
  | nil => intro s h _ _; exact h
  | cons op ops ih =>
    intro s h hj hw
    refine ih (jam_step body h op ?_ ?_) (fun i hi => hj i (by simp [hi])) (fun p q hp => hw p q (by simp [hp]))
    · intro i e; exact hj i (by simp [e])
    · intro p q e; exact hw p q (by simp [e])

/-- A thread runs through work that leaves the server alone. -/
theorem works_run (body : C → List (Stmt N C)) (reg : Kind → N → Option C) (b : Bool) (ans : List Nat) (pre : List (Stmt N C)) (hpre : ∀ x ∈ pre, x = .work) (r : List (Act N C)) :
    (Sys.mk (some 0) reg b [pre.map .stmt ++ r] ans).run body (List.replicate pre.length (.go 0)) = Sys.mk (some 0) reg b [r] ans := by
  induction pre with
  | nil => rfl
  | cons x pre ih =>
    have : x = .work := hpre x (by simp)
    subst this
    exact ih (fun y hy => hpre y (by simp [hy]))

/-- The thread that serves a prompt is in the handler after three acts, and holds the mutex. -/
theorem enters (body : C → List (Stmt N C)) (reg : Kind → N → Option C) (n : N) (c : C) (id : Nat) (hreg : reg .prompt n = some c) :
    (Sys.init reg).run body [.start [.serve id (.get .prompt n)], .go 0, .go 0, .go 0] =
      Sys.mk (some 0) reg false [(body c).map .stmt ++ [.rel, .answer id]] [] := by
  simp [Sys.run, Sys.step, Sys.exec, Sys.init, Stmt.acts, Req.acts, found, hreg]

/-- Whenever the handler of a registered prompt uses the registry of its server (registers, unregisters or lists something, calls a tool, reads a resource or
gets a prompt locally), serving that prompt blocks the server: after the request, whatever happens from then on, the request itself is not answered, nor any
later one that needs the registry. -/
theorem C105_prompt_handler_counterexample (body : C → List (Stmt N C)) (reg : Kind → N → Option C) (n : N) (c : C) (hreg : reg .prompt n = some c)
    (pre : List (Stmt N C)) (x : Stmt N C) (post : List (Stmt N C)) (hbody : body c = pre ++ x :: post) (hpre : ∀ y ∈ pre, y = .work) (hx : UsesRegistry x)
    (id : Nat) :
    ∃ ops : List (Op N C), (∀ p, Op.start p ∈ ops → p = [.serve id (.get .prompt n)]) ∧ Op.start [.serve id (.get .prompt n)] ∈ ops ∧
      ∀ (more : List (Op N C)) (w : Nat), (∀ p q, Op.start p ∈ more → Stmt.serve w q ∈ p → NeedsRegistry q) →
        w ∉ ((Sys.init reg).run body (ops ++ more)).answered := by
  refine ⟨[.start [.serve id (.get .prompt n)], .go 0, .go 0, .go 0] ++ List.replicate pre.length (.go 0) ++ [.go 0], ?_, by simp, ?_⟩
  · intro p hp
    simpa using hp
  · intro more w hw
    rw [run_append, run_append, run_append, enters body reg n c id hreg, hbody]
    have e : (pre ++ x :: post).map Act.stmt ++ [Act.rel, Act.answer id] = pre.map .stmt ++ (Act.stmt x :: (post.map .stmt ++ [.rel, .answer id])) := by simp
    rw [e, works_run body reg false [] pre hpre]
    refine (jam_run (j := none) body more ?_ (by simp) hw).silent
    have hstep : (Sys.mk (some 0) reg false [Act.stmt x :: (post.map .stmt ++ [.rel, .answer id])] []).run body [.go 0] =
        Sys.mk (some 0) reg false [x.acts false ++ (post.map .stmt ++ [.rel, .answer id])] [] := by
      simp [Sys.run, Sys.step, Sys.exec]
    rw [hstep]
    refine ⟨by simp, ?_, by simp, by simp⟩
    intro i l hl _
    cases i with
    | succ i => simp at hl
    | zero =>
      simp only [List.getElem?_cons_zero, Option.some.injEq] at hl
      subst hl
      cases x with
      | work => exact hx.elim
      | use u =>
        cases u with
        | updated => exact hx.elim
        | _ => trivial
      | call k n => trivial
      | serve id' q =>
        cases q with
        | get k n => trivial
        | list => trivial
        | subscribe u =>
          have : u = true := hx
          subst this
          trivial
        | unsubscribe u => trivial
        | free => exact hx.elim

/-- A prompt handler that merely announces an updated resource blocks the server for good once a client has subscribed to resources, which any client may do
without naming one. -/
theorem C105_updated_counterexample (body : C → List (Stmt N C)) (reg : Kind → N → Option C) (n : N) (c : C) (hreg : reg .prompt n = some c)
    (post : List (Stmt N C)) (hbody : body c = .use .updated :: post) (a id : Nat) :
    ∃ ops : List (Op N C), (∀ p, Op.start p ∈ ops → p = [.serve a (.subscribe false), .serve id (.get .prompt n)]) ∧
      ∀ (more : List (Op N C)) (w : Nat), w ≠ a → (∀ p q, Op.start p ∈ more → Stmt.serve w q ∈ p → NeedsRegistry q) →
        w ∉ ((Sys.init reg).run body (ops ++ more)).answered := by
  refine ⟨[.start [.serve a (.subscribe false), .serve id (.get .prompt n)], .go 0, .go 0, .go 0, .go 0, .go 0, .go 0, .go 0], by simp, ?_⟩
  intro more w hwa hw
  rw [run_append]
  have e : (Sys.init reg).run body [.start [.serve a (.subscribe false), .serve id (.get .prompt n)], .go 0, .go 0, .go 0, .go 0, .go 0, .go 0, .go 0] =
      Sys.mk (some 0) reg true [Act.acq :: .rel :: (post.map .stmt ++ [.rel, .answer id])] [a] := by
    simp [Sys.run, Sys.step, Sys.exec, Sys.init, Stmt.acts, Req.acts, found, hreg, hbody]
  rw [e]
  refine (jam_run (j := none) body more ?_ (by simp) hw).silent
  refine ⟨by simp, ?_, by simpa using hwa, by simp⟩
  intro i l hl _
  cases i with
  | succ i => simp at hl
  | zero =>
    simp only [List.getElem?_cons_zero, Option.some.injEq] at hl
    subst hl
    trivial

/-- Even a prompt handler that leaves the server alone keeps every other thread waiting: while it runs, no later request that needs the registry is answered,
however much the other threads are scheduled, until the handler's own thread is. -/
theorem C105_slow_prompt_counterexample (body : C → List (Stmt N C)) (reg : Kind → N → Option C) (n : N) (c : C) (hreg : reg .prompt n = some c) (id : Nat) :
    ∃ ops : List (Op N C), (∀ p, Op.start p ∈ ops → p = [.serve id (.get .prompt n)]) ∧ Op.start [.serve id (.get .prompt n)] ∈ ops ∧
      ∀ (more : List (Op N C)) (w : Nat), Op.go 0 ∉ more → (∀ p q, Op.start p ∈ more → Stmt.serve w q ∈ p → NeedsRegistry q) →
        w ∉ ((Sys.init reg).run body (ops ++ more)).answered := by
  refine ⟨[.start [.serve id (.get .prompt n)], .go 0, .go 0, .go 0], by simp, by simp, ?_⟩
  intro more w h0 hw
  rw [run_append, enters body reg n c id hreg]
  refine (jam_run (j := some 0) body more ?_ ?_ hw).silent
  · refine ⟨by simp, ?_, by simp, by simp⟩
    intro i l hl hne
    cases i with
    | succ i => simp at hl
    | zero => exact absurd rfl hne
  · intro i hi e
    injection e with e
    subst e
    exact h0 hi

end

/-! Examples. Code 0 is the tool `0`: it registers the tool `1` and calls the resource `0` of its server; code 1 is that resource, which lists the tools; code 2 is the prompt `0`,
which only works. -/

/-- Handlers of the examples. -/
def lockBody : Nat → List (Stmt Nat Nat)
  | 0 => [.use (.register .tool 1 1), .call .resource 0]
  | 1 => [.use .list, .work]
  | 3 => [.work, .use .list]
  | 4 => [.use .updated]
  | _ => [.work]

def lockReg : Kind → Nat → Option Nat
  | .tool, 0 => some 0
  | .resource, 0 => some 1
  | .prompt, 0 => some 2
  | .prompt, 1 => some 3
  | .prompt, 2 => some 4
  | _, _ => none

/-- The registry without the prompts that use the server. -/
def lockReg' : Kind → Nat → Option Nat
  | .tool, 0 => some 0
  | .resource, 0 => some 1
  | .prompt, 0 => some 2
  | _, _ => none

def lockWork : Kind → Nat → Nat
  | .tool, 0 => 20
  | _, _ => 8

theorem lock_sound (c : Nat) : Sound lockBody lockWork (lockBody c) := by
  intro k n c' h
  match c with
  | 0 =>
    simp only [lockBody, List.mem_cons, Stmt.use.injEq, Use.register.injEq, reduceCtorEq, List.not_mem_nil, or_false] at h
    obtain ⟨rfl, rfl, rfl⟩ := h
    exact ⟨by decide, by simp⟩
  | 1 => simp [lockBody] at h
  | 2 => simp [lockBody] at h
  | 3 => simp [lockBody] at h
  | 4 => simp [lockBody] at h
  | n + 5 => simp [lockBody] at h

theorem lock_fits (k : Kind) (n c : Nat) (h : lockReg' k n = some c) : Fits lockBody lockWork k n c := by
  match k, n with
  | .tool, 0 => injection h with h; subst h; exact ⟨by decide, by simp⟩
  | .resource, 0 => injection h with h; subst h; exact ⟨by decide, by simp⟩
  | .prompt, 0 => injection h with h; subst h; exact ⟨by decide, fun _ => by simp [Quiet, lockBody]⟩
  | .tool, n + 1 => simp [lockReg'] at h
  | .resource, n + 1 => simp [lockReg'] at h
  | .prompt, n + 1 => simp [lockReg'] at h

/-- Three threads serve a tool call, a prompt and a listing; taking turns they answer all three. -/
example : ∃ t, ∀ more : List (Op Nat Nat), ∀ id ∈ [7, 8, 9], id ∈ ((Sys.init lockReg').run lockBody
    ([.start [.serve 7 (.get .tool 0)], .start [.serve 8 (.get .prompt 0)], .start [.serve 9 .list]] ++ turns Nat Nat (· % 3) t ++ more)).answered := by
  obtain ⟨t, ht⟩ := C105_answered_partial lockBody lockWork lockReg' lock_sound lock_fits
    [.start [.serve 7 (.get .tool 0)], .start [.serve 8 (.get .prompt 0)], .start [.serve 9 .list]]
    (by intro p hp k n c hm; simp at hp; rcases hp with rfl | rfl | rfl <;> simp at hm)
    (· % 3) (by intro i n hi; simp at hi; exact ⟨3 * n + i, by omega, by show (3 * n + i) % 3 = i; omega⟩)
  refine ⟨t, ?_⟩
  intro more id hid
  simp at hid
  rcases hid with rfl | rfl | rfl
  · exact ht more [.serve 7 (.get .tool 0)] 7 _ (by simp) (List.mem_singleton.2 rfl)
  · exact ht more [.serve 8 (.get .prompt 0)] 8 _ (by simp) (List.mem_singleton.2 rfl)
  · exact ht more [.serve 9 .list] 9 _ (by simp) (List.mem_singleton.2 rfl)

/-- The tool handler is running (its thread has locked, looked up and released), and a listing is served beside it. -/
example : ((Sys.init lockReg').run lockBody [.start [.serve 7 (.get .tool 0)], .go 0, .go 0, .go 0, .go 0]).holder = none ∧
    ((Sys.init lockReg').run lockBody [.start [.serve 7 (.get .tool 0)], .go 0, .go 0, .go 0, .go 0]).threads ≠ [[]] ∧
    9 ∈ ((Sys.init lockReg').run lockBody [.start [.serve 7 (.get .tool 0)], .go 0, .go 0, .go 0, .go 0, .start [.serve 9 .list], .go 1, .go 1, .go 1, .go 1]).answered := by
  refine ⟨by decide, ?_, by decide⟩
  simp [Sys.run, Sys.step, Sys.exec, Sys.init, Stmt.acts, Req.acts, found, lockReg', lockBody]

/-- A prompt whose handler lists the tools after some work; a prompt whose handler announces an updated resource. -/
example : lockReg .prompt 1 = some 3 ∧ lockBody 3 = [.work] ++ .use .list :: [] ∧ UsesRegistry (.use .list : Stmt Nat Nat) ∧
    lockReg .prompt 2 = some 4 ∧ lockBody 4 = .use .updated :: [] := ⟨rfl, rfl, trivial, rfl, rfl⟩

end Verif
