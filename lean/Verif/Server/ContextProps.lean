import Verif.Server.Context

/-! C54: the request context is scoped. -/

set_option linter.unusedSectionVars false

namespace Verif

open Context

variable {D V : Type}

/-! ### Specification -/

/-- The dispatches open on thread `t`, innermost first, after these operations (newest first). -/
def openOn (t : Nat) : List (Context.Op V) → List (Option V)
  | [] => []
  | .enter u v :: h => if u = t then v :: openOn t h else openOn t h
  | .leave u :: h => if u = t then (openOn t h).tail else openOn t h

/-- What a thread should be told: the innermost open dispatch. -/
def shouldRead : List (Option V) → Reading V
  | some v :: _ => .value v
  | none :: _ => .null
  | [] => .null

/-! ### Invariant -/

/-- The pointers of a thread from the current one outwards, and the objects, as the open dispatches say. -/
def Linked (m : Mem V) : Option Nat → List (Option Nat × Option Nat) → List (Option V) → Prop
  | cur, [], [] => cur = none
  | cur, (prev, own) :: rest, v :: vs => cur = own ∧ (match v with | some x => ∃ a, own = some a ∧ m.objects a = some x | none => own = none) ∧ Linked m prev rest vs
  | _, _, _ => False

/-- Addresses owned by the scopes of a thread. -/
def owned (th : Context.Thread) : List Nat := th.scopes.filterMap (·.2)

structure MemOk (m : Mem V) (h : List (Context.Op V)) : Prop where
  linked : ∀ t, Linked m (m.threads t).cur (m.threads t).scopes (openOn t h)
  below : ∀ t a, a ∈ owned (m.threads t) → a < m.next
  nodup : ∀ t, (owned (m.threads t)).Nodup
  apart : ∀ t u a, t ≠ u → a ∈ owned (m.threads t) → a ∉ owned (m.threads u)

theorem linked_objects {m m' : Mem V} : ∀ (sc : List (Option Nat × Option Nat)) (cur : Option Nat) (vs : List (Option V)),
    (∀ a ∈ sc.filterMap (·.2), m'.objects a = m.objects a) → Linked m cur sc vs → Linked m' cur sc vs := by
  intro sc
  induction sc with
  | nil => intro cur vs _ h; cases vs with | nil => exact h | cons v vs => exact h
  | cons p rest ih =>
    intro cur vs ho h
    obtain ⟨prev, own⟩ := p
    cases vs with
    | nil => exact h
    | cons v vs =>
      obtain ⟨h1, h2, h3⟩ := h
      refine ⟨h1, ?_, ih prev vs (fun a ha => ho a ?_) h3⟩
      · cases v with
        | none => exact h2
        | some x =>
          obtain ⟨a, ha, hx⟩ := h2
          refine ⟨a, ha, ?_⟩
          rw [ho a (by simp [ha])]; exact hx
      · cases own with
        | none => simpa using ha
        | some b => simp only [List.filterMap_cons]; exact List.mem_cons_of_mem _ ha

theorem memOk_init : MemOk (Mem.init : Mem V) [] :=
  ⟨fun _ => rfl, (fun _ a h => by cases h), (fun _ => List.nodup_nil), (fun _ _ a _ h => by cases h)⟩

theorem setAt_self {T : Type} (f : Nat → T) (k : Nat) (x : T) : setAt f k x k = x := by simp [setAt]
theorem setAt_ne {T : Type} (f : Nat → T) {k i : Nat} (x : T) (h : i ≠ k) : setAt f k x i = f i := by simp [setAt, h]

theorem memOk_step {m : Mem V} {h : List (Context.Op V)} (hm : MemOk m h) (op : Context.Op V) : MemOk (m.step op) (op :: h) := by
  cases op with
  | enter t v =>
    have hobj : ∀ u, ∀ a ∈ owned (m.threads u), (m.step (.enter t v)).objects a = m.objects a := by
      intro u a ha
      have := hm.below u a ha
      exact setAt_ne _ _ (by omega)
    have hth : (m.step (.enter t v)).threads t = ⟨v.map (fun _ => m.next), ((m.threads t).cur, v.map (fun _ => m.next)) :: (m.threads t).scopes⟩ := setAt_self _ _ _
    have hother : ∀ u, u ≠ t → (m.step (.enter t v)).threads u = m.threads u := fun u hu => setAt_ne _ _ hu
    have howned : ∀ a, a ∈ owned ((m.step (.enter t v)).threads t) → a = m.next ∨ a ∈ owned (m.threads t) := by
      intro a ha
      rw [hth] at ha
      cases v with
      | none => exact .inr (by simpa [owned] using ha)
      | some x => simpa [owned] using ha
    refine ⟨?_, ?_, ?_, ?_⟩
    · intro u
      by_cases e : u = t
      · subst e
        rw [hth]
        simp only [openOn, if_true]
        refine ⟨rfl, ?_, linked_objects _ _ _ (hobj u) (hm.linked u)⟩
        cases v with
        | none => rfl
        | some x => exact ⟨m.next, rfl, setAt_self _ _ _⟩
      · rw [hother u e]
        simp only [openOn, if_neg (Ne.symm e)]
        exact linked_objects _ _ _ (hobj u) (hm.linked u)
    · intro u a ha
      show a < m.next + 1
      by_cases e : u = t
      · subst e
        rcases howned a ha with h1 | h1
        · omega
        · have := hm.below u a h1; omega
      · rw [hother u e] at ha
        have := hm.below u a ha; omega
    · intro u
      by_cases e : u = t
      · subst e
        rw [hth]
        cases v with
        | none => exact hm.nodup u
        | some x =>
          show (m.next :: owned (m.threads u)).Nodup
          refine List.nodup_cons.2 ⟨?_, hm.nodup u⟩
          intro hx
          have := hm.below u _ hx; omega
      · rw [hother u e]; exact hm.nodup u
    · intro u w a hne ha hb
      by_cases e : u = t
      · subst e
        rw [hother w (Ne.symm hne)] at hb
        rcases howned a ha with h1 | h1
        · have := hm.below w a hb; omega
        · exact hm.apart u w a hne h1 hb
      · rw [hother u e] at ha
        by_cases e' : w = t
        · subst e'
          rcases howned a hb with h1 | h1
          · have := hm.below u a ha; omega
          · exact hm.apart u w a hne ha h1
        · rw [hother w e'] at hb
          exact hm.apart u w a hne ha hb
  | leave t =>
    cases hs : (m.threads t).scopes with
    | nil =>
      have hstep : m.step (.leave t) = m := by simp only [Mem.step, hs]
      have hl := hm.linked t
      rw [hs] at hl
      have ho : openOn t h = [] := by
        cases hh : openOn t h with
        | nil => rfl
        | cons v vs => rw [hh] at hl; exact hl.elim
      rw [hstep]
      refine ⟨?_, hm.below, hm.nodup, hm.apart⟩
      intro u
      by_cases e : u = t
      · subst e
        have := hm.linked u
        rw [ho] at this
        simp only [openOn, if_true, ho, List.tail_nil]; exact this
      · simp only [openOn, if_neg (Ne.symm e)]; exact hm.linked u
    | cons p rest =>
      obtain ⟨prev, own⟩ := p
      have hstep : m.step (.leave t) = { m with objects := dropObj m.objects own, threads := setAt m.threads t ⟨prev, rest⟩ } := by simp only [Mem.step, hs]
      have hown : owned (m.threads t) = own.toList ++ rest.filterMap (·.2) := by
        unfold owned; rw [hs]; cases own <;> simp
      have hth : (m.step (.leave t)).threads t = ⟨prev, rest⟩ := by rw [hstep]; exact setAt_self _ _ _
      have hother : ∀ u, u ≠ t → (m.step (.leave t)).threads u = m.threads u := fun u hu => by rw [hstep]; exact setAt_ne _ _ hu
      have hobj : ∀ a, (∀ b, own = some b → a ≠ b) → (m.step (.leave t)).objects a = m.objects a := by
        intro a ha
        rw [hstep]
        cases own with
        | none => rfl
        | some b => exact setAt_ne _ _ (ha b rfl)
      have hsub : ∀ a, a ∈ rest.filterMap (·.2) → a ∈ owned (m.threads t) := by
        intro a ha; rw [hown]; exact List.mem_append_right _ ha
      have hl := hm.linked t
      rw [hs] at hl
      refine ⟨?_, ?_, ?_, ?_⟩
      · intro u
        by_cases e : u = t
        · subst e
          rw [hth]
          simp only [openOn, if_true]
          cases hh : openOn u h with
          | nil => rw [hh] at hl; exact hl.elim
          | cons v vs =>
            rw [hh] at hl
            obtain ⟨_, _, h3⟩ := hl
            refine linked_objects _ _ _ ?_ h3
            intro a ha
            refine hobj a ?_
            intro b hb e
            subst hb e
            have hn := hm.nodup u
            rw [hown] at hn
            exact (List.nodup_cons.1 hn).1 ha
        · rw [hother u e]
          simp only [openOn, if_neg (Ne.symm e)]
          refine linked_objects _ _ _ ?_ (hm.linked u)
          intro a ha
          refine hobj a ?_
          intro b hb e'
          subst hb e'
          refine hm.apart u t a e ha ?_
          rw [hown]; simp
      · intro u a ha
        have hnext : (m.step (.leave t)).next = m.next := by rw [hstep]
        rw [hnext]
        by_cases e : u = t
        · subst e
          rw [hth] at ha
          exact hm.below u a (hsub a ha)
        · rw [hother u e] at ha; exact hm.below u a ha
      · intro u
        by_cases e : u = t
        · subst e
          rw [hth]
          have hn := hm.nodup u
          rw [hown] at hn
          exact (List.nodup_append.1 hn).2.1
        · rw [hother u e]; exact hm.nodup u
      · intro u w a hne ha hb
        by_cases e : u = t
        · subst e
          rw [hth] at ha
          rw [hother w (Ne.symm hne)] at hb
          exact hm.apart u w a hne (hsub a ha) hb
        · rw [hother u e] at ha
          by_cases e' : w = t
          · subst e'
            rw [hth] at hb
            exact hm.apart u w a hne ha (hsub a hb)
          · rw [hother w e'] at hb
            exact hm.apart u w a hne ha hb

theorem memOk_run (h : List (Context.Op V)) : MemOk ((Mem.init : Mem V).run h.reverse) h := by
  induction h with
  | nil => exact memOk_init
  | cons op h ih =>
    have : (Mem.init : Mem V).run (op :: h).reverse = ((Mem.init : Mem V).run h.reverse).step op := by simp [Mem.run, List.foldl_append]
    rw [this]; exact memOk_step ih op

/-! ### C54 -/

/-- **C54.** At any moment, on any thread, whatever dispatches were entered and left on any threads, by returning or by an exception: a
thread reads the innermost dispatch it is in, and nothing outside of all; never something that no longer exists. -/
theorem C54_innermost (h : List (Context.Op V)) (t : Nat) : ((Mem.init : Mem V).run h.reverse).read t = shouldRead (openOn t h) := by
  have hl := (memOk_run h).linked t
  unfold Mem.read
  generalize ((Mem.init : Mem V).run h.reverse) = m at hl
  cases hs : (m.threads t).scopes with
  | nil =>
    rw [hs] at hl
    cases ho : openOn t h with
    | nil => rw [ho] at hl; rw [show (m.threads t).cur = none from hl]; rfl
    | cons v vs => rw [ho] at hl; exact hl.elim
  | cons p rest =>
    obtain ⟨prev, own⟩ := p
    rw [hs] at hl
    cases ho : openOn t h with
    | nil => rw [ho] at hl; exact hl.elim
    | cons v vs =>
      rw [ho] at hl
      obtain ⟨h1, h2, _⟩ := hl
      rw [h1]
      cases v with
      | none => rw [show own = none from h2]; rfl
      | some x =>
        obtain ⟨a, ha, hx⟩ := h2
        rw [ha]
        simp only [hx]; rfl

/-- A dispatch with everything nested in it: entering and leaving in turn, on any number of threads, each thread leaving only what it
entered. -/
inductive Nest (t : Nat) : List (Context.Op V) → Prop
  | nil : Nest t []
  | other {u v l} : u ≠ t → Nest t l → Nest t (.enter u v :: l)
  | otherLeave {u l} : u ≠ t → Nest t l → Nest t (.leave u :: l)
  | inner {v a b} : Nest t a → Nest t b → Nest t (.enter t v :: a ++ .leave t :: b)

theorem nest_open {t : Nat} {l : List (Context.Op V)} (hl : Nest t l) : ∀ h, openOn t (l.reverse ++ h) = openOn t h := by
  induction hl with
  | nil => intro h; rfl
  | other hu _ ih => intro h; simp only [List.reverse_cons, List.append_assoc]; rw [ih]; simp [openOn, hu]
  | otherLeave hu _ ih => intro h; simp only [List.reverse_cons, List.append_assoc]; rw [ih]; simp [openOn, hu]
  | inner _ _ iha ihb =>
    intro h
    simp only [List.reverse_cons, List.reverse_append, List.append_assoc, List.cons_append, List.nil_append]
    rw [ihb]
    simp only [openOn, if_true]
    rw [iha]
    simp [openOn]

/-- **C54.** When nested dispatches have returned or thrown, the outer context is there again, whatever they and other threads did. -/
theorem C54_restored (h l : List (Context.Op V)) (t : Nat) (hl : Nest t l) :
    ((Mem.init : Mem V).run (h.reverse ++ l)).read t = ((Mem.init : Mem V).run h.reverse).read t := by
  have := C54_innermost (l.reverse ++ h) t
  simp only [List.reverse_append, List.reverse_reverse] at this
  rw [this, C54_innermost, nest_open hl]

/-- What a handler should be told about a request: a non-empty string id as it is, a numeric one in decimal; likewise the progress token. -/
def IdTold : RpcId → Option Bytes → Prop
  | .str s, o => (s ≠ [] → o = some s) ∧ (s = [] → o = none)
  | .int i, o => o = some (intDec i)
  | .null, o => o = none

/-- **C54.** A handler that runs on the thread of its dispatch is told the id of its own request, however many dispatches surround it, and
its progress token. -/
theorem C54_own_request (h : List (Context.Op Ctx)) (t : Nat) (req : Request D) :
    ∃ o, currentRequestId ((Mem.init).run (h.reverse ++ [.enter t (some (ctxOf req))])) t = some o ∧ IdTold req.id o ∧
      ∀ m meta_, req.params = some (.obj m) → AMap.get m (lit "_meta") = some (.obj meta_) →
        (∀ s, AMap.get meta_ (lit "progressToken") = some (.str s) → s ≠ [] →
          currentProgressToken ((Mem.init).run (h.reverse ++ [.enter t (some (ctxOf req))])) t = some (some s)) ∧
        (∀ i, AMap.get meta_ (lit "progressToken") = some (.int i) →
          currentProgressToken ((Mem.init).run (h.reverse ++ [.enter t (some (ctxOf req))])) t = some (some (intDec i))) := by
  have hr := C54_innermost (.enter t (some (ctxOf req)) :: h) t
  rw [List.reverse_cons] at hr
  simp only [openOn, if_true, shouldRead] at hr
  refine ⟨(ctxOf req).requestId, by unfold currentRequestId; rw [hr], ?_, ?_⟩
  · show IdTold req.id (requestIdText req.id)
    cases req.id with
    | str s => exact ⟨fun h => by simp [requestIdText, h], fun h => by simp [requestIdText, h]⟩
    | int i => rfl
    | null => rfl
  · intro m meta_ hp hm
    unfold currentProgressToken
    rw [hr]
    simp only [ctxOf, hp, progressTokenOf, hm]
    exact ⟨fun s hs hne => by simp [hs, hne], fun i hi => by simp [hi]⟩

/-- **C54** is false for handlers that run on another thread, as the tools of task-mode calls and handlers started with `std::async` do:
they are told nothing, whatever requests other threads are in. -/
theorem C54_other_thread_counterexample (h : List (Context.Op Ctx)) (w : Nat) (hw : ∀ v, Context.Op.enter w v ∉ h) :
    currentRequestId ((Mem.init).run h.reverse) w = some none ∧ currentProgressToken ((Mem.init).run h.reverse) w = some none := by
  have ho : ∀ l : List (Context.Op Ctx), (∀ v, Context.Op.enter w v ∉ l) → openOn w l = [] := by
    intro l
    induction l with
    | nil => intro _; rfl
    | cons op l ih =>
      intro hl
      have := ih (fun v hv => hl v (List.mem_cons_of_mem _ hv))
      cases op with
      | enter u v =>
        have hu : u ≠ w := by
          intro e; subst e; exact hl v (List.mem_cons_self ..)
        simp only [openOn, if_neg hu]; exact this
      | leave u => simp only [openOn, this]; split <;> rfl
  have hr := C54_innermost h w
  rw [ho h hw] at hr
  exact ⟨by unfold currentRequestId; rw [hr]; rfl, by unfold currentProgressToken; rw [hr]; rfl⟩

example : Nest 0 ([.enter 0 (some 7), .enter 1 (some 8), .enter 0 none, .leave 0, .leave 0] : List (Context.Op Nat)) :=
  .inner (v := some 7) (a := [.enter 1 (some 8), .enter 0 none, .leave 0]) (b := [])
    (.other (by decide) (.inner (v := none) (a := []) (b := []) .nil .nil)) .nil
example : ∀ v, Context.Op.enter 1 v ∉ ([.enter 0 (some ⟨some (lit "7"), none⟩)] : List (Context.Op Ctx)) := by
  intro v h; simp at h

end Verif
