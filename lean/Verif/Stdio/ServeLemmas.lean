import Verif.Stdio.ServeModel
import Verif.Stdio.PendingProps
import Verif.Server.CancelProps

/-! Invariants of the reader thread and its handlers, for C94 and C95. -/

namespace Verif.Serve

open Verif.Stdio

variable {D : Type} [DblFmt D]

/-! ### Specification -/

/-- The messages the other side has written, in order. -/
def arrivals (ops : List (Op D)) : List Bytes :=
  ops.filterMap (fun op => match op with | .arrive m => some m | _ => none)

/-- The requests among messages, in order. -/
def requestsIn (l : List Bytes) : List (Request D) :=
  l.filterMap (fun m => match event (D := D) m with | .request q => some q | _ => none)

/-- An outcome that is not a response. -/
def Failed (o : Outcome D) : Prop := ∀ r, o ≠ .response r

/-- A handler that began as `p` has come to the second argument, and all its requests have failed. -/
inductive Leads (p : Prog D) : Prog D → Prop where
  | refl : Leads p p
  | ask {q : Request D} {k : Outcome D → Prog D} {o : Outcome D} : Leads p (.ask q k) → Failed o → Leads p (k o)
  | look {k : Bool → Prog D} (b : Bool) : Leads p (.look k) → Leads p (k b)

omit [DblFmt D] in
theorem Leads.trans {p q r : Prog D} (h : Leads p q) (h' : Leads q r) : Leads p r := by
  induction h' with
  | refl => exact h
  | ask _ hf ih => exact .ask ih hf
  | look b _ ih => exact .look b ih

/-! ### Pending requests -/

omit [DblFmt D] in
/-- Only a response step makes responses. -/
theorem no_new_response (s : P D) (op : POp D) (hop : ∀ r, op ≠ .response r) (n : Nat) (r : Response D)
    (h : (n, Outcome.response r) ∈ (s.step op).outcomes) : (n, Outcome.response r) ∈ s.outcomes := by
  cases op with
  | response r' => exact absurd rfl (hop r')
  | sendCheck id =>
    simp only [P.step, P.sendCheck] at h
    split at h
    · exact h
    · simpa using h
  | sendInsert f now =>
    simp only [P.step, P.sendInsert] at h
    split at h
    · exact h
    · simp only at h
      split at h
      · simpa using h
      · exact h
  | sweep now =>
    simp only [P.step, P.sweep] at h
    split at h
    · have key : ∀ (ks : List Bytes) (s : P D),
          (n, Outcome.response r) ∈ (ks.foldl (fun s k => s.complete k (.timeout k now)) s).outcomes → (n, Outcome.response r) ∈ s.outcomes := by
        intro ks
        induction ks with
        | nil => intro s h; exact h
        | cons k ks ih =>
          intro s h
          have h1 : (n, Outcome.response r) ∈ (s.complete k (.timeout k now)).outcomes := ih _ h
          unfold P.complete at h1
          split at h1
          · simpa using h1
          · exact h1
      exact key _ _ h
    · exact h
  | disconnect => exact h
  | close => simpa [P.step, P.close] using h
  | setTimeout t => exact h

omit [DblFmt D] in
theorem next_step (s : P D) (op : POp D) : s.nextFut ≤ (s.step op).nextFut := by
  cases op with
  | sendCheck id => simp only [P.step, P.sendCheck]; split <;> simp
  | sendInsert f now => simp only [P.step, P.sendInsert]; split <;> simp
  | response r => simp only [P.step, P.complete]; split <;> simp
  | sweep now =>
    simp only [P.step, P.sweep]
    split
    · rw [(sweepList_fields now _ s).1]; exact Nat.le_refl _
    · exact Nat.le_refl _
  | disconnect => exact Nat.le_refl _
  | close => exact Nat.le_refl _
  | setTimeout t => exact Nat.le_refl _

omit [DblFmt D] in
/-- Calls between the halves of `SendRequest` come from the first half. -/
theorem checked_step (s : P D) (op : POp D) (n : Nat) (id : RpcId) (h : (n, id) ∈ (s.step op).checked) :
    (n, id) ∈ s.checked ∨ (op = .sendCheck id ∧ n = s.nextFut) := by
  cases op with
  | sendCheck id' =>
    simp only [P.step, P.sendCheck] at h
    split at h
    · simp only [List.mem_append, List.mem_singleton, Prod.mk.injEq] at h
      rcases h with h | ⟨rfl, rfl⟩
      · exact .inl h
      · exact .inr ⟨rfl, rfl⟩
    · exact .inl h
  | sendInsert f now =>
    simp only [P.step, P.sendInsert] at h
    split at h
    · exact .inl h
    · exact .inl (AMap.mem_del.1 h).1
  | response r =>
    rw [P.step, (complete_fields s _ _).2.1] at h
    exact .inl h
  | sweep now =>
    simp only [P.step, P.sweep] at h
    split at h
    · rw [(sweepList_fields now _ s).2.1] at h; exact .inl h
    · exact .inl h
  | disconnect => exact .inl h
  | close => exact .inl h
  | setTimeout t => exact .inl h

/-! ### The invariant -/

structure Good (h : Request D → Prog D) (ops : List (Op D)) (s : S D) : Prop where
  pend : ∃ pops, s.pend = (P.init : P D).run pops
  arr : s.taken ++ s.inbox = arrivals ops
  order : s.replies.map (·.1) ++ (s.busy.map Busy.req).toList = requestsIn s.taken
  wait : ∀ b n, s.busy = some b → b.wait = some n → n < s.pend.nextFut ∧ ∀ r, (n, Outcome.response r) ∉ s.pend.outcomes
  heard : ∀ n o, (n, o) ∈ s.heard → Failed o
  leads : ∀ b, s.busy = some b → Leads (h b.req) b.prog
  replied : ∀ q o, (q, o) ∈ s.replies → Leads (h q) (.done o)
  called : ∀ n id, (n, id) ∈ s.pend.checked → ∃ q, AMap.get s.calls n = some q
  bound : ∀ n q, (n, q) ∈ s.calls → n < s.pend.nextFut

theorem Good.inv {h : Request D → Prog D} {ops : List (Op D)} {s : S D} (g : Good h ops s) : s.pend.Inv := by
  obtain ⟨pops, e⟩ := g.pend
  rw [e]; exact inv_run pops inv_init

theorem good_init (h : Request D → Prog D) : Good h [] (S.init : S D) :=
  ⟨⟨[], rfl⟩, rfl, rfl, by simp [S.init], by simp [S.init], by simp [S.init], by simp [S.init], by simp [S.init, P.init],
    by simp [S.init]⟩

omit [DblFmt D] in
theorem arrivals_snoc (ops : List (Op D)) (op : Op D) :
    arrivals (ops ++ [op]) = arrivals ops ++ (match op with | .arrive m => [m] | _ => []) := by
  cases op <;> simp [arrivals]

omit [DblFmt D] in
theorem lt_of_outcome {s : P D} (hi : s.Inv) {n : Nat} {o : Outcome D} (h : (n, o) ∈ s.outcomes) : n < s.nextFut := by
  have : n ∈ s.all := by
    unfold P.all
    simp only [List.mem_append, List.mem_map]
    exact .inr ⟨_, h, rfl⟩
  exact List.mem_range.1 (hi.conserve.mem_iff.1 this)

/-- A step of the pending requests other than a response, the rest staying as it is. -/
theorem Good.pendStep {h : Request D → Prog D} {ops : List (Op D)} {s : S D} (g : Good h ops s) (op : Op D) (pop : POp D)
    (ha : arrivals (ops ++ [op]) = arrivals ops) (h1 : ∀ r, pop ≠ .response r) (h2 : ∀ id, pop ≠ .sendCheck id) :
    Good h (ops ++ [op]) { s with pend := s.pend.step pop } := by
  refine ⟨?_, by rw [ha]; exact g.arr, g.order, ?_, g.heard, g.leads, g.replied, ?_, ?_⟩
  · obtain ⟨pops, e⟩ := g.pend
    exact ⟨pops ++ [pop], by rw [run_append, ← e]; rfl⟩
  · intro b n hb hw
    obtain ⟨a1, a2⟩ := g.wait b n hb hw
    exact ⟨Nat.lt_of_lt_of_le a1 (next_step _ _), fun r hr => a2 r (no_new_response _ _ h1 _ _ hr)⟩
  · intro n id hm
    rcases checked_step _ _ _ _ hm with hm | ⟨e, -⟩
    · exact g.called n id hm
    · exact absurd e (h2 id)
  · intro n q hm
    exact Nat.lt_of_lt_of_le (g.bound n q hm) (next_step _ _)

theorem requestsIn_snoc (l : List Bytes) (m : Bytes) :
    requestsIn (D := D) (l ++ [m]) = requestsIn l ++ (match event (D := D) m with | .request q => [q] | _ => []) := by
  unfold requestsIn
  rw [List.filterMap_append]
  congr 1
  simp only [List.filterMap_cons, List.filterMap_nil]
  cases event (D := D) m <;> rfl

omit [DblFmt D] in
theorem sendCheck_next (s : P D) (id : RpcId) : (s.sendCheck id).nextFut = s.nextFut + 1 := by
  unfold P.sendCheck; split <;> rfl

/-- The first half of `SendRequest` by any thread; the handler's part of the state is given. -/
theorem Good.checkStep {h : Request D → Prog D} {ops : List (Op D)} {s : S D} (g : Good h ops s) (op : Op D)
    (ha : arrivals (ops ++ [op]) = arrivals ops) (q : Request D) (bz : Option (Busy D))
    (hb : bz = s.busy ∨ ∃ b, s.busy = some b ∧ bz = some { b with wait := some s.pend.nextFut }) :
    Good h (ops ++ [op]) { s.check q with busy := bz } := by
  have hreq : bz.map Busy.req = s.busy.map Busy.req := by
    rcases hb with rfl | ⟨b, e, rfl⟩
    · rfl
    · rw [e]; rfl
  have hn : ∀ n r, (n, Outcome.response r) ∈ (s.pend.sendCheck q.id).outcomes → (n, Outcome.response r) ∈ s.pend.outcomes :=
    fun n r => no_new_response s.pend (.sendCheck q.id) (by simp) n r
  refine ⟨?_, by rw [ha]; exact g.arr, ?_, ?_, g.heard, ?_, g.replied, ?_, ?_⟩
  · obtain ⟨pops, e⟩ := g.pend
    exact ⟨pops ++ [.sendCheck q.id], by rw [run_append, ← e]; rfl⟩
  · show s.replies.map (·.1) ++ (bz.map Busy.req).toList = _
    rw [hreq]; exact g.order
  · intro b n hb' hw
    have hb' : bz = some b := hb'
    show n < (s.pend.sendCheck q.id).nextFut ∧ _
    rw [sendCheck_next]
    rcases hb with rfl | ⟨b0, e, rfl⟩
    · obtain ⟨a1, a2⟩ := g.wait b n hb' hw
      exact ⟨by omega, fun r hr => a2 r (hn _ _ hr)⟩
    · cases hb'
      cases hw
      refine ⟨by omega, fun r hr => ?_⟩
      have := lt_of_outcome g.inv (hn _ _ hr)
      omega
  · intro b hb'
    have hb' : bz = some b := hb'
    rcases hb with rfl | ⟨b0, e, rfl⟩
    · exact g.leads b hb'
    · cases hb'
      exact g.leads b0 e
  · intro n id hm
    show ∃ q', AMap.get (s.calls ++ [(s.pend.nextFut, q)]) n = some q'
    rw [AMap.get_append]
    rcases checked_step s.pend (.sendCheck q.id) _ _ hm with hm | ⟨-, rfl⟩
    · obtain ⟨q', e⟩ := g.called n id hm
      exact ⟨q', by rw [e]; rfl⟩
    · have : AMap.get s.calls s.pend.nextFut = none := by
        rw [AMap.get_none_iff]
        intro hk
        obtain ⟨x, hx, e⟩ := List.mem_map.1 hk
        have := g.bound x.1 x.2 hx
        omega
      exact ⟨q, by rw [this]; simp [AMap.get]⟩
  · intro n q' hm
    show n < (s.pend.sendCheck q.id).nextFut
    rw [sendCheck_next]
    have hm : (n, q') ∈ s.calls ++ [(s.pend.nextFut, q)] := hm
    simp only [List.mem_append, List.mem_singleton, Prod.mk.injEq] at hm
    rcases hm with hm | ⟨rfl, -⟩
    · have := g.bound n q' hm; omega
    · omega

theorem good_step (h : Request D → Prog D) {ops : List (Op D)} {s : S D} (g : Good h ops s) (op : Op D) :
    Good h (ops ++ [op]) (s.step h op) := by
  cases op with
  | arrive m =>
    refine ⟨g.pend, ?_, g.order, g.wait, g.heard, g.leads, g.replied, g.called, g.bound⟩
    show s.taken ++ (s.inbox ++ [m]) = _
    rw [← List.append_assoc, g.arr, arrivals_snoc]
  | read =>
    have ha : arrivals (ops ++ [.read]) = arrivals ops := by rw [arrivals_snoc]; simp
    have same : Good h (ops ++ [.read]) s :=
      ⟨g.pend, by rw [ha]; exact g.arr, g.order, g.wait, g.heard, g.leads, g.replied, g.called, g.bound⟩
    show Good h _ (s.read h)
    unfold S.read
    split
    · split
      · rename_i m rest hb hi
        have harr : (s.taken ++ [m]) ++ rest = arrivals (ops ++ [.read]) := by
          rw [ha, ← g.arr, hi]; simp
        have hord : ∀ {x}, event (D := D) m = x → (∀ q, x ≠ .request q) →
            s.replies.map (·.1) ++ ((none : Option (Busy D)).map Busy.req).toList = requestsIn (s.taken ++ [m]) := by
          intro x hx hq
          have := g.order
          rw [hb] at this
          rw [requestsIn_snoc, ← this, hx]
          cases x with
          | request q => exact absurd rfl (hq q)
          | response r => simp
          | note n => simp
          | unknown => simp
        simp only
        split
        · rename_i r he
          refine ⟨?_, harr, ?_, ?_, g.heard, ?_, g.replied, ?_, ?_⟩
          · obtain ⟨pops, e⟩ := g.pend
            exact ⟨pops ++ [.response r], by rw [run_append, ← e]; rfl⟩
          · show s.replies.map (·.1) ++ (s.busy.map Busy.req).toList = _
            rw [hb]; exact hord he (by simp)
          · intro b n hb'
            have hb' : s.busy = some b := hb'
            rw [hb] at hb'; cases hb'
          · intro b hb'
            have hb' : s.busy = some b := hb'
            rw [hb] at hb'; cases hb'
          · intro n id hm
            rcases checked_step s.pend (.response r) _ _ hm with hm | ⟨e, -⟩
            · exact g.called n id hm
            · cases e
          · intro n q hm
            exact Nat.lt_of_lt_of_le (g.bound n q hm) (next_step s.pend (.response r))
        · rename_i q he
          refine ⟨g.pend, harr, ?_, ?_, g.heard, ?_, g.replied, g.called, g.bound⟩
          · show s.replies.map (·.1) ++ [q] = requestsIn (s.taken ++ [m])
            have := g.order
            rw [hb] at this
            rw [requestsIn_snoc, he, ← this]; simp
          · intro b n hb' hw
            cases hb'
            cases hw
          · intro b hb'
            cases hb'
            exact .refl
        · rename_i n he
          have key : Good h (ops ++ [.read]) { s with inbox := rest, taken := s.taken ++ [m] } := by
            refine ⟨g.pend, harr, ?_, g.wait, g.heard, g.leads, g.replied, g.called, g.bound⟩
            show s.replies.map (·.1) ++ (s.busy.map Busy.req).toList = _
            rw [hb]; exact hord he (by simp)
          unfold S.notify
          split
          · exact ⟨key.pend, key.arr, key.order, key.wait, key.heard, key.leads, key.replied, key.called, key.bound⟩
          · exact key
        · rename_i he
          refine ⟨g.pend, harr, ?_, g.wait, g.heard, g.leads, g.replied, g.called, g.bound⟩
          show s.replies.map (·.1) ++ (s.busy.map Busy.req).toList = _
          rw [hb]; exact hord he (by simp)
      · exact same
    · exact same
  | work =>
    have ha : arrivals (ops ++ [.work]) = arrivals ops := by rw [arrivals_snoc]; simp
    have same : Good h (ops ++ [.work]) s :=
      ⟨g.pend, by rw [ha]; exact g.arr, g.order, g.wait, g.heard, g.leads, g.replied, g.called, g.bound⟩
    show Good h _ s.work
    unfold S.work
    split
    · exact same
    · rename_i b hb
      split
      · rename_i o hp
        refine ⟨g.pend, by rw [ha]; exact g.arr, ?_, by simp, g.heard, by simp, ?_, g.called, g.bound⟩
        · show (s.replies ++ [(b.req, o)]).map (·.1) ++ [] = _
          rw [← g.order, hb]; simp
        · intro q o' hm
          simp only [List.mem_append, List.mem_singleton, Prod.mk.injEq] at hm
          rcases hm with hm | ⟨rfl, rfl⟩
          · exact g.replied q o' hm
          · have := g.leads b hb
            rw [hp] at this; exact this
      · rename_i k hp
        refine ⟨g.pend, by rw [ha]; exact g.arr, ?_, ?_, g.heard, ?_, g.replied, g.called, g.bound⟩
        · rw [← g.order, hb]; rfl
        · intro b' n hb' hw
          cases hb'
          exact g.wait b n hb hw
        · intro b' hb'
          cases hb'
          have := g.leads b hb
          rw [hp] at this; exact .look _ this
      · rename_i q k hp hw
        exact g.checkStep .work ha q _ (.inr ⟨b, hb, rfl⟩)
      · rename_i q k n hp hw
        split
        · exact same
        · rename_i o ho
          have hf : Failed o := by
            intro r e
            exact (g.wait b n hb hw).2 r (e ▸ AMap.get_some_mem ho)
          refine ⟨g.pend, by rw [ha]; exact g.arr, ?_, ?_, ?_, ?_, g.replied, g.called, g.bound⟩
          · rw [← g.order, hb]; rfl
          · intro b' n' hb' hw'
            cases hb'
            cases hw'
          · intro n' o' hm
            simp only [List.mem_append, List.mem_singleton, Prod.mk.injEq] at hm
            rcases hm with hm | ⟨rfl, rfl⟩
            · exact g.heard n' o' hm
            · exact hf
          · intro b' hb'
            cases hb'
            have := g.leads b hb
            rw [hp] at this; exact .ask this hf
  | check q => exact g.checkStep (.check q) (by rw [arrivals_snoc]; simp) q s.busy (.inl rfl)
  | file n now =>
    have ha : arrivals (ops ++ [.file n now]) = arrivals ops := by rw [arrivals_snoc]; simp
    show Good h _ (s.file n now)
    unfold S.file
    split
    · have k := g.pendStep (.file n now) (.sendInsert n now) ha (by simp) (by simp)
      exact ⟨k.pend, k.arr, k.order, k.wait, k.heard, k.leads, k.replied, k.called, k.bound⟩
    · exact ⟨g.pend, by rw [ha]; exact g.arr, g.order, g.wait, g.heard, g.leads, g.replied, g.called, g.bound⟩
  | sweep now => exact g.pendStep (.sweep now) (.sweep now) (by rw [arrivals_snoc]; simp) (by simp) (by simp)
  | disconnect => exact g.pendStep .disconnect .disconnect (by rw [arrivals_snoc]; simp) (by simp) (by simp)
  | close => exact g.pendStep .close .close (by rw [arrivals_snoc]; simp) (by simp) (by simp)
  | setTimeout t => exact g.pendStep (.setTimeout t) (.setTimeout t) (by rw [arrivals_snoc]; simp) (by simp) (by simp)

theorem good_from (h : Request D → Prog D) (more : List (Op D)) : ∀ {ops : List (Op D)} {s : S D}, Good h ops s →
    Good h (ops ++ more) (s.run h more) := by
  induction more with
  | nil => intro ops s g; rw [List.append_nil]; exact g
  | cons op more ih =>
    intro ops s g
    have := ih (good_step h g op)
    rw [List.append_assoc] at this
    exact this

theorem good_run (h : Request D → Prog D) (ops : List (Op D)) : Good h ops ((S.init : S D).run h ops) := by
  have := good_from h ops (good_init (D := D) h)
  simpa using this

end Verif.Serve
