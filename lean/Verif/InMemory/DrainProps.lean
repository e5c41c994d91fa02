import Verif.InMemory.Props

/-!
C16: over the in-memory transport a response completes the future of its own request, and no request of an open pair is forgotten: it is
completed, or something is left to be done for it.
-/

set_option linter.unusedSectionVars false

namespace Verif

open InMemory
open Verif.Stdio (idText)

variable {D : Type} [DblFmt D]

namespace InMemory

/-! ### The ids requests go out with -/

/-- The text of the id a caller gave a request, if any. -/
def givenId (y : Bool) : Op D → Option Bytes
  | .send x r => if x = y ∧ idText r.id ≠ [] then some (idText r.id) else none
  | _ => none

/-- A request of side `y` is sent. -/
def sendsOn (y : Bool) : Op D → Bool
  | .send x _ => x == y
  | _ => false

/-- The callers of side `y` give their requests ids of their own, or none, and not of the form the transport makes; and there are fewer than
2^32 requests. -/
structure OwnIds (y : Bool) (ops : List (Op D)) : Prop where
  distinct : (ops.filterMap (givenId y)).Nodup
  form : ∀ k ∈ ops.filterMap (givenId y), ¬ lit "mem-req-" <+: k
  few : ops.countP (sendsOn y) < 2 ^ 32

def madeId (i : Nat) : Bytes := lit "mem-req-" ++ natDec i

theorem madeId_inj {i j : Nat} (h : madeId i = madeId j) : i = j := by
  have := congrArg digitsVal (List.append_cancel_left h)
  rwa [digitsVal_natDec, digitsVal_natDec] at this

theorem ownIds_init {y : Bool} {ops : List (Op D)} {op : Op D} (h : OwnIds y (ops ++ [op])) : OwnIds y ops := by
  obtain ⟨h1, h2, h3⟩ := h
  rw [List.filterMap_append] at h1 h2
  exact ⟨(List.nodup_append.1 h1).1, fun k hk => h2 k (List.mem_append_left _ hk), by rw [List.countP_append] at h3; omega⟩

structure IdInv (y : Bool) (ops : List (Op D)) (e : Endpoint D) : Prop where
  nodup : (e.tab.sent.map (·.2)).Nodup
  made : ∀ k ∈ e.tab.sent.map (·.2), k ∈ ops.filterMap (givenId y) ∨ ∃ i, i ≤ e.counter ∧ k = madeId i
  counter : e.counter ≤ ops.countP (sendsOn y)
  asked : e.asked.map (fun p => (p.1, idText p.2.id)) = e.tab.sent

theorem IdInv.keep {y : Bool} {ops : List (Op D)} {e e' : Endpoint D} (h : IdInv y ops e) (op : Op D) (h1 : e'.tab.sent = e.tab.sent) (h2 : e'.counter = e.counter)
    (h3 : e'.asked = e.asked) : IdInv y (ops ++ [op]) e' := by
  refine ⟨by rw [h1]; exact h.nodup, ?_, by rw [h2, List.countP_append]; have := h.counter; omega, by rw [h1, h3]; exact h.asked⟩
  rw [h1, h2]
  intro k hk
  rcases h.made k hk with h4 | h4
  · exact .inl (by rw [List.filterMap_append]; exact List.mem_append_left _ h4)
  · exact .inr h4

theorem idText_made {id : RpcId} (h : idText id = []) (c : Nat) :
    chooseId id c = (.str (madeId ((c + 1) % 2 ^ 32)), (c + 1) % 2 ^ 32) := by
  cases id with
  | str s => have : s = [] := h; simp [chooseId, this, madeId]
  | int i => exact absurd h (by show intDec i ≠ []; unfold intDec; split <;> simp [natDec_ne_nil])
  | null => rfl

theorem idText_given {id : RpcId} (h : idText id ≠ []) (c : Nat) : chooseId id c = (id, c) := by
  cases id with
  | str s => exact if_neg h
  | int i => rfl
  | null => exact absurd rfl h

theorem IdInv.send {y : Bool} {ops : List (Op D)} {e : Endpoint D} (h : IdInv y ops e) (r : Request D) (ho : OwnIds y (ops ++ [.send y r])) :
    IdInv y (ops ++ [.send y r]) (e.send r) := by
  have hask : (e.send r).asked.map (fun p => (p.1, idText p.2.id)) = (e.send r).tab.sent := by
    simp only [Endpoint.send, PTab.insert, List.map_append, h.asked]
    rfl
  by_cases hid : idText r.id = []
  · have hc := idText_made hid e.counter
    have hlt : e.counter + 1 < 2 ^ 32 := by
      have h1 := ho.few
      have h2 := h.counter
      rw [List.countP_append, List.countP_singleton] at h1
      simp only [sendsOn, beq_self_eq_true, if_true] at h1
      omega
    rw [Nat.mod_eq_of_lt hlt] at hc
    have hsent : (e.send r).tab.sent.map (·.2) = e.tab.sent.map (·.2) ++ [madeId (e.counter + 1)] := by
      simp only [Endpoint.send, PTab.insert, List.map_append, hc]
      rfl
    have hcnt : (e.send r).counter = e.counter + 1 := by simp only [Endpoint.send, hc]
    refine ⟨?_, ?_, ?_, hask⟩
    · rw [hsent, List.nodup_append]
      refine ⟨h.nodup, by simp, fun a ha b hb => ?_⟩
      simp only [List.mem_singleton] at hb
      subst hb
      rcases h.made a ha with h1 | ⟨i, h1, rfl⟩
      · rintro rfl
        exact ho.form _ (by rw [List.filterMap_append]; exact List.mem_append_left _ h1) (List.prefix_append _ _)
      · intro e'
        have := madeId_inj e'
        omega
    · rw [hsent, hcnt]
      intro k hk
      rcases List.mem_append.1 hk with h1 | h1
      · rcases h.made k h1 with h2 | ⟨i, h2, h3⟩
        · exact .inl (by rw [List.filterMap_append]; exact List.mem_append_left _ h2)
        · exact .inr ⟨i, by omega, h3⟩
      · exact .inr ⟨_, Nat.le_refl _, List.mem_singleton.1 h1⟩
    · rw [hcnt, List.countP_append, List.countP_singleton]
      have := h.counter
      simp only [sendsOn, beq_self_eq_true, if_true]
      omega
  · have hc := idText_given hid e.counter
    have hsent : (e.send r).tab.sent.map (·.2) = e.tab.sent.map (·.2) ++ [idText r.id] := by
      simp only [Endpoint.send, PTab.insert, List.map_append, hc]
      rfl
    have hcnt : (e.send r).counter = e.counter := by simp only [Endpoint.send, hc]
    have hg : (ops ++ [Op.send y r]).filterMap (givenId y) = ops.filterMap (givenId y) ++ [idText r.id] := by
      rw [List.filterMap_append]
      congr 1
      simp [givenId, hid]
    refine ⟨?_, ?_, ?_, hask⟩
    · rw [hsent, List.nodup_append]
      refine ⟨h.nodup, by simp, fun a ha b hb => ?_⟩
      simp only [List.mem_singleton] at hb
      subst hb
      have hd := ho.distinct
      rw [hg, List.nodup_append] at hd
      rcases h.made a ha with h1 | ⟨i, h1, rfl⟩
      · exact hd.2.2 a h1 _ (List.mem_singleton.2 rfl)
      · intro e'
        exact ho.form (idText r.id) (by rw [hg]; simp) (by rw [← e']; exact List.prefix_append _ _)
    · rw [hsent, hcnt, hg]
      intro k hk
      rcases List.mem_append.1 hk with h1 | h1
      · rcases h.made k h1 with h2 | h2
        · exact .inl (List.mem_append_left _ h2)
        · exact .inr h2
      · exact .inl (List.mem_append_right _ h1)
    · rw [hcnt, List.countP_append]
      have := h.counter
      omega

theorem apply_sent (e : Endpoint D) (ev : Event D) : (e.apply ev).tab.sent = e.tab.sent ∧ (e.apply ev).counter = e.counter ∧ (e.apply ev).asked = e.asked := by
  cases ev with
  | resolve r => exact ⟨PTab.complete_sent _ _, rfl, rfl⟩
  | request r => exact ⟨rfl, rfl, rfl⟩
  | notification n => exact ⟨rfl, rfl, rfl⟩
  | dropped => exact ⟨rfl, rfl, rfl⟩

/-- What the ids depend on changes in `send` only. -/
theorem step_ids (s : Net D) (op : Op D) (y : Bool) (h : ∀ r, op ≠ .send y r) :
    ((s.step op).get y).tab.sent = (s.get y).tab.sent ∧ ((s.step op).get y).counter = (s.get y).counter ∧ ((s.step op).get y).asked = (s.get y).asked := by
  have push : ∀ (s : Net D) x t, ((s.push x t).get y).tab.sent = (s.get y).tab.sent ∧ ((s.push x t).get y).counter = (s.get y).counter ∧
      ((s.push x t).get y).asked = (s.get y).asked := by
    intro s x t
    rw [get_push]
    split <;> exact ⟨rfl, rfl, rfl⟩
  have upd : ∀ (s : Net D) x (f : Endpoint D → Endpoint D), (∀ e, (f e).tab.sent = e.tab.sent ∧ (f e).counter = e.counter ∧ (f e).asked = e.asked) →
      ((s.upd x f).get y).tab.sent = (s.get y).tab.sent ∧ ((s.upd x f).get y).counter = (s.get y).counter ∧ ((s.upd x f).get y).asked = (s.get y).asked := by
    intro s x f hf
    rw [get_upd]
    split
    · exact hf _
    · exact ⟨rfl, rfl, rfl⟩
  cases op with
  | start x => exact upd s x _ (fun _ => ⟨rfl, rfl, rfl⟩)
  | closeFlag x => exact upd s x _ (fun _ => ⟨rfl, rfl, rfl⟩)
  | closeFail x => exact upd s x _ (fun _ => ⟨rfl, rfl, rfl⟩)
  | send x r =>
    show ((s.upd x (fun e => e.send r)).get y).tab.sent = _ ∧ ((s.upd x (fun e => e.send r)).get y).counter = _ ∧ ((s.upd x (fun e => e.send r)).get y).asked = _
    rw [get_upd, if_neg (by rintro rfl; exact h r rfl)]
    exact ⟨rfl, rfl, rfl⟩
  | deliver x i =>
    simp only [Net.step, Net.deliver]
    split
    · exact ⟨rfl, rfl, rfl⟩
    · have h1 := upd s x (fun e => { e with sending := e.sending.eraseIdx i }) (fun _ => ⟨rfl, rfl, rfl⟩)
      split
      · obtain ⟨a, b, c⟩ := push (s.upd x (fun e => { e with sending := e.sending.eraseIdx i })) x (serRequest ‹_›)
        exact ⟨a.trans h1.1, b.trans h1.2.1, c.trans h1.2.2⟩
      · obtain ⟨a, b, c⟩ := upd (s.upd x (fun e => { e with sending := e.sending.eraseIdx i })) x (fun e => { e with tab := e.tab.complete _ (.peerGone _) }) (fun e => ⟨PTab.complete_sent (t := e.tab) _ _, rfl, rfl⟩)
        exact ⟨a.trans h1.1, b.trans h1.2.1, c.trans h1.2.2⟩
  | notify x n =>
    simp only [Net.step, Net.notify]
    split
    · exact push _ _ _
    · exact upd s x _ (fun _ => ⟨rfl, rfl, rfl⟩)
  | pop x =>
    refine upd s x _ (fun e => ?_)
    unfold Endpoint.pop
    split
    · split <;> exact ⟨rfl, rfl, rfl⟩
    · exact ⟨rfl, rfl, rfl⟩
  | handle x =>
    refine upd s x _ (fun e => ?_)
    unfold Endpoint.handle
    split
    · exact ⟨rfl, rfl, rfl⟩
    · exact apply_sent e _
  | reply x i out =>
    simp only [Net.step, Net.reply]
    split
    · exact ⟨rfl, rfl, rfl⟩
    · rename_i req _
      have h1 := upd s x (fun e => { e with jobs := e.jobs.eraseIdx i, answered := e.answered ++ [(req, out)] }) (fun _ => ⟨rfl, rfl, rfl⟩)
      split
      · obtain ⟨a, b, c⟩ := push (s.upd x (fun e => { e with jobs := e.jobs.eraseIdx i, answered := e.answered ++ [(req, out)] })) x (serResponse (replyFor req out))
        exact ⟨a.trans h1.1, b.trans h1.2.1, c.trans h1.2.2⟩
      · exact h1

theorem run_concat (s : Net D) (a : List (Op D)) (op : Op D) : s.run (a ++ [op]) = (s.run a).step op := by
  unfold Net.run
  rw [List.foldl_append]; rfl

theorem idInv_run (ha hb y : Bool) (ops : List (Op D)) (ho : OwnIds y ops) : IdInv y ops (((Net.init ha hb : Net D).run ops).get y) := by
  have key : ∀ l : List (Op D), OwnIds y l.reverse → IdInv y l.reverse (((Net.init ha hb : Net D).run l.reverse).get y) := by
    intro l
    induction l with
    | nil => intro _; cases y <;> exact ⟨List.nodup_nil, fun k hk => (by cases hk), Nat.le_refl _, rfl⟩
    | cons op l ih =>
      intro ho
      rw [List.reverse_cons] at ho ⊢
      have h := ih (ownIds_init ho)
      rw [run_concat]
      by_cases hs : ∃ r, op = .send y r
      · obtain ⟨r, rfl⟩ := hs
        have e : (((Net.init ha hb : Net D).run l.reverse).step (.send y r)).get y = (((Net.init ha hb : Net D).run l.reverse).get y).send r := by
          show (Net.upd _ y (fun e => e.send r)).get y = _
          rw [get_upd, if_pos rfl]
        rw [e]
        exact h.send r ho
      · obtain ⟨h1, h2, h3⟩ := step_ids ((Net.init ha hb : Net D).run l.reverse) op y (fun r e => hs ⟨r, e⟩)
        exact h.keep op h1 h2 h3
  have := key ops.reverse (by rw [List.reverse_reverse]; exact ho)
  rwa [List.reverse_reverse] at this

/-! ### No promise is overwritten -/

theorem complete_broken {t : PTab (Outcome D)} (k : Bytes) {o : Outcome D} (ho : o ≠ .broken) (h : ∀ x ∈ t.outcomes, x.2 ≠ .broken) :
    ∀ x ∈ (t.complete k o).outcomes, x.2 ≠ .broken := by
  unfold PTab.complete
  split
  · intro x hx
    rcases List.mem_append.1 hx with h1 | h1
    · exact h x h1
    · simp only [List.mem_singleton] at h1
      subst h1
      exact ho
  · exact h

def NoBroken (e : Endpoint D) : Prop := ∀ x ∈ e.tab.outcomes, x.2 ≠ .broken

theorem noBroken_step {s : Net D} {y : Bool} (h : NoBroken (s.get y)) (op : Op D)
    (hs : ∀ r, op = .send y r → AMap.get (s.get y).tab.pending (idText (chooseId r.id (s.get y).counter).1) = none) : NoBroken ((s.step op).get y) := by
  have push : ∀ (s : Net D) x t, NoBroken (s.get y) → NoBroken ((s.push x t).get y) := by
    intro s x t h
    rw [get_push]
    split <;> exact h
  have upd : ∀ (s : Net D) x (f : Endpoint D → Endpoint D), NoBroken (s.get y) → (∀ e, NoBroken e → NoBroken (f e)) → NoBroken ((s.upd x f).get y) := by
    intro s x f h hf
    rw [get_upd]
    split
    · exact hf _ h
    · exact h
  cases op with
  | start x => exact upd s x _ h (fun _ h => h)
  | closeFlag x => exact upd s x _ h (fun _ h => h)
  | closeFail x =>
    refine upd s x _ h (fun e h z hz => ?_)
    rcases List.mem_append.1 hz with h1 | h1
    · exact h z h1
    · obtain ⟨p, -, rfl⟩ := List.mem_map.1 h1
      intro e; cases e
  | send x r =>
    show NoBroken ((s.upd x (fun e => e.send r)).get y)
    rw [get_upd]
    split
    · rename_i hxy
      subst hxy
      have hg := hs r rfl
      intro z hz
      simp only [Endpoint.send, PTab.insert, hg] at hz
      exact h z hz
    · exact h
  | deliver x i =>
    simp only [Net.step, Net.deliver]
    split
    · exact h
    · have h1 := upd s x (fun e => { e with sending := e.sending.eraseIdx i }) h (fun _ h => h)
      split
      · exact push _ _ _ h1
      · exact upd _ x _ h1 (fun e he => complete_broken _ (by simp) he)
  | notify x n =>
    simp only [Net.step, Net.notify]
    split
    · exact push _ _ _ h
    · exact upd s x _ h (fun _ h => h)
  | pop x =>
    refine upd s x _ h (fun e he => ?_)
    unfold Endpoint.pop
    split
    · split <;> exact he
    · exact he
  | handle x =>
    refine upd s x _ h (fun e he => ?_)
    unfold Endpoint.handle
    split
    · exact he
    · show NoBroken (e.apply _)
      unfold Endpoint.apply
      split
      · exact complete_broken _ (by simp) he
      · exact he
      · exact he
  | reply x i out =>
    simp only [Net.step, Net.reply]
    split
    · exact h
    · rename_i req _
      have h1 := upd s x (fun e => { e with jobs := e.jobs.eraseIdx i, answered := e.answered ++ [(req, out)] }) h (fun _ h => h)
      split
      · exact push _ _ _ h1
      · exact h1

theorem noBroken_run (ha hb y : Bool) (ops : List (Op D)) (ho : OwnIds y ops) : NoBroken (((Net.init ha hb : Net D).run ops).get y) := by
  have key : ∀ l : List (Op D), OwnIds y l.reverse → NoBroken (((Net.init ha hb : Net D).run l.reverse).get y) := by
    intro l
    induction l with
    | nil => intro _; cases y <;> exact fun x hx => (by cases hx)
    | cons op l ih =>
      intro ho
      have hi := idInv_run ha hb y _ ho
      rw [List.reverse_cons] at ho hi ⊢
      rw [run_concat] at hi ⊢
      refine noBroken_step (ih (ownIds_init ho)) op (fun r e => ?_)
      subst e
      have ht := tabInv_run (tabInv_init ha hb) l.reverse y
      generalize hk : idText (chooseId r.id (((Net.init ha hb : Net D).run l.reverse).get y).counter).1 = k
      cases hg : AMap.get (((Net.init ha hb : Net D).run l.reverse).get y).tab.pending k with
      | none => rfl
      | some n =>
        exfalso
        have h1 : (n, k) ∈ (((Net.init ha hb : Net D).run l.reverse).get y).tab.sent := ht.1.pend k n (AMap.get_some_mem hg)
        have h2 := hi.nodup
        have e : ((((Net.init ha hb : Net D).run l.reverse).step (.send y r)).get y).tab.sent =
            (((Net.init ha hb : Net D).run l.reverse).get y).tab.sent ++ [((((Net.init ha hb : Net D).run l.reverse).get y).tab.nextFut, k)] := by
          show ((Net.upd _ y (fun e => e.send r)).get y).tab.sent = _
          rw [get_upd, if_pos rfl, ← hk]
          rfl
        rw [e, List.map_append, List.nodup_append] at h2
        exact h2.2.2 k (List.mem_map.2 ⟨_, h1, rfl⟩) k (by simp) rfl
  have := key ops.reverse (by rw [List.reverse_reverse]; exact ho)
  rwa [List.reverse_reverse] at this

/-! ### Nothing is forgotten -/

/-- The messages an endpoint has not processed yet. -/
def Endpoint.inbox (e : Endpoint D) : List Bytes := e.current.toList ++ e.queue

/-- A request filed under the key is on its way, being handled, or its answer is on its way. -/
def Waits (e p : Endpoint D) (k : Bytes) : Prop :=
  ∃ r, PlainReq r ∧ idText r.id = k ∧ ((k, r) ∈ e.sending ∨ serRequest r ∈ p.inbox ∨ r ∈ p.jobs ∨
    ∃ out, PlainOut out ∧ serResponse (replyFor r out) ∈ e.inbox)

theorem Waits.mono {e p e' p' : Endpoint D} {k : Bytes} (h : Waits e p k) (h1 : ∀ x ∈ e.sending, x ∈ e'.sending) (h2 : ∀ t ∈ p.inbox, t ∈ p'.inbox)
    (h3 : ∀ r ∈ p.jobs, r ∈ p'.jobs) (h4 : ∀ t ∈ e.inbox, t ∈ e'.inbox) : Waits e' p' k := by
  obtain ⟨r, a, b, c | c | c | ⟨out, c, d⟩⟩ := h
  · exact ⟨r, a, b, .inl (h1 _ c)⟩
  · exact ⟨r, a, b, .inr (.inl (h2 _ c))⟩
  · exact ⟨r, a, b, .inr (.inr (.inl (h3 _ c)))⟩
  · exact ⟨r, a, b, .inr (.inr (.inr ⟨out, c, h4 _ d⟩))⟩

def Alive (e p : Endpoint D) : Prop := ∀ k ∈ AMap.keys e.tab.pending, Waits e p k

/-- Both sides are open and have a request handler, and every request still waiting is on its way. -/
structure Drain (s : Net D) : Prop where
  open_ : ∀ y, (s.get y).connected = true
  handler : ∀ y, (s.get y).hasHandler = true
  alive : ∀ y, Alive (s.get y) (s.get (!y))

theorem Drain.both {s' : Net D} (x : Bool) (hc : (s'.get x).connected = true ∧ (s'.get (!x)).connected = true)
    (hh : (s'.get x).hasHandler = true ∧ (s'.get (!x)).hasHandler = true) (h1 : Alive (s'.get x) (s'.get (!x))) (h2 : Alive (s'.get (!x)) (s'.get x)) : Drain s' := by
  cases x
  · refine ⟨fun y => ?_, fun y => ?_, fun y => ?_⟩ <;> cases y
    · exact hc.1
    · exact hc.2
    · exact hh.1
    · exact hh.2
    · exact h1
    · exact h2
  · refine ⟨fun y => ?_, fun y => ?_, fun y => ?_⟩ <;> cases y
    · exact hc.2
    · exact hc.1
    · exact hh.2
    · exact hh.1
    · exact h2
    · exact h1

theorem get_upd_other (s : Net D) (x : Bool) (f : Endpoint D → Endpoint D) : (s.upd x f).get (!x) = s.get (!x) := by cases x <;> rfl
theorem get_push_own (s : Net D) (x : Bool) (t : Bytes) : (s.push x t).get x = { s.get x with log := (s.get x).log ++ [t] } := by cases x <;> rfl
theorem get_push_other (s : Net D) (x : Bool) (t : Bytes) : (s.push x t).get (!x) = { s.get (!x) with queue := (s.get (!x)).queue ++ [t] } := by cases x <;> rfl

theorem drain_upd {s : Net D} (h : Drain s) (x : Bool) {f : Endpoint D → Endpoint D} (hc : (f (s.get x)).connected = true)
    (hh : (f (s.get x)).hasHandler = true) (h1 : Alive (f (s.get x)) (s.get (!x))) (h2 : Alive (s.get (!x)) (f (s.get x))) : Drain (s.upd x f) := by
  refine Drain.both x ?_ ?_ ?_ ?_
  · rw [get_upd_same, get_upd_other]; exact ⟨hc, h.open_ _⟩
  · rw [get_upd_same, get_upd_other]; exact ⟨hh, h.handler _⟩
  · rw [get_upd_same, get_upd_other]; exact h1
  · rw [get_upd_same, get_upd_other]; exact h2

theorem Drain.other {s : Net D} (h : Drain s) (x : Bool) : Alive (s.get (!x)) (s.get x) := by
  have := h.alive (!x)
  rwa [Bool.not_not] at this

theorem inbox_queue (e : Endpoint D) (t : Bytes) : ({ e with queue := e.queue ++ [t] } : Endpoint D).inbox = e.inbox ++ [t] := by
  simp [Endpoint.inbox]

theorem keys_complete {t : PTab (Outcome D)} {k k' : Bytes} {o : Outcome D} (h : k' ∈ AMap.keys (t.complete k o).pending) : k' ∈ AMap.keys t.pending ∧ k' ≠ k := by
  unfold PTab.complete at h
  split at h
  · unfold AMap.keys AMap.del at h
    obtain ⟨p, h1, rfl⟩ := List.mem_map.1 h
    obtain ⟨h2, h3⟩ := List.mem_filter.1 h1
    exact ⟨List.mem_map.2 ⟨p, h2, rfl⟩, of_decide_eq_true h3⟩
  · rename_i hg
    refine ⟨h, ?_⟩
    rintro rfl
    exact AMap.get_none_iff.1 hg h

theorem keys_insert {t : PTab (Outcome D)} {k k' : Bytes} {o : Outcome D} (h : k' ∈ AMap.keys (t.insert k o).pending) : k' ∈ AMap.keys t.pending ∨ k' = k := by
  have h : k' ∈ AMap.keys (AMap.put t.pending k t.nextFut) := h
  unfold AMap.keys AMap.put AMap.del at h
  rw [List.map_append] at h
  rcases List.mem_append.1 h with h1 | h1
  · obtain ⟨p, h2, rfl⟩ := List.mem_map.1 h1
    exact .inl (List.mem_map.2 ⟨p, (List.mem_filter.1 h2).1, rfl⟩)
  · exact .inr (by simpa using h1)

theorem mem_erase {α : Type} {l : List α} {i : Nat} {a b : α} (hi : l[i]? = some a) (h : b ∈ l) : b = a ∨ b ∈ l.eraseIdx i := by
  have := (perm_eraseIdx hi).mem_iff.2 h
  exact List.mem_cons.1 this

theorem event_of_request {r : Request D} (h : PlainReq r) : eventOf true (serRequest r) = .request r := by
  unfold eventOf
  rw [C15_request_classified r h.1 h.2.1 h.2.2.2]
  simp only [C04_request_roundtrip_wire r h.1.ok h.2.1.noQuote h.2.2.1 h.2.2.2]
  rfl

theorem event_of_reply {r : Request D} (h : PlainReq r) {out : HandlerOutcome D} (ho : PlainOut out) (hh : Bool) :
    ∃ r', eventOf (D := D) hh (serResponse (replyFor r out)) = .resolve r' ∧ r'.id = r.id := by
  refine ⟨deResponse (serResponse (replyFor r out)), ?_, ?_⟩
  · unfold eventOf
    rw [replyFor_classified h.1 ho]
  · have := response_id (replyFor r out) (by rw [replyFor_id]; exact h.1.ok)
    rwa [replyFor_id] at this

theorem apply_keys (e : Endpoint D) (ev : Event D) : (∀ k ∈ AMap.keys (e.apply ev).tab.pending, k ∈ AMap.keys e.tab.pending) ∧
    (∀ r, ev = .resolve r → idText r.id ∉ AMap.keys (e.apply ev).tab.pending) ∧ (e.apply ev).sending = e.sending ∧ (∀ r ∈ e.jobs, r ∈ (e.apply ev).jobs) ∧
    (∀ r, ev = .request r → r ∈ (e.apply ev).jobs) ∧ (e.apply ev).queue = e.queue ∧ (e.apply ev).connected = e.connected ∧ (e.apply ev).hasHandler = e.hasHandler := by
  cases ev with
  | resolve r =>
    refine ⟨fun k hk => (keys_complete hk).1, fun r' e' => ?_, rfl, fun r h => h, fun r h => (by cases h), rfl, rfl, rfl⟩
    cases e'
    exact fun h => (keys_complete h).2 rfl
  | request r =>
    refine ⟨fun k hk => hk, fun r' e' => (by cases e'), rfl, fun r h => List.mem_append_left _ h, fun r' h => ?_, rfl, rfl, rfl⟩
    cases h
    exact List.mem_append_right _ (List.mem_singleton.2 rfl)
  | notification n => exact ⟨fun k hk => hk, fun r' e' => (by cases e'), rfl, fun r h => h, fun r' h => (by cases h), rfl, rfl, rfl⟩
  | dropped => exact ⟨fun k hk => hk, fun r' e' => (by cases e'), rfl, fun r h => h, fun r' h => (by cases h), rfl, rfl, rfl⟩

theorem drain_push {s : Net D} (h : Drain s) (x : Bool) (t : Bytes) : Drain (s.push x t) := by
  have hin : ∀ u ∈ (s.get (!x)).inbox, u ∈ ({ s.get (!x) with queue := (s.get (!x)).queue ++ [t] } : Endpoint D).inbox := by
    intro u hu
    rw [inbox_queue]
    exact List.mem_append_left _ hu
  refine Drain.both x ?_ ?_ ?_ ?_
  · rw [get_push_own, get_push_other]; exact ⟨h.open_ _, h.open_ _⟩
  · rw [get_push_own, get_push_other]; exact ⟨h.handler _, h.handler _⟩
  · rw [get_push_own, get_push_other]
    exact fun k hk => (h.alive x k hk).mono (fun _ h => h) hin (fun _ h => h) (fun _ h => h)
  · rw [get_push_own, get_push_other]
    exact fun k hk => (h.other x k hk).mono (fun _ h => h) (fun _ h => h) (fun _ h => h) hin

/-- The step is not part of a `Close`. -/
def StaysOpen : Op D → Prop
  | .closeFlag _ | .closeFail _ => False
  | _ => True

theorem drain_step {s : Net D} (h : Drain s) (op : Op D) (hp : PlainOp op) (ho : StaysOpen op) : Drain (s.step op) := by
  cases op with
  | start x => exact drain_upd h x (f := fun e => { e with connected := true }) rfl (h.handler x) (h.alive x) (h.other x)
  | closeFlag x => exact absurd ho (fun h => h)
  | closeFail x => exact absurd ho (fun h => h)
  | send x r =>
    refine drain_upd h x (f := fun e => e.send r) (h.open_ x) (h.handler x) (fun k hk => ?_) (h.other x)
    rcases keys_insert hk with h1 | h1
    · exact (h.alive x k h1).mono (fun _ h => List.mem_append_left _ h) (fun _ h => h) (fun _ h => h) (fun _ h => h)
    · exact ⟨{ r with id := (chooseId r.id (s.get x).counter).1 }, ⟨chooseId_plain hp.1 _, hp.2.1, hp.2.2.1, hp.2.2.2⟩, h1.symm,
        .inl (by rw [h1]; exact List.mem_append_right _ (List.mem_singleton.2 rfl))⟩
  | deliver x i =>
    simp only [Net.step, Net.deliver]
    split
    · exact h
    · rename_i key r hg
      rw [if_pos (h.open_ (!x))]
      have hin : ∀ u ∈ (s.get (!x)).inbox, u ∈ ({ s.get (!x) with queue := (s.get (!x)).queue ++ [serRequest r] } : Endpoint D).inbox := by
        intro u hu
        rw [inbox_queue]
        exact List.mem_append_left _ hu
      refine Drain.both x ?_ ?_ ?_ ?_
      · rw [get_push_own, get_push_other, get_upd_same, get_upd_other]; exact ⟨h.open_ _, h.open_ _⟩
      · rw [get_push_own, get_push_other, get_upd_same, get_upd_other]; exact ⟨h.handler _, h.handler _⟩
      · rw [get_push_own, get_push_other, get_upd_same, get_upd_other]
        intro k hk
        obtain ⟨q, a, b, c | c | c | ⟨out, c, d⟩⟩ := h.alive x k hk
        · rcases mem_erase hg c with h1 | h1
          · cases h1
            exact ⟨r, a, b, .inr (.inl (by rw [inbox_queue]; exact List.mem_append_right _ (List.mem_singleton.2 rfl)))⟩
          · exact ⟨q, a, b, .inl h1⟩
        · exact ⟨q, a, b, .inr (.inl (hin _ c))⟩
        · exact ⟨q, a, b, .inr (.inr (.inl c))⟩
        · exact ⟨q, a, b, .inr (.inr (.inr ⟨out, c, d⟩))⟩
      · rw [get_push_own, get_push_other, get_upd_same, get_upd_other]
        exact fun k hk => (h.other x k hk).mono (fun _ h => h) (fun _ h => h) (fun _ h => h) hin
  | notify x n =>
    simp only [Net.step, Net.notify]
    rw [if_pos (h.open_ (!x))]
    exact drain_push h x _
  | pop x =>
    have hb : (s.get x).pop.inbox = (s.get x).inbox := by
      unfold Endpoint.pop Endpoint.inbox
      split
      · rename_i hc hq
        split
        · simp [hc, hq]
        · rfl
      · rfl
    have hf : (s.get x).pop.connected = (s.get x).connected ∧ (s.get x).pop.hasHandler = (s.get x).hasHandler ∧ (s.get x).pop.tab = (s.get x).tab ∧
        (s.get x).pop.sending = (s.get x).sending ∧ (s.get x).pop.jobs = (s.get x).jobs := by
      unfold Endpoint.pop
      split
      · split <;> exact ⟨rfl, rfl, rfl, rfl, rfl⟩
      · exact ⟨rfl, rfl, rfl, rfl, rfl⟩
    obtain ⟨f1, f2, f3, f4, f5⟩ := hf
    refine drain_upd h x (by rw [f1]; exact h.open_ x) (by rw [f2]; exact h.handler x) (fun k hk => ?_) (fun k hk => ?_)
    · rw [f3] at hk
      exact (h.alive x k hk).mono (by rw [f4]; exact fun _ h => h) (fun _ h => h) (fun _ h => h) (by rw [hb]; exact fun _ h => h)
    · exact (h.other x k hk).mono (fun _ h => h) (by rw [hb]; exact fun _ h => h) (by rw [f5]; exact fun _ h => h) (fun _ h => h)
  | handle x =>
    simp only [Net.step]
    cases hc : (s.get x).current with
    | none =>
      have e : (s.get x).handle = s.get x := by unfold Endpoint.handle; rw [hc]
      exact drain_upd h x (by rw [e]; exact h.open_ x) (by rw [e]; exact h.handler x) (by rw [e]; exact h.alive x) (by rw [e]; exact h.other x)
    | some t =>
      have e : (s.get x).handle = { (s.get x).apply (eventOf true t) with current := none } := by
        unfold Endpoint.handle
        rw [hc, h.handler x]
      obtain ⟨k1, k2, k3, k4, k5, k6, k7, k8⟩ := apply_keys (s.get x) (eventOf true t)
      have hbox : ∀ u ∈ (s.get x).inbox, u = t ∨ u ∈ (s.get x).handle.inbox := by
        intro u hu
        unfold Endpoint.inbox at hu
        rw [hc] at hu
        simp only [Option.toList_some, List.singleton_append, List.mem_cons] at hu
        rcases hu with h1 | h1
        · exact .inl h1
        · refine .inr ?_
          rw [e]
          show u ∈ ([] : List Bytes) ++ ((s.get x).apply (eventOf true t)).queue
          rw [k6]; exact h1
      refine drain_upd h x (by rw [e]; exact k7.trans (h.open_ x)) (by rw [e]; exact k8.trans (h.handler x)) (fun k hk => ?_) (fun k hk => ?_)
      · have hk' : k ∈ AMap.keys ((s.get x).apply (eventOf true t)).tab.pending := by rw [e] at hk; exact hk
        obtain ⟨q, a, b, c | c | c | ⟨out, c, d⟩⟩ := h.alive x k (k1 k hk')
        · exact ⟨q, a, b, .inl (by rw [e]; exact k3.symm ▸ c)⟩
        · exact ⟨q, a, b, .inr (.inl c)⟩
        · exact ⟨q, a, b, .inr (.inr (.inl c))⟩
        · rcases hbox _ d with h1 | h1
          · exfalso
            obtain ⟨r', h2, h3⟩ := event_of_reply a c true
            rw [h1] at h2
            have := k2 r' h2
            rw [h3, b] at this
            exact this hk'
          · exact ⟨q, a, b, .inr (.inr (.inr ⟨out, c, h1⟩))⟩
      · obtain ⟨q, a, b, c | c | c | ⟨out, c, d⟩⟩ := h.other x k hk
        · exact ⟨q, a, b, .inl c⟩
        · rcases hbox _ c with h1 | h1
          · exact ⟨q, a, b, .inr (.inr (.inl (by rw [e]; exact k5 q (by rw [← h1]; exact event_of_request a))))⟩
          · exact ⟨q, a, b, .inr (.inl h1)⟩
        · exact ⟨q, a, b, .inr (.inr (.inl (by rw [e]; exact k4 q c)))⟩
        · exact ⟨q, a, b, .inr (.inr (.inr ⟨out, c, d⟩))⟩
  | reply x i out =>
    simp only [Net.step, Net.reply]
    split
    · exact h
    · rename_i req hg
      rw [if_pos (h.open_ (!x))]
      have hin : ∀ u ∈ (s.get (!x)).inbox, u ∈ ({ s.get (!x) with queue := (s.get (!x)).queue ++ [serResponse (replyFor req out)] } : Endpoint D).inbox := by
        intro u hu
        rw [inbox_queue]
        exact List.mem_append_left _ hu
      refine Drain.both x ?_ ?_ ?_ ?_
      · rw [get_push_own, get_push_other, get_upd_same, get_upd_other]; exact ⟨h.open_ _, h.open_ _⟩
      · rw [get_push_own, get_push_other, get_upd_same, get_upd_other]; exact ⟨h.handler _, h.handler _⟩
      · rw [get_push_own, get_push_other, get_upd_same, get_upd_other]
        exact fun k hk => (h.alive x k hk).mono (fun _ h => h) hin (fun _ h => h) (fun _ h => h)
      · rw [get_push_own, get_push_other, get_upd_same, get_upd_other]
        intro k hk
        obtain ⟨q, a, b, c | c | c | ⟨out', c, d⟩⟩ := h.other x k hk
        · exact ⟨q, a, b, .inl c⟩
        · exact ⟨q, a, b, .inr (.inl c)⟩
        · rcases mem_erase hg c with h1 | h1
          · subst h1
            exact ⟨q, a, b, .inr (.inr (.inr ⟨out, hp, by rw [inbox_queue]; exact List.mem_append_right _ (List.mem_singleton.2 rfl)⟩))⟩
          · exact ⟨q, a, b, .inr (.inr (.inl h1))⟩
        · exact ⟨q, a, b, .inr (.inr (.inr ⟨out', c, hin _ d⟩))⟩

theorem drain_run {s : Net D} (h : Drain s) (ops : List (Op D)) (hp : ∀ op ∈ ops, PlainOp op) (ho : ∀ op ∈ ops, StaysOpen op) : Drain (s.run ops) := by
  induction ops generalizing s with
  | nil => exact h
  | cons op ops ih =>
    exact ih (drain_step h op (hp op (List.mem_cons_self ..)) (ho op (List.mem_cons_self ..))) (fun x hx => hp x (List.mem_cons_of_mem _ hx))
      (fun x hx => ho x (List.mem_cons_of_mem _ hx))

/-! ### What is left to be done can be done -/

/-- Nothing is on its way and nothing is being handled. -/
def Quiet (s : Net D) : Prop := ∀ y, (s.get y).sending = [] ∧ (s.get y).inbox = [] ∧ (s.get y).jobs = []

/-- The steps of threads already at work: no calls from outside. -/
def Work : Op D → Prop
  | .deliver _ _ | .pop _ | .handle _ | .reply _ _ _ => True
  | _ => False

/-- The request handlers say what `f` says. -/
def Obeys (f : Bool → Request D → HandlerOutcome D) : Net D → List (Op D) → Prop
  | _, [] => True
  | s, op :: l => (∀ x i out req, op = .reply x i out → (s.get x).jobs[i]? = some req → out = f x req) ∧ Obeys f (s.step op) l

def wt (t : Bytes) : Nat := match eventOf (D := D) true t with | .request _ => 6 | _ => 3

theorem wt_le (t : Bytes) : 3 ≤ wt (D := D) t ∧ wt (D := D) t ≤ 6 := by
  unfold wt
  split <;> omega

def Endpoint.load (e : Endpoint D) : Nat :=
  7 * e.sending.length + (e.queue.map (wt (D := D))).sum + (match e.current with | none => 0 | some t => wt (D := D) t - 1) + 4 * e.jobs.length

def Net.load (s : Net D) : Nat := (s.get false).load + (s.get true).load

theorem load_eq (s : Net D) (x : Bool) : s.load = (s.get x).load + (s.get (!x)).load := by
  cases x
  · rfl
  · exact Nat.add_comm _ _

theorem eraseIdx_length {α : Type} {l : List α} {i : Nat} {a : α} (h : l[i]? = some a) : l.length = (l.eraseIdx i).length + 1 := by
  have := (perm_eraseIdx h).length_eq
  simp only [List.length_cons] at this
  omega

theorem load_deliver {s : Net D} (h : Drain s) {x : Bool} {i : Nat} {p : Bytes × Request D} (hi : (s.get x).sending[i]? = some p) :
    (s.step (.deliver x i)).load < s.load := by
  obtain ⟨key, r⟩ := p
  have h1 := eraseIdx_length hi
  have h2 := (wt_le (D := D) (serRequest r)).2
  simp only [Net.step, Net.deliver, hi]
  rw [if_pos (h.open_ (!x)), load_eq _ x, load_eq s x, get_push_own, get_push_other, get_upd_same, get_upd_other]
  simp only [Endpoint.load, List.map_append, List.sum_append, List.map_cons, List.map_nil, List.sum_cons, List.sum_nil]
  omega

theorem load_pop {s : Net D} (h : Drain s) {x : Bool} (hc : (s.get x).current = none) {t : Bytes} {q : List Bytes} (hq : (s.get x).queue = t :: q) :
    (s.step (.pop x)).load < s.load := by
  have e : (s.get x).pop = { s.get x with current := some t, queue := q } := by
    unfold Endpoint.pop
    rw [hc, hq]
    exact if_pos (h.open_ x)
  have h2 := (wt_le (D := D) t).1
  simp only [Net.step]
  rw [load_eq _ x, load_eq s x, get_upd_same, get_upd_other, e]
  simp only [Endpoint.load, hc, hq, List.map_cons, List.sum_cons]
  omega

theorem load_handle {s : Net D} (h : Drain s) {x : Bool} {t : Bytes} (hc : (s.get x).current = some t) : (s.step (.handle x)).load < s.load := by
  have e : (s.get x).handle = { (s.get x).apply (eventOf true t) with current := none } := by
    unfold Endpoint.handle
    rw [hc, h.handler x]
  simp only [Net.step]
  rw [load_eq _ x, load_eq s x, get_upd_same, get_upd_other, e]
  have h2 := (wt_le (D := D) t).1
  have h3 : (({ (s.get x).apply (eventOf true t) with current := none } : Endpoint D)).load < (s.get x).load := by
    cases hev : eventOf (D := D) true t with
    | request r =>
      have hw : wt (D := D) t = 6 := by unfold wt; rw [hev]
      simp only [Endpoint.load, Endpoint.apply, hc, List.length_append, List.length_singleton]
      omega
    | resolve r =>
      simp only [Endpoint.load, Endpoint.apply, hc]
      omega
    | notification n =>
      simp only [Endpoint.load, Endpoint.apply, hc]
      omega
    | dropped =>
      simp only [Endpoint.load, Endpoint.apply, hc]
      omega
  omega

theorem load_reply {s : Net D} (h : Drain s) (hp : PlainAll s) {x : Bool} {i : Nat} {req : Request D} (hi : (s.get x).jobs[i]? = some req)
    {out : HandlerOutcome D} (ho : PlainOut out) : (s.step (.reply x i out)).load < s.load := by
  have h1 := eraseIdx_length hi
  have h2 : wt (D := D) (serResponse (replyFor req out)) = 3 := by
    obtain ⟨r', h3, -⟩ := event_of_reply ((hp x).jobsPlain req (List.mem_of_getElem? hi)) ho true
    unfold wt
    rw [h3]
  simp only [Net.step, Net.reply, hi]
  rw [if_pos (h.open_ (!x)), load_eq _ x, load_eq s x, get_push_own, get_push_other, get_upd_same, get_upd_other]
  simp only [Endpoint.load, List.map_append, List.sum_append, List.map_cons, List.map_nil, List.sum_cons, List.sum_nil]
  omega

theorem work_step {s : Net D} (h : Drain s) (hp : PlainAll s) (f : Bool → Request D → HandlerOutcome D) (hf : ∀ x r, PlainOut (f x r)) :
    Quiet s ∨ ∃ op, Work op ∧ PlainOp op ∧ StaysOpen op ∧ (∀ x i out req, op = .reply x i out → (s.get x).jobs[i]? = some req → out = f x req) ∧
      (s.step op).load < s.load := by
  have side : ∀ y, ((s.get y).sending = [] ∧ (s.get y).inbox = [] ∧ (s.get y).jobs = []) ∨ ∃ op, Work op ∧ PlainOp op ∧ StaysOpen op ∧
      (∀ x i out req, op = .reply x i out → (s.get x).jobs[i]? = some req → out = f x req) ∧ (s.step op).load < s.load := by
    intro y
    cases h1 : (s.get y).sending with
    | cons p l =>
      exact .inr ⟨.deliver y 0, trivial, trivial, trivial, fun x i out req e => (by cases e), load_deliver h (p := p) (by rw [h1]; rfl)⟩
    | nil =>
      cases h2 : (s.get y).current with
      | some t => exact .inr ⟨.handle y, trivial, trivial, trivial, fun x i out req e => (by cases e), load_handle h h2⟩
      | none =>
        cases h3 : (s.get y).queue with
        | cons t q => exact .inr ⟨.pop y, trivial, trivial, trivial, fun x i out req e => (by cases e), load_pop h h2 h3⟩
        | nil =>
          cases h4 : (s.get y).jobs with
          | cons r l =>
            have hr : (s.get y).jobs[0]? = some r := by rw [h4]; rfl
            refine .inr ⟨.reply y 0 (f y r), trivial, hf y r, trivial, fun x i out req e hq => ?_, load_reply h hp hr (hf y r)⟩
            cases e
            rw [hr] at hq
            cases hq
            rfl
          | nil => exact .inl ⟨rfl, by unfold Endpoint.inbox; rw [h2, h3]; rfl, rfl⟩
  rcases side false with h1 | h1
  · rcases side true with h2 | h2
    · refine .inl (fun y => ?_)
      cases y
      · exact h1
      · exact h2
    · exact .inr h2
  · exact .inr h1

theorem work_done : ∀ (n : Nat) {s : Net D}, s.load ≤ n → Drain s → PlainAll s → Fifo s → ∀ (f : Bool → Request D → HandlerOutcome D), (∀ x r, PlainOut (f x r)) →
    ∃ more, (∀ op ∈ more, Work op) ∧ (∀ op ∈ more, PlainOp op) ∧ (∀ op ∈ more, StaysOpen op) ∧ Obeys f s more ∧ Quiet (s.run more) := by
  intro n
  induction n with
  | zero =>
    intro s hl hd hp hfi f hf
    rcases work_step hd hp f hf with h1 | ⟨op, -, -, -, -, h2⟩
    · exact ⟨[], fun _ h => (by cases h), fun _ h => (by cases h), fun _ h => (by cases h), trivial, h1⟩
    · omega
  | succ n ih =>
    intro s hl hd hp hfi f hf
    rcases work_step hd hp f hf with h1 | ⟨op, h1, h2, h3, h4, h5⟩
    · exact ⟨[], fun _ h => (by cases h), fun _ h => (by cases h), fun _ h => (by cases h), trivial, h1⟩
    · obtain ⟨more, a, b, c, d, e⟩ := ih (s := s.step op) (by omega) (drain_step hd op h2 h3) (plainAll_step hp hfi op h2) (fifo_step hfi op) f hf
      refine ⟨op :: more, ?_, ?_, ?_, ⟨h4, d⟩, e⟩
      all_goals (intro x hx; rcases List.mem_cons.1 hx with h6 | h6)
      · rw [h6]; exact h1
      · exact a x h6
      · rw [h6]; exact h2
      · exact b x h6
      · rw [h6]; exact h3
      · exact c x h6

theorem quiet_done {s : Net D} (h : Drain s) (ht : TabInv s) (hq : Quiet s) (y : Bool) :
    (s.get y).tab.pending = [] ∧ ∀ n < (s.get y).tab.nextFut, ∃ o, (n, o) ∈ (s.get y).tab.outcomes := by
  have h1 : (s.get y).tab.pending = [] := by
    cases hp : (s.get y).tab.pending with
    | nil => rfl
    | cons x l =>
      exfalso
      obtain ⟨r, -, -, c | c | c | ⟨out, -, c⟩⟩ := h.alive y x.1 (by rw [hp]; exact List.mem_cons_self ..)
      · rw [(hq y).1] at c; cases c
      · rw [(hq (!y)).2.1] at c; cases c
      · rw [(hq (!y)).2.2] at c; cases c
      · rw [(hq y).2.1] at c; cases c
  refine ⟨h1, fun n hn => ?_⟩
  rcases (ht y).1.accounted hn with ⟨k, h2⟩ | h2
  · rw [h1] at h2; cases h2
  · obtain ⟨x, h3, rfl⟩ := List.mem_map.1 h2
    exact ⟨x.2, h3⟩

/-- A pair just opened. -/
theorem drain_open : Drain ((Net.init true true : Net D).run [.start false, .start true]) := by
  refine ⟨fun y => ?_, fun y => ?_, fun y => ?_⟩ <;> cases y
  · rfl
  · rfl
  · rfl
  · rfl
  · exact fun k hk => absurd hk List.not_mem_nil
  · exact fun k hk => absurd hk List.not_mem_nil

/-- While neither side is closed futures are completed by responses and by overwriting only. -/
def AnswerOnly (e : Endpoint D) : Prop := ∀ n o, (n, o) ∈ e.tab.outcomes → o = .broken ∨ ∃ r, o = .response r

theorem answered_step {s : Net D} (hd : Drain s) {y : Bool} (h : AnswerOnly (s.get y)) (op : Op D) (ho : StaysOpen op) : AnswerOnly ((s.step op).get y) := by
  have push : ∀ (s : Net D) x t, AnswerOnly (s.get y) → AnswerOnly ((s.push x t).get y) := by
    intro s x t h
    rw [get_push]
    split <;> exact h
  have upd : ∀ (s : Net D) x (f : Endpoint D → Endpoint D), AnswerOnly (s.get y) → (∀ e, AnswerOnly e → AnswerOnly (f e)) → AnswerOnly ((s.upd x f).get y) := by
    intro s x f h hf
    rw [get_upd]
    split
    · exact hf _ h
    · exact h
  cases op with
  | start x => exact upd s x _ h (fun _ h => h)
  | closeFlag x => exact absurd ho (fun h => h)
  | closeFail x => exact absurd ho (fun h => h)
  | send x r =>
    refine upd s x _ h (fun e he n o hn => ?_)
    simp only [Endpoint.send, PTab.insert] at hn
    split at hn
    · rcases List.mem_append.1 hn with h1 | h1
      · exact he n o h1
      · simp only [List.mem_singleton, Prod.mk.injEq] at h1
        exact .inl h1.2
    · exact he n o hn
  | deliver x i =>
    simp only [Net.step, Net.deliver]
    split
    · exact h
    · rw [if_pos (hd.open_ (!x))]
      exact push _ _ _ (upd s x (fun e => { e with sending := e.sending.eraseIdx i }) h (fun _ h => h))
  | notify x n =>
    simp only [Net.step, Net.notify]
    rw [if_pos (hd.open_ (!x))]
    exact push _ _ _ h
  | pop x =>
    refine upd s x _ h (fun e he => ?_)
    unfold Endpoint.pop
    split
    · split <;> exact he
    · exact he
  | handle x =>
    refine upd s x _ h (fun e he => ?_)
    unfold Endpoint.handle
    split
    · exact he
    · show AnswerOnly (e.apply _)
      unfold Endpoint.apply
      split
      · intro n o hn
        simp only [PTab.complete] at hn
        split at hn
        · rcases List.mem_append.1 hn with h1 | h1
          · exact he n o h1
          · simp only [List.mem_singleton, Prod.mk.injEq] at h1
            exact .inr ⟨_, h1.2⟩
        · exact he n o hn
      · exact he
      · exact he
  | reply x i out =>
    simp only [Net.step, Net.reply]
    split
    · exact h
    · rename_i req _
      rw [if_pos (hd.open_ (!x))]
      exact push _ _ _ (upd s x (fun e => { e with jobs := e.jobs.eraseIdx i, answered := e.answered ++ [(req, out)] }) h (fun _ h => h))

theorem answered_run {s : Net D} (hd : Drain s) {y : Bool} (h : AnswerOnly (s.get y)) (ops : List (Op D)) (hp : ∀ op ∈ ops, PlainOp op)
    (ho : ∀ op ∈ ops, StaysOpen op) : AnswerOnly ((s.run ops).get y) := by
  induction ops generalizing s with
  | nil => exact h
  | cons op ops ih =>
    exact ih (drain_step hd op (hp op (List.mem_cons_self ..)) (ho op (List.mem_cons_self ..))) (answered_step hd h op (ho op (List.mem_cons_self ..)))
      (fun x hx => hp x (List.mem_cons_of_mem _ hx)) (fun x hx => ho x (List.mem_cons_of_mem _ hx))

theorem started_plain {ops : List (Op D)} (hops : ∀ op ∈ ops, PlainOp op) : ∀ op ∈ ([.start false, .start true] ++ ops : List (Op D)), PlainOp op := by
  intro op hop
  rcases List.mem_append.1 hop with h1 | h1
  · simp only [List.mem_cons, List.not_mem_nil, or_false] at h1
    rcases h1 with rfl | rfl <;> trivial
  · exact hops op h1

theorem drain_started {ops : List (Op D)} (hops : ∀ op ∈ ops, PlainOp op) (hopen : ∀ op ∈ ops, StaysOpen op) :
    Drain ((Net.init true true : Net D).run ([.start false, .start true] ++ ops)) := by
  unfold Net.run
  rw [List.foldl_append]
  exact drain_run drain_open ops hops hopen

theorem snd_fun {α β : Type} {l : List (α × β)} (h : (l.map (·.2)).Nodup) {a a' : α} {b : β} (h1 : (a, b) ∈ l) (h2 : (a', b) ∈ l) : a = a' := by
  induction l with
  | nil => cases h1
  | cons p l ih =>
    simp only [List.map_cons, List.nodup_cons] at h
    rcases List.mem_cons.1 h1 with e1 | h1'
    · rcases List.mem_cons.1 h2 with e2 | h2'
      · rw [← e1] at e2; simp at e2; exact e2.symm
      · exact absurd (List.mem_map.2 ⟨_, h2', by rw [← e1]⟩) h.1
    · rcases List.mem_cons.1 h2 with e2 | h2'
      · exact absurd (List.mem_map.2 ⟨_, h1', by rw [← e2]⟩) h.1
      · exact ih h.2 h1' h2'

end InMemory

/-- **C16 (partial).** In every execution with plain traffic, in which the callers give their requests ids of their own or none, a future completed with
a response was completed with the peer handler's answer to the very request it was made for. Missing: traffic with quotes or backslashes in
ids and methods, for which the wire format itself fails (C04, C15). -/
theorem C16_own_answer_partial (ha hb : Bool) (ops : List (Op D)) (hops : ∀ op ∈ ops, PlainOp op) (y : Bool) (ho : OwnIds y ops) (n : Nat) (r : Response D) :
    let s := (Net.init ha hb : Net D).run ops
    (n, Outcome.response r) ∈ (s.get y).tab.outcomes →
    ∃ req out, (n, req) ∈ (s.get y).asked ∧ (req, out) ∈ (s.get (!y)).answered ∧ r.id = req.id ∧ r = deResponse (serResponse (replyFor req out)) := by
  intro s hr
  obtain ⟨m, req, out, h1, h2, h3, h4, h5, h6⟩ := C16_answer_is_reply_partial ha hb ops hops y n r hr
  have hi := idInv_run ha hb y ops ho
  have : n = m := snd_fun hi.nodup h3 h2
  subst this
  exact ⟨req, out, h1, h4, h5, h6⟩

/-- **C16.** When the callers give their requests ids of their own, or none, requests go out with different ids. -/
theorem C16_ids_differ (ha hb : Bool) (ops : List (Op D)) (y : Bool) (ho : OwnIds y ops) :
    ((((Net.init ha hb : Net D).run ops).get y).asked.map (fun p => idText p.2.id)).Nodup := by
  have h := idInv_run ha hb y ops ho
  have : (((Net.init ha hb : Net D).run ops).get y).asked.map (fun p => idText p.2.id) = (((Net.init ha hb : Net D).run ops).get y).tab.sent.map (·.2) := by
    rw [← h.asked, List.map_map]; rfl
  rw [this]; exact h.nodup

/-- **C16.** When the callers give their requests ids of their own, or none, no request loses its future to another one. -/
theorem C16_none_broken (ha hb : Bool) (ops : List (Op D)) (y : Bool) (ho : OwnIds y ops) :
    ∀ n, (n, Outcome.broken) ∉ (((Net.init ha hb : Net D).run ops).get y).tab.outcomes :=
  fun _ hn => noBroken_run ha hb y ops ho _ hn rfl

/-- **C16 (partial).** A pair of open endpoints with request handlers forgets nothing: in every execution with plain traffic in which neither side is closed
and the callers give their requests ids of their own or none, once nothing is on its way and no handler is at work every future has been
completed with the peer handler's answer to its own request. Missing: as above. -/
theorem C16_all_answered_partial (ops : List (Op D)) (hops : ∀ op ∈ ops, PlainOp op) (hopen : ∀ op ∈ ops, StaysOpen op) (y : Bool)
    (ho : OwnIds y ([.start false, .start true] ++ ops)) :
    let s := (Net.init true true : Net D).run ([.start false, .start true] ++ ops)
    Quiet s → (s.get y).tab.pending = [] ∧ ∀ n < (s.get y).tab.nextFut, ∃ req out, (n, req) ∈ (s.get y).asked ∧ (req, out) ∈ (s.get (!y)).answered ∧
      (n, Outcome.response (deResponse (serResponse (replyFor req out)))) ∈ (s.get y).tab.outcomes := by
  intro s hq
  have hd : Drain s := drain_started hops hopen
  obtain ⟨h1, h2⟩ := quiet_done hd (tabInv_run (tabInv_init true true) _) hq y
  refine ⟨h1, fun n hn => ?_⟩
  obtain ⟨o, h3⟩ := h2 n hn
  have ha : AnswerOnly (s.get y) := by
    show AnswerOnly ((Net.run _ _).get y)
    unfold Net.run
    rw [List.foldl_append]
    refine answered_run drain_open (s := (Net.init true true : Net D).run [.start false, .start true]) ?_ ops hops hopen
    cases y <;> exact fun n o h => (by cases h)
  rcases ha n o h3 with rfl | ⟨r, rfl⟩
  · exact absurd h3 (C16_none_broken true true _ y ho n)
  · obtain ⟨req, out, h4, h5, -, rfl⟩ := C16_own_answer_partial true true _ (started_plain hops) y ho n r h3
    exact ⟨req, out, h4, h5, h3⟩

/-- **C16 (partial).** ... and it never gets stuck: whatever happened, the threads already at work can bring it to an end, whatever the request handlers
say. Missing: as above; that they are scheduled, and that the handlers return. -/
theorem C16_never_stuck_partial (ops : List (Op D)) (hops : ∀ op ∈ ops, PlainOp op) (hopen : ∀ op ∈ ops, StaysOpen op)
    (f : Bool → Request D → HandlerOutcome D) (hf : ∀ x r, PlainOut (f x r)) :
    let s := (Net.init true true : Net D).run ([.start false, .start true] ++ ops)
    ∃ more, (∀ op ∈ more, Work op) ∧ Obeys f s more ∧ Quiet (s.run more) ∧
      ∀ y, ∀ n < ((s.run more).get y).tab.nextFut, ∃ o, (n, o) ∈ ((s.run more).get y).tab.outcomes := by
  intro s
  have hd : Drain s := drain_started hops hopen
  obtain ⟨more, h1, h2, h3, h4, h5⟩ := work_done _ (Nat.le_refl _) hd (plainAll_run (plainAll_init true true) (fifo_init true true) _ (started_plain hops))
    (fifo_run (fifo_init true true) _) f hf
  exact ⟨more, h1, h4, h5, fun y => (quiet_done (drain_run hd more h2 h3) (tabInv_run (tabInv_run (tabInv_init true true) _) more) h5 y).2⟩

/-! ### The hypotheses are met -/

/-- Two requests, one without an id, and one the other way; the first is answered. -/
def drainOps : List (Op Empty) :=
  [.send false ⟨.int 7, lit "tools/list", none⟩, .send false ⟨.null, lit "ping", none⟩, .send true ⟨.int 7, lit "roots/list", none⟩, .deliver false 0,
    .pop true, .handle true, .reply true 0 (.resp ⟨.null, some .null, none⟩), .pop false, .handle false]

/-- What is left: the other two. -/
def drainMore : List (Op Empty) :=
  [.deliver false 0, .deliver true 0, .pop true, .handle true, .pop false, .handle false, .reply true 0 (.resp ⟨.null, some .null, none⟩),
    .reply false 0 (.resp ⟨.null, some .null, none⟩), .pop true, .handle true, .pop false, .handle false]

theorem drain_plain : ∀ op ∈ drainOps ++ drainMore, PlainOp op ∧ StaysOpen op := by
  have out : PlainOut (.resp ⟨.null, some .null, none⟩ : HandlerOutcome Empty) := ⟨fun v hv => (by cases hv; trivial), .inl (by simp)⟩
  intro op hop
  simp only [drainOps, drainMore, List.cons_append, List.nil_append, List.mem_cons, List.not_mem_nil, or_false] at hop
  rcases hop with rfl | rfl | rfl | rfl | rfl | rfl | rfl | rfl | rfl | rfl | rfl | rfl | rfl | rfl | rfl | rfl | rfl | rfl | rfl | rfl | rfl
  all_goals first
    | exact ⟨trivial, trivial⟩
    | exact ⟨out, trivial⟩
    | exact ⟨⟨(by simp [IdPlain, Int64OK]), (by simp [PlainText, lit]), by decide, fun v hv => (by cases hv)⟩, trivial⟩
    | exact ⟨⟨trivial, (by simp [PlainText, lit]), by decide, fun v hv => (by cases hv)⟩, trivial⟩

example : let s := (Net.init true true : Net Empty).run ([.start false, .start true] ++ (drainOps ++ drainMore))
    (∀ op ∈ drainOps ++ drainMore, PlainOp op) ∧ (∀ op ∈ drainOps ++ drainMore, StaysOpen op) ∧
    (∀ y, OwnIds y ([.start false, .start true] ++ (drainOps ++ drainMore))) ∧ Quiet s ∧ (s.get false).tab.nextFut = 2 ∧ (s.get true).tab.nextFut = 1 ∧
    (s.get false).asked.map (fun p => idText p.2.id) = [lit "7", lit "mem-req-1"] := by
  refine ⟨fun op h => (drain_plain op h).1, fun op h => (drain_plain op h).2, fun y => ?_, fun y => ?_, by decide +kernel, by decide +kernel, by decide +kernel⟩
  · cases y <;> exact ⟨by decide +kernel, by decide +kernel, by decide +kernel⟩
  · cases y <;> exact ⟨by decide +kernel, by decide +kernel, by decide +kernel⟩

/-- Work is left to be done before that. -/
example : let s := (Net.init true true : Net Empty).run ([.start false, .start true] ++ drainOps)
    (s.get false).tab.pending = [(lit "mem-req-1", 1)] ∧ (s.get true).tab.pending = [(lit "7", 0)] ∧
    (∀ (x : Bool) (r : Request Empty), PlainOut ((fun _ _ => .resp ⟨.null, some .null, none⟩ : Bool → Request Empty → HandlerOutcome Empty) x r)) :=
  ⟨by decide +kernel, by decide +kernel, fun _ _ => ⟨fun v hv => (by cases hv; trivial), .inl (by simp)⟩⟩

end Verif
