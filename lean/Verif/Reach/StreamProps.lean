import Verif.Reach.SettleProps

/-!
C136, continued: the request of a call whose session stays open is put on an event stream of the session, whatever else happens.
-/

namespace Verif.Reach

open Verif.Await Verif.Client Verif.Server
open Verif.Http (Hs HsOp LinkOp LinkCfg HtHandlers Sess SendStage closedOut keyText)
open Verif.Ask (asRequest asking)

variable {D H : Type} [DblFmt D]

/-! ### Specification -/

/-- Send `t` goes on, and stream `k` writes, again and again. -/
structure Streams (f : Nat → Op D H) (t k : Nat) : Prop where
  advance : ∀ u, ∃ v, u ≤ v ∧ f v = .wire (.world (.advance t))
  pump : ∀ u, ∃ v ok, u ≤ v ∧ f v = .wire (.world (.pump k ok))

/-- What is sent for a request: the same method and parameters, and the same id if it has one; something the wire carries if the request is. -/
def SentSo (r q : Request D) : Prop := SentAs r q ∧ (InMemory.PlainReq r → InMemory.PlainReq q)

/-- The request, with the id it was sent with, has been written to a stream of session object `o`, as event number `N` or later. -/
def Written (r : Request D) (o N : Nat) (s : Hs D) : Prop :=
  ∃ (j k e : Nat) (ok : Bool) (q : Request D), N ≤ j ∧ SentSo r q ∧ s.events[j]? = some (k, (e, serRequest q), ok) ∧ s.streams[k]? = some o

/-! ### The stages of a send -/

def Going (r : Request D) (o t : Nat) (s : Hs D) : Prop := s.sends[t]? = some (.found o (.request r))

def Filed (r : Request D) (o t : Nat) (s : Hs D) : Prop := ∃ q, SentSo r q ∧ s.sends[t]? = some (.filed o (serRequest q))

/-- At most `n` events are before it. -/
def Queued (r : Request D) (o n : Nat) (s : Hs D) : Prop :=
  ∃ x d e q, s.objs[o]? = some x ∧ d ≤ n ∧ SentSo r q ∧ x.queue[d]? = some (e, serRequest q)

theorem streams_run (ops : List (HsOp D)) (s : Hs D) {k o : Nat} (h : s.streams[k]? = some o) : (s.run ops).streams[k]? = some o := by
  induction ops generalizing s with
  | nil => exact h
  | cons op ops ih =>
    refine ih (s.step op) ?_
    rw [step_streams]
    cases op with
    | openStream f =>
      dsimp only
      split
      · exact getElem?_append_of_some h
      · exact h
    | _ => exact h

theorem written_step {r : Request D} {o N : Nat} {s : Hs D} (h : Written r o N s) (op : HsOp D) : Written r o N (s.step op) := by
  obtain ⟨j, k, e, ok, q, h1, h2, h3, h4⟩ := h
  obtain ⟨rest, hrest⟩ := events_grow s op
  exact ⟨j, k, e, ok, q, h1, h2, by rw [← hrest]; exact getElem?_append_of_some h3, streams_run [op] s h4⟩

/-- A stream writes the first event that is queued. -/
theorem pump_writes {s : Hs D} {k o : Nat} {x : Sess D} {ev : Nat × Bytes} (ok : Bool) (hk : s.streams[k]? = some o) (hx : s.objs[o]? = some x) (hc : x.closed = false) (hr : s.running = true)
    (hq : x.queue[0]? = some ev) : (s.step (.pump k ok)).events = s.events ++ [(k, ev, ok)] := by
  show (s.pump k ok).events = _
  unfold Hs.pump
  simp only [hk, hx]
  rw [if_neg (by simp [hc, hr])]
  cases hl : x.queue with
  | nil => rw [hl] at hq; cases hq
  | cons a l => rw [hl] at hq; cases hq; rfl

theorem pump_written {r q : Request D} {s : Hs D} {k o N e : Nat} {x : Sess D} (ok : Bool) (hN : N ≤ s.events.length) (hk : s.streams[k]? = some o) (hx : s.objs[o]? = some x)
    (hc : x.closed = false) (hr : s.running = true) (hq : SentSo r q) (hget : x.queue[0]? = some (e, serRequest q)) : Written r o N (s.step (.pump k ok)) :=
  ⟨s.events.length, k, e, ok, q, hN, hq, by rw [pump_writes ok hk hx hc hr hget]; exact List.getElem?_concat_length .., streams_run [.pump k ok] s hk⟩

theorem queued_step {r : Request D} {o n N : Nat} {s : Hs D} (hN : N ≤ s.events.length) (h : Queued r o n s) (op : HsOp D) :
    Queued r o n (s.step op) ∨ Written r o N (s.step op) := by
  obtain ⟨x, d, e, q, hx, hd, hq, hget⟩ := h
  have hx' := step_obj s op o x hx
  have keep : ∀ y : Sess D, (s.step op).objs[o]? = some y → x.queue <+: y.queue → Queued r o n (s.step op) ∨ Written r o N (s.step op) :=
    fun y hy hp => .inl ⟨y, d, e, q, hy, hd, hq, by obtain ⟨more, hm⟩ := hp; rw [← hm]; exact getElem?_append_of_some hget⟩
  cases op with
  | remove sid => refine keep _ hx' ?_; simp only [objEffect]; split <;> exact List.prefix_rfl
  | stop => refine keep _ hx' ?_; simp only [objEffect]; split <;> exact List.prefix_rfl
  | answer f a =>
    refine keep _ hx' ?_
    simp only [objEffect]
    split
    · unfold Sess.resolve; split <;> exact List.prefix_rfl
    · exact List.prefix_rfl
  | pump k ok =>
    by_cases hc : s.streams[k]? = some o ∧ x.closed = false ∧ s.running = true
    · cases d with
      | zero =>
        exact .inr (pump_written ok hN hc.1 hx hc.2.1 hc.2.2 hq hget)
      | succ d =>
        left
        refine ⟨_, d, e, q, hx', by omega, hq, ?_⟩
        simp only [objEffect, if_pos hc]
        rw [List.getElem?_tail]; exact hget
    · refine keep _ hx' ?_
      simp only [objEffect, if_neg hc]
      exact List.prefix_rfl
  | advance c =>
    refine keep _ hx' ?_
    simp only [objEffect]
    split
    · split <;> exact List.prefix_rfl
    · split
      · exact List.prefix_append _ _
      · exact List.prefix_rfl
    · split
      · exact List.prefix_append _ _
      · exact List.prefix_rfl
    · exact List.prefix_rfl
  | _ => exact keep _ hx' List.prefix_rfl

/-- The next thing a filed send does. -/
theorem filed_next {r : Request D} {o t : Nat} {s : Hs D} (hr : SessRefs s) (h : Filed r o t s) : ∃ n, Queued r o n (s.step (.advance t)) := by
  obtain ⟨q, hq, hs⟩ := h
  obtain ⟨x, hx⟩ : ∃ x, s.objs[o]? = some x := ⟨_, List.getElem?_eq_some_iff.2 ⟨hr.sends t _ o hs rfl, rfl⟩⟩
  refine ⟨x.queue.length, _, x.queue.length, x.nextEvent, q, step_obj s _ o x hx, Nat.le_refl _, hq, ?_⟩
  simp only [objEffect, hs, if_true, Sess.push]
  simp

theorem going_next {r : Request D} {o t : Nat} {s : Hs D} (h : Going r o t s) : Filed r o t (s.step (.advance t)) := by
  have h' : s.sends[t]? = some (.found o (.request r)) := h
  refine ⟨(s.withId r).1, ⟨withId_sent s r, srvId_plain s⟩, ?_⟩
  rw [step_sends]
  dsimp only
  rw [advance_sends, h']
  dsimp only
  rw [List.getElem?_set_self (List.getElem?_eq_some_iff.1 h').1]

/-- Other steps leave a stage of a send as it is. -/
theorem stage_other {s : Hs D} {t : Nat} {st : SendStage D} (h : s.sends[t]? = some st) {op : HsOp D} (hop : op ≠ .advance t) : (s.step op).sends[t]? = some st := by
  rw [step_sends]
  cases op with
  | take m => exact getElem?_append_of_some h
  | advance c =>
    dsimp only
    rw [advance_sends]
    have hne : c ≠ t := fun e => hop (by rw [e])
    split
    · rw [List.getElem?_set_ne hne]; exact h
    · rw [List.getElem?_set_ne hne]; exact h
    · rw [List.getElem?_set_ne hne]; exact h
    · exact h
  | _ => exact h

theorem isAdvance (op : HsOp D) (t : Nat) : op = .advance t ∨ op ≠ .advance t := by
  cases op with
  | advance c =>
    by_cases h : c = t
    · exact .inl (by rw [h])
    · exact .inr (fun e => by cases e; exact h rfl)
  | _ => exact .inr (fun e => nomatch e)

/-- Filed, or further. -/
def Past (r : Request D) (o t N : Nat) (s : Hs D) : Prop := N ≤ s.events.length ∧ (Filed r o t s ∨ (∃ n, Queued r o n s) ∨ Written r o N s)

/-- Queued with at most `n` events before it, or further. -/
def Soon (r : Request D) (o n N : Nat) (s : Hs D) : Prop := N ≤ s.events.length ∧ (Queued r o n s ∨ Written r o N s)

theorem events_length {s : Hs D} {N : Nat} (h : N ≤ s.events.length) (op : HsOp D) : N ≤ (s.step op).events.length :=
  Nat.le_trans h (events_grow s op).length_le

theorem past_step {r : Request D} {o t N : Nat} {s : Hs D} (hr : SessRefs s) (h : Past r o t N s) (op : HsOp D) : Past r o t N (s.step op) := by
  obtain ⟨hN, h⟩ := h
  refine ⟨events_length hN op, ?_⟩
  rcases h with h | ⟨n, h⟩ | h
  · rcases isAdvance op t with rfl | hop
    · exact .inr (.inl (filed_next hr h))
    · obtain ⟨q, h1, h2⟩ := h
      exact .inl ⟨q, h1, stage_other h2 hop⟩
  · rcases queued_step hN h op with h | h
    · exact .inr (.inl ⟨n, h⟩)
    · exact .inr (.inr h)
  · exact .inr (.inr (written_step h op))

theorem soon_step {r : Request D} {o n N : Nat} {s : Hs D} (h : Soon r o n N s) (op : HsOp D) : Soon r o n N (s.step op) := by
  obtain ⟨hN, h⟩ := h
  refine ⟨events_length hN op, ?_⟩
  rcases h with h | h
  · exact queued_step hN h op
  · exact .inr (written_step h op)

theorem run_keeps {P : Hs D → Prop} (hstep : ∀ (s : Hs D) (op : HsOp D), SessRefs s → P s → P (s.step op)) (ops : List (HsOp D)) (s : Hs D) (hr : SessRefs s) (h : P s) : P (s.run ops) := by
  induction ops generalizing s with
  | nil => exact h
  | cons op ops ih => exact ih (s.step op) (refs_run s [op] hr) (hstep s op hr h)

/-! ### The whole system -/

theorem hs_between (c : LinkCfg) (s0 : SSelf D) (cli : Cli D H) (f : Nat → Op D H) {t u : Nat} (h : t ≤ u) :
    ∃ more, (states c (World.init s0 cli) f u).link.hs = (states c (World.init s0 cli) f t).link.hs.run more := by
  obtain ⟨more, hm⟩ := did_between c (World.init s0 cli) f h
  exact ⟨more, by rw [(states_sides c s0 cli f u).hs, (states_sides c s0 cli f t).hs, ← hm, hs_run_append]⟩

theorem hs_refs (c : LinkCfg) (s0 : SSelf D) (cli : Cli D H) (f : Nat → Op D H) (t : Nat) : SessRefs (states c (World.init s0 cli) f t).link.hs := by
  rw [(states_sides c s0 cli f t).hs]; exact refs_run _ _ refs_init

theorem hs_keeps (c : LinkCfg) (s0 : SSelf D) (cli : Cli D H) (f : Nat → Op D H) {P : Hs D → Prop} (hstep : ∀ (s : Hs D) (op : HsOp D), SessRefs s → P s → P (s.step op)) {t u : Nat}
    (h : t ≤ u) (hp : P (states c (World.init s0 cli) f t).link.hs) : P (states c (World.init s0 cli) f u).link.hs := by
  obtain ⟨more, hm⟩ := hs_between c s0 cli f h
  rw [hm]
  exact run_keeps hstep more _ (hs_refs c s0 cli f t) hp

theorem hs_next (c : LinkCfg) (w : World D H) (f : Nat → Op D H) {t : Nat} {op : HsOp D} (h : f t = .wire (.world op)) :
    (states c w f (t + 1)).link.hs = (states c w f t).link.hs.step op := by
  simp only [states, h, World.step, isEvent, ofClient, Bool.false_and, Bool.or_false, Bool.false_eq_true, if_false]
  rfl

/-- A send that has filed its promise is written. -/
theorem past_streamed (c : LinkCfg) (s0 : SSelf D) (cli : Cli D H) (f : Nat → Op D H) {T k o t N : Nat} {r : Request D} (hf : Streams f t k)
    (hpast : Past r o t N (states c (World.init s0 cli) f T).link.hs) (hk : (states c (World.init s0 cli) f T).link.hs.streams[k]? = some o)
    (hrun : ∀ u, T ≤ u → (states c (World.init s0 cli) f u).link.hs.running = true)
    (hopen : ∀ u x, T ≤ u → (states c (World.init s0 cli) f u).link.hs.objs[o]? = some x → x.closed = false) :
    ∃ U, T ≤ U ∧ ∀ u, U ≤ u → Written r o N (states c (World.init s0 cli) f u).link.hs := by
  -- it queues its text
  obtain ⟨u2, hu2, hf2⟩ := hf.advance T
  have h2 : ∃ n, Soon r o n N (states c (World.init s0 cli) f (u2 + 1)).link.hs := by
    obtain ⟨hN, hat⟩ := hs_keeps c s0 cli f (P := Past r o t N) (fun s op hr h => past_step hr h op) hu2 hpast
    rw [hs_next c _ f hf2]
    rcases hat with h | ⟨n, h⟩ | h
    · exact (filed_next (hs_refs c s0 cli f u2) h).imp fun n h => ⟨events_length hN _, .inl h⟩
    · exact ⟨n, events_length hN _, queued_step hN h _⟩
    · exact ⟨0, events_length hN _, .inr (written_step h _)⟩
  -- the stream writes what is before it, and then it
  have stream : ∀ u, T ≤ u → (states c (World.init s0 cli) f u).link.hs.streams[k]? = some o := by
    intro u hu
    obtain ⟨more, hm⟩ := hs_between c s0 cli f hu
    rw [hm]; exact streams_run more _ hk
  obtain ⟨n, h2⟩ := h2
  have drain : ∀ n v, T ≤ v → Soon r o n N (states c (World.init s0 cli) f v).link.hs → ∃ U, T ≤ U ∧ Written r o N (states c (World.init s0 cli) f U).link.hs := by
    intro n
    induction n with
    | zero =>
      intro v hv h
      obtain ⟨u, ok, hu, hfu⟩ := hf.pump v
      obtain ⟨hN, h | h⟩ := hs_keeps c s0 cli f (P := Soon r o 0 N) (fun s op _ h => soon_step h op) hu h
      · obtain ⟨x, d, e, q, hx, hd, hq, hget⟩ := h
        have hd0 : d = 0 := by omega
        subst hd0
        refine ⟨u + 1, by omega, ?_⟩
        rw [hs_next c _ f hfu]
        exact pump_written ok hN (stream u (by omega)) hx (hopen u x (by omega) hx) (hrun u (by omega)) hq hget
      · exact ⟨u, by omega, h⟩
    | succ n ih =>
      intro v hv h
      obtain ⟨u, ok, hu, hfu⟩ := hf.pump v
      obtain ⟨hN, h | h⟩ := hs_keeps c s0 cli f (P := Soon r o (n + 1) N) (fun s op _ h => soon_step h op) hu h
      · refine ih (u + 1) (by omega) ?_
        obtain ⟨x, d, e, q, hx, hd, hq, hget⟩ := h
        rw [hs_next c _ f hfu]
        refine ⟨events_length hN _, ?_⟩
        by_cases hdn : d ≤ n
        · exact queued_step hN ⟨x, d, e, q, hx, hdn, hq, hget⟩ _
        · have hd1 : d = n + 1 := by omega
          subst hd1
          refine .inl ⟨_, n, e, q, step_obj _ _ o x hx, Nat.le_refl _, hq, ?_⟩
          simp only [objEffect, stream u (by omega), hopen u x (by omega) hx, hrun u (by omega), and_self, if_true]
          rw [List.getElem?_tail]; exact hget
      · exact ⟨u, by omega, h⟩
  obtain ⟨U, hTU, hU⟩ := drain n (u2 + 1) (by omega) h2
  exact ⟨U, hTU, fun u hu => hs_keeps c s0 cli f (P := Written r o N) (fun s op _ h => written_step h op) hu hU⟩

/-- A send of this request has filed its promise after event number `N`, and its text is under way or has been written since. -/
def Marked (r : Request D) (o t N : Nat) (ops : List (HsOp D)) : Prop :=
  ∃ (m : Named D) (a b : List (HsOp D)), ops = a ++ .advance t :: b ∧ m ∈ named Hs.init (a ++ [.advance t]) ∧ m.ticket = t ∧ m.obj = o ∧ SentSo r m.req ∧ keyText m.req.id ≠ [] ∧
    N ≤ ((Hs.init : Hs D).run a).events.length ∧ Past m.req o t ((Hs.init : Hs D).run a).events.length ((Hs.init : Hs D).run ops)

theorem withId_key (s : Hs D) (r : Request D) : keyText (s.withId r).1.id ≠ [] := by
  by_cases hk : keyText r.id = []
  · rw [srvWithId_made _ hk]; exact fun h => nomatch h
  · rw [srvWithId_given _ hk]; exact hk

theorem filing {r : Request D} {o t N : Nat} {a : List (HsOp D)} (h : Going r o t ((Hs.init : Hs D).run a)) (hN : N ≤ ((Hs.init : Hs D).run a).events.length) : Marked r o t N (a ++ [.advance t]) := by
  have h' : ((Hs.init : Hs D).run a).sends[t]? = some (.found o (.request r)) := h
  refine ⟨⟨t, o, ((((Hs.init : Hs D).run a).objs[o]?).map (·.pend.nextFut)).getD 0, (((Hs.init : Hs D).run a).withId r).1⟩, a, [], rfl, ?_, rfl, rfl, ⟨withId_sent _ r, srvId_plain _⟩, withId_key _ r, hN, ?_⟩
  · rw [named_snoc]
    refine List.mem_append_right _ ?_
    simp only [namedBy, h']
    exact List.mem_singleton.2 rfl
  · rw [hs_run_concat]
    refine ⟨events_length (Nat.le_refl _) _, .inl ⟨_, ⟨⟨rfl, rfl, fun _ => rfl⟩, id⟩, ?_⟩⟩
    rw [step_sends]
    dsimp only
    rw [advance_sends, h']
    dsimp only
    rw [List.getElem?_set_self (List.getElem?_eq_some_iff.1 h').1]

theorem marked_grow {r : Request D} {o t N : Nat} {a : List (HsOp D)} (h : Marked r o t N a) (op : HsOp D) : Marked r o t N (a ++ [op]) := by
  obtain ⟨m, a', b, rfl, h1, h2, h3, h4, h5, h7, h6⟩ := h
  refine ⟨m, a', b ++ [op], by simp, h1, h2, h3, h4, h5, h7, ?_⟩
  rw [hs_run_concat]
  exact past_step (refs_run _ _ refs_init) h6 op

theorem going_run {r : Request D} {o t N : Nat} {a : List (HsOp D)} (h : Going r o t ((Hs.init : Hs D).run a)) (hN : N ≤ ((Hs.init : Hs D).run a).events.length) (more : List (HsOp D)) :
    (Going r o t ((Hs.init : Hs D).run (a ++ more)) ∧ N ≤ ((Hs.init : Hs D).run (a ++ more)).events.length) ∨ Marked r o t N (a ++ more) := by
  induction more using Whole.snoc_induction with
  | h0 => rw [List.append_nil]; exact .inl ⟨h, hN⟩
  | h1 more op ih =>
    rw [← List.append_assoc]
    rcases ih with ⟨h1, h2⟩ | h1
    · rcases isAdvance op t with rfl | hop
      · exact .inr (filing h1 h2)
      · left
        rw [hs_run_concat]
        exact ⟨stage_other h1 hop, events_length h2 op⟩
    · exact .inr (marked_grow h1 op)

/-- A send that has found a session files its promise. -/
theorem going_marked (c : LinkCfg) (s0 : SSelf D) (cli : Cli D H) (f : Nat → Op D H) {T o t : Nat} {r : Request D} (hf : ∀ u, ∃ v, u ≤ v ∧ f v = .wire (.world (.advance t)))
    (hfound : Going r o t (states c (World.init s0 cli) f T).link.hs) :
    ∃ v, T ≤ v ∧ Marked r o t (states c (World.init s0 cli) f T).link.hs.events.length (states c (World.init s0 cli) f v).link.srvDid := by
  obtain ⟨v, hv, hfv⟩ := hf T
  obtain ⟨more, hm⟩ := did_between c (World.init s0 cli) f hv
  have hT := (states_sides c s0 cli f T).hs
  have hd : (states c (World.init s0 cli) f (v + 1)).link.srvDid = (states c (World.init s0 cli) f v).link.srvDid ++ [.advance t] := by
    simp only [states, hfv, World.step, isEvent, ofClient, Bool.false_and, Bool.or_false, Bool.false_eq_true, if_false]
    rfl
  refine ⟨v + 1, by omega, ?_⟩
  rw [hd, ← hm]
  rw [hT] at hfound ⊢
  rcases going_run hfound (Nat.le_refl _) more with ⟨h1, h2⟩ | h1
  · exact filing h1 h2
  · exact marked_grow h1 _

/-- What was sent under an id is sent as it is. -/
theorem sentSo_same {q q' : Request D} (hk : keyText q.id ≠ []) (h : SentSo q q') : q' = q := by
  obtain ⟨id, me, pa⟩ := q
  obtain ⟨id', me', pa'⟩ := q'
  obtain ⟨⟨h1, h2, h3⟩, -⟩ := h
  cases h1; cases h2; cases h3 hk
  rfl

/-- C136 (partial), the way to the client: when the send a call has begun (its number and its request are what `slots` holds for the call) has found a session, and the session stays open, one of its
streams keeps writing and the call goes on, then the request is written to a stream of this session after that: the method and the parameters it was given, and the id, if it was given one. Whatever else is
sent and however many events were queued before. Missing: what the client does with it, see `C136_heeded_partial`; a connection that fails loses what was written to it. -/
theorem C136_streamed_partial (c : LinkCfg) (s0 : SSelf D) (cli : Cli D H) (f : Nat → Op D H) {T k o : Nat} {t : Nat × Request D}
    (hf : Streams f t.1 k) (hfound : (states c (World.init s0 cli) f T).link.hs.sends[t.1]? = some (.found o (.request t.2)))
    (hk : (states c (World.init s0 cli) f T).link.hs.streams[k]? = some o) (hrun : ∀ u, T ≤ u → (states c (World.init s0 cli) f u).link.hs.running = true)
    (hopen : ∀ u x, T ≤ u → (states c (World.init s0 cli) f u).link.hs.objs[o]? = some x → x.closed = false) :
    ∃ U, ∀ u, U ≤ u → Written t.2 o (states c (World.init s0 cli) f T).link.hs.events.length (states c (World.init s0 cli) f u).link.hs := by
  obtain ⟨v, hv, m, a, b, -, -, -, -, h4, h5, h7, h6⟩ := going_marked c s0 cli f hf.advance hfound
  rw [← (states_sides c s0 cli f v).hs] at h6
  have hkv : (states c (World.init s0 cli) f v).link.hs.streams[k]? = some o := by
    obtain ⟨more, hm⟩ := hs_between c s0 cli f hv
    rw [hm]; exact streams_run more _ hk
  obtain ⟨U, -, hU⟩ := past_streamed c s0 cli f hf h6 hkv (fun u hu => hrun u (by omega)) (fun u x hu hx => hopen u x (by omega) hx)
  refine ⟨U, fun u hu => ?_⟩
  obtain ⟨j, k', e, ok, q, g1, g2, g3, g4⟩ := hU u hu
  have hq := sentSo_same h5 g2
  subst hq
  exact ⟨j, k', e, ok, m.req, Nat.le_trans h7 g1, h4, g3, g4⟩

end Verif.Reach
