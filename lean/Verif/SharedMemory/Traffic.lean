import Verif.SharedMemory.Lemmas

/-! Helper lemmas: what the shared-memory transport does with well-formed traffic. -/

set_option linter.unusedSectionVars false

namespace Verif.Shm

open Verif.Stdio (idText)
open InMemory (PlainReq PlainNote PlainOut replyFor_classified replyFor_id mem_of_eraseIdx perm_eraseIdx)

variable {D : Type} [DblFmt D]

/-- The request says the word: its id or method is the word, or its parameters contain a member of that name, or a string that is the word
or ends with a quote and the word. -/
def ReqSays (w : Bytes) (r : Request D) : Prop := SaysId w r.id ∨ r.method = w ∨ SaysParams w r.params

def NoteSays (w : Bytes) (n : Notification D) : Prop := n.method = w ∨ SaysParams w n.params

/-- The message is taken for an answer. -/
def ReqMisread (r : Request D) : Prop := ReqSays (lit "result") r ∨ ReqSays (lit "error") r
def NoteMisread (n : Notification D) : Prop := NoteSays (lit "result") n ∨ NoteSays (lit "error") n

theorem looks_iff (text : Bytes) : looksLikeAnswer text = true ↔ quoted (lit "result") <:+: text ∨ quoted (lit "error") <:+: text := by
  have h1 : lit "\"result\"" = quoted (lit "result") := by decide
  have h2 : lit "\"error\"" = quoted (lit "error") := by decide
  unfold looksLikeAnswer
  rw [Bool.or_eq_true, h1, h2, containsSub_iff, containsSub_iff]

theorem looks_request {r : Request D} (h : PlainReq r) : looksLikeAnswer (serRequest r) = true ↔ ReqMisread r := by
  rw [looks_iff, has_request (by decide) (by decide) (by decide) (by decide) (by decide) r h.1.ok h.2.1.noQuote h.2.2.2,
    has_request (by decide) (by decide) (by decide) (by decide) (by decide) r h.1.ok h.2.1.noQuote h.2.2.2]
  rfl

theorem looks_note {n : Notification D} (h : PlainNote n) : looksLikeAnswer (serNotification n) = true ↔ NoteMisread n := by
  rw [looks_iff, has_notification (by decide) (by decide) (by decide) (by decide) n h.1.noQuote h.2.2,
    has_notification (by decide) (by decide) (by decide) (by decide) n h.1.noQuote h.2.2]
  rfl

theorem looks_response (r : Response D) (hne : r.result ≠ none ∨ r.error ≠ none) : looksLikeAnswer (serResponse r) = true := by
  rw [looks_iff, serResponse_eq]
  cases hr : r.result with
  | some v => exact .inl ⟨preId ++ (serId r.id ++ [',']), ':' :: (ser v ++ errorTail r.error), by simp [quoted, resultTail]⟩
  | none =>
    cases he : r.error with
    | none => simp [hr, he] at hne
    | some e => exact .inr ⟨preId ++ (serId r.id ++ [',']), ':' :: (ser e ++ ['}']), by simp [quoted, resultTail, errorTail]⟩

theorem replyFor_some (req : Request D) {out : HandlerOutcome D} (ho : PlainOut out) :
    (replyFor req out).result ≠ none ∨ (replyFor req out).error ≠ none := by
  cases out with
  | resp r => exact ho.2
  | nul => exact .inr (by simp [replyFor])
  | threw m => exact .inr (by simp [replyFor])

theorem asNotification_not (t : Bytes) : (∀ r, asNotification (D := D) t ≠ .resolve r) ∧ ∀ r, asNotification (D := D) t ≠ .request r := by
  unfold asNotification
  split
  · split <;> simp
  · simp

/-- A request that says neither word reaches the handler. -/
theorem event_request {r : Request D} (h : PlainReq r) (hm : ¬ ReqMisread r) (hh : Bool) :
    eventOf hh (serRequest r) = if hh then .request r else asNotification (serRequest r) := by
  have hc := C15_request_classified r h.1 h.2.1 h.2.2.2
  have hd := C04_request_roundtrip_wire r h.1.ok h.2.1.noQuote h.2.2.1 h.2.2.2
  have ht := (request_top r h.1 h.2.1 h.2.2.2).2.2.2
  have hl : looksLikeAnswer (serRequest r) = false := by
    cases hl : looksLikeAnswer (serRequest r) with
    | false => rfl
    | true => exact absurd ((looks_request h).1 hl) hm
  unfold eventOf
  rw [hl, ht, hc, hd]
  simp

/-- A request that says one of them is taken for an answer. -/
theorem event_misread {r : Request D} (h : PlainReq r) (hm : ReqMisread r) (hh : Bool) :
    eventOf (D := D) hh (serRequest r) = .resolve (deResponse (serRequest r)) := by
  unfold eventOf
  rw [if_pos ((looks_request h).2 hm)]

theorem request_id {r : Request D} (h : PlainReq r) : (deResponse (D := D) (serRequest r)).id = r.id :=
  (request_fields r h.1.ok h.2.1.noQuote).1

theorem event_note {n : Notification D} (h : PlainNote n) (hm : ¬ NoteMisread n) (hh : Bool) :
    eventOf hh (serNotification n) = if n.method = byeMethod then .disconnected else .notification n := by
  have hc := C15_notification_classified n h.1 h.2.2
  have hd := C06_notification_roundtrip_wire n h.1.noQuote h.2.1 h.2.2
  have hl : looksLikeAnswer (serNotification n) = false := by
    cases hl : looksLikeAnswer (serNotification n) with
    | false => rfl
    | true => exact absurd ((looks_note h).1 hl) hm
  unfold eventOf
  rw [hl, hc]
  simp [asNotification, hd]

theorem event_note_misread {n : Notification D} (h : PlainNote n) (hm : NoteMisread n) (hh : Bool) :
    eventOf (D := D) hh (serNotification n) = .resolve (deResponse (serNotification n)) := by
  unfold eventOf
  rw [if_pos ((looks_note h).2 hm)]

theorem event_reply (req : Request D) {out : HandlerOutcome D} (ho : PlainOut out) (hh : Bool) :
    eventOf (D := D) hh (serResponse (replyFor req out)) = .resolve (deResponse (serResponse (replyFor req out))) := by
  unfold eventOf
  rw [if_pos (looks_response _ (replyFor_some req ho))]

def PlainOp : Op D → Prop
  | .send _ r => PlainReq r
  | .notify _ n => PlainNote n
  | .reply _ _ out => PlainOut out
  | _ => True

theorem chooseId_plain {id : RpcId} (h : IdPlain id) (c : Nat) : IdPlain (chooseId id c).1 := by
  have key : ∀ c, PlainText (lit "shm-req-" ++ natDec c) := by
    intro c x hx
    rcases List.mem_append.1 hx with h1 | h1
    · clear hx; revert x; decide
    · have := natDec_isDig h1
      constructor <;> (intro e; subst e; revert this; decide)
  unfold chooseId
  cases id with
  | str s => simp only; split
             · exact key _
             · exact h
  | int i => exact h
  | null => exact key _

/-- Where a sent text comes from. -/
inductive Origin (asked : List (Nat × Request D)) (answered : List (Request D × HandlerOutcome D × Bool)) : Bytes → Prop
  | request {n : Nat} {r : Request D} : (n, r) ∈ asked → PlainReq r → Origin asked answered (serRequest r)
  | note {n : Notification D} : PlainNote n → Origin asked answered (serNotification n)
  | reply {req : Request D} {out : HandlerOutcome D} : (req, out, true) ∈ answered → IdPlain req.id → PlainOut out →
      Origin asked answered (serResponse (replyFor req out))

theorem Origin.mono {a a' : List (Nat × Request D)} {b b' : List (Request D × HandlerOutcome D × Bool)} (h1 : ∀ x ∈ a, x ∈ a')
    (h2 : ∀ x ∈ b, x ∈ b') {t : Bytes} (h : Origin a b t) : Origin a' b' t := by
  cases h with
  | request h hr => exact .request (h1 _ h) hr
  | note h => exact .note h
  | reply h hi ho => exact .reply (h2 _ h) hi ho

/-- Where a response comes from, seen from the peer: the answer to a request, or a message taken for an answer. -/
def Answer (p : Endpoint D) (r : Response D) : Prop :=
  ∃ req out, (req, out, true) ∈ p.answered ∧ r = deResponse (D := D) (serResponse (replyFor req out)) ∧ r.id = req.id

def Mistaken (p : Endpoint D) (r : Response D) : Prop :=
  (∃ m, ∃ q : Request D, (m, q) ∈ p.asked ∧ ReqMisread q ∧ r = deResponse (D := D) (serRequest q) ∧ r.id = q.id) ∨
  ∃ n : Notification D, PlainNote n ∧ serNotification n ∈ p.log ∧ NoteMisread n ∧ r = deResponse (D := D) (serNotification n)

/-- The invariant of plain traffic, for the endpoint `e` with peer `p`. -/
structure PlainInv (e p : Endpoint D) : Prop where
  tickets : ∀ r ∈ e.tickets, PlainReq r
  askedSent : ∀ n r, (n, r) ∈ e.asked → (n, idText r.id) ∈ e.tab.sent ∧ PlainReq r
  sending : ∀ k r, (k, r) ∈ e.sending → ∃ n, (n, r) ∈ e.asked
  log : ∀ t ∈ e.log, Origin e.asked e.answered t
  jobs : ∀ r ∈ e.jobs, (∃ n, (n, r) ∈ p.asked) ∧ PlainReq r ∧ ¬ ReqMisread r
  answered : ∀ r out ok, (r, out, ok) ∈ e.answered → (∃ n, (n, r) ∈ p.asked) ∧ PlainReq r ∧ ¬ ReqMisread r
  outcomes : ∀ n r, (n, Outcome.response r) ∈ e.tab.outcomes → Answer p r ∨ Mistaken p r

theorem Answer.peer {p p' : Endpoint D} {r : Response D} (h : Answer p r) (h2 : ∀ x ∈ p.answered, x ∈ p'.answered) : Answer p' r := by
  obtain ⟨q, o, ha, hb⟩ := h; exact ⟨q, o, h2 _ ha, hb⟩

theorem Mistaken.peer {p p' : Endpoint D} {r : Response D} (h : Mistaken p r) (h1 : ∀ x ∈ p.asked, x ∈ p'.asked)
    (h3 : ∀ x ∈ p.log, x ∈ p'.log) : Mistaken p' r := by
  rcases h with ⟨m, q, ha, hb⟩ | ⟨n, hn, hl, hb⟩
  · exact .inl ⟨m, q, h1 _ ha, hb⟩
  · exact .inr ⟨n, hn, h3 _ hl, hb⟩

/-- The peer may gain questions, answers and sent texts. -/
theorem PlainInv.peer {e p p' : Endpoint D} (h : PlainInv e p) (h1 : ∀ x ∈ p.asked, x ∈ p'.asked)
    (h2 : ∀ x ∈ p.answered, x ∈ p'.answered) (h3 : ∀ x ∈ p.log, x ∈ p'.log) : PlainInv e p' := by
  refine ⟨h.tickets, h.askedSent, h.sending, h.log, ?_, ?_, ?_⟩
  · intro r hr; obtain ⟨⟨n, hn⟩, h5⟩ := h.jobs r hr; exact ⟨⟨n, h1 _ hn⟩, h5⟩
  · intro r o k hr; obtain ⟨⟨n, hn⟩, h5⟩ := h.answered r o k hr; exact ⟨⟨n, h1 _ hn⟩, h5⟩
  · intro n r hr
    rcases h.outcomes n r hr with h5 | h5
    · exact .inl (h5.peer h2)
    · exact .inr (h5.peer h1 h3)

/-- What the invariant reads of an endpoint, but for the promises. -/
def Endpoint.talk (e : Endpoint D) :
    List (Request D) × List (Nat × Request D) × List (Bytes × Request D) × List Bytes × List (Request D) × List (Request D × HandlerOutcome D × Bool) :=
  (e.tickets, e.asked, e.sending, e.log, e.jobs, e.answered)

/-- Updates that touch none of these, and complete promises at most with something other than a response. -/
theorem PlainInv.frame {e p e' : Endpoint D} (h : PlainInv e p) (ht : e'.talk = e.talk) (hs : ∀ x ∈ e.tab.sent, x ∈ e'.tab.sent)
    (ho : ∀ n r, (n, Outcome.response r) ∈ e'.tab.outcomes → (n, Outcome.response r) ∈ e.tab.outcomes) : PlainInv e' p := by
  simp only [Endpoint.talk, Prod.mk.injEq] at ht
  obtain ⟨h1, h2, h3, h4, h5, h6⟩ := ht
  refine ⟨by rw [h1]; exact h.tickets, ?_, by rw [h3, h2]; exact h.sending, ?_, by rw [h5]; exact h.jobs, by rw [h6]; exact h.answered,
    fun n r hr => h.outcomes n r (ho n r hr)⟩
  · rw [h2]; intro n r hr
    exact ⟨hs _ (h.askedSent n r hr).1, (h.askedSent n r hr).2⟩
  · rw [h4, h2, h6]; exact h.log

theorem PlainInv.logged {e p : Endpoint D} (h : PlainInv e p) {t : Bytes} (ht : Origin e.asked e.answered t) :
    PlainInv { e with log := e.log ++ [t] } p := by
  refine ⟨h.tickets, h.askedSent, h.sending, ?_, h.jobs, h.answered, h.outcomes⟩
  intro u hu
  rcases List.mem_append.1 hu with h1 | h1
  · exact h.log u h1
  · simp at h1; subst h1; exact ht

theorem closeAll_resp {t : PTab (Outcome D)} {f : Bytes → Outcome D} (hf : ∀ k r, f k ≠ .response r) {n : Nat} {r : Response D}
    (h : (n, Outcome.response r) ∈ (t.closeAll f).outcomes) : (n, Outcome.response r) ∈ t.outcomes := by
  rcases List.mem_append.1 h with h1 | h1
  · exact h1
  · obtain ⟨q, _, h3⟩ := List.mem_map.1 h1
    simp only [Prod.mk.injEq] at h3
    exact absurd h3.2 (hf _ _)

theorem complete_resp {t : PTab (Outcome D)} {k : Bytes} {o : Outcome D} {n : Nat} {r : Response D}
    (h : (n, Outcome.response r) ∈ (t.complete k o).outcomes) : (n, Outcome.response r) ∈ t.outcomes ∨ o = .response r := by
  unfold PTab.complete at h
  split at h
  · rcases List.mem_append.1 h with h1 | h1
    · exact .inl h1
    · simp at h1; exact .inr h1.2.symm
  · exact .inl h

/-- Handling a text of the peer. -/
theorem PlainInv.handled {e p : Endpoint D} (h : PlainInv e p) {t : Bytes} (ht : Origin p.asked p.answered t) (hl : t ∈ p.log) :
    PlainInv { e.apply (eventOf e.hasHandler t) with current := none } p := by
  have same : ∀ ev, (∀ r, ev ≠ .resolve r) → (∀ r, ev ≠ .request r) → PlainInv { e.apply ev with current := none } p := by
    intro ev h1 h2
    cases ev with
    | resolve r => exact absurd rfl (h1 r)
    | request r => exact absurd rfl (h2 r)
    | notification n => exact h.frame rfl (fun _ h => h) (fun _ _ h => h)
    | disconnected => exact h.frame rfl (fun _ h => h) (fun _ _ h => closeAll_resp (by intro k r e; cases e) h)
    | dropped => exact h.frame rfl (fun _ h => h) (fun _ _ h => h)
  have res : ∀ r, (Answer p r ∨ Mistaken p r) → PlainInv { e.apply (.resolve r) with current := none } p := by
    intro r hr
    refine ⟨h.tickets, ?_, h.sending, h.log, h.jobs, h.answered, ?_⟩
    · intro n q hq
      exact ⟨by simp only [Endpoint.apply]; rw [PTab.complete_sent]; exact (h.askedSent n q hq).1, (h.askedSent n q hq).2⟩
    · intro n q hq
      rcases complete_resp hq with h1 | h1
      · exact h.outcomes n q h1
      · cases h1; exact hr
  cases ht with
  | @request n r hn hr =>
    by_cases hm : ReqMisread r
    · rw [event_misread hr hm]
      exact res _ (.inr (.inl ⟨n, r, hn, hm, rfl, request_id hr⟩))
    · rw [event_request hr hm]
      split
      · refine ⟨h.tickets, h.askedSent, h.sending, h.log, ?_, h.answered, h.outcomes⟩
        intro q hq
        rcases List.mem_append.1 hq with h1 | h1
        · exact h.jobs q h1
        · simp at h1; subst h1; exact ⟨⟨n, hn⟩, hr, hm⟩
      · exact same _ (asNotification_not _).1 (asNotification_not _).2
  | @note n hn =>
    by_cases hm : NoteMisread n
    · rw [event_note_misread hn hm]
      exact res _ (.inr (.inr ⟨n, hn, hl, hm, rfl⟩))
    · rw [event_note hn hm]
      apply same <;> (intro r; split <;> simp)
  | @reply req out ha hi ho =>
    rw [event_reply req ho]
    refine res _ (.inl ⟨req, out, ha, rfl, ?_⟩)
    have := response_id (replyFor req out) (by rw [replyFor_id]; exact hi.ok)
    rw [replyFor_id] at this; exact this

def PlainAll (s : Net D) : Prop := ∀ y, PlainInv (s.get y) (s.get (!y))

theorem plainAll_init (ha hb : Bool) : PlainAll (Net.init ha hb : Net D) := by
  intro y
  cases y <;> constructor <;> simp [Net.init, Net.get, Endpoint.init, PTab.init]

/-- Updating one endpoint. -/
theorem plainAll_upd {s : Net D} (h : PlainAll s) (x : Bool) {f : Endpoint D → Endpoint D}
    (h1 : PlainInv (s.get x) (s.get (!x)) → PlainInv (f (s.get x)) (s.get (!x)))
    (h2 : ∀ y ∈ (s.get x).asked, y ∈ (f (s.get x)).asked) (h3 : ∀ y ∈ (s.get x).answered, y ∈ (f (s.get x)).answered)
    (h4 : ∀ y ∈ (s.get x).log, y ∈ (f (s.get x)).log) : PlainAll (s.upd x f) := by
  intro y
  by_cases hy : y = x
  · subst hy
    rw [get_upd_same, get_upd_not]; exact h1 (h y)
  · have : x = !y := by cases x <;> cases y <;> simp_all
    subst this
    rw [get_upd_same, get_upd_not']; exact (h y).peer h2 h3 h4

theorem plainAll_frame {s : Net D} (h : PlainAll s) (x : Bool) {f : Endpoint D → Endpoint D} (ht : (f (s.get x)).talk = (s.get x).talk)
    (hs : ∀ y ∈ (s.get x).tab.sent, y ∈ (f (s.get x)).tab.sent)
    (ho : ∀ n r, (n, Outcome.response r) ∈ (f (s.get x)).tab.outcomes → (n, Outcome.response r) ∈ (s.get x).tab.outcomes) :
    PlainAll (s.upd x f) := by
  have ht' := ht
  simp only [Endpoint.talk, Prod.mk.injEq] at ht'
  obtain ⟨h1, h2, h3, h4, h5, h6⟩ := ht'
  exact plainAll_upd h x (fun h => h.frame ht hs ho) (by rw [h2]; exact fun _ h => h) (by rw [h6]; exact fun _ h => h) (by rw [h4]; exact fun _ h => h)

theorem plainAll_push {s : Net D} (h : PlainAll s) (x : Bool) {t : Bytes} (ht : Origin (s.get x).asked (s.get x).answered t) : PlainAll (s.push x t) := by
  unfold Net.push
  have h' : PlainAll (s.upd x (fun e => { e with log := e.log ++ [t] })) :=
    plainAll_upd h x (fun h => h.logged ht) (fun _ h => h) (fun _ h => h) (fun _ h => List.mem_append_left _ h)
  exact plainAll_frame h' (!x) rfl (fun _ h => h) (fun _ _ h => h)

theorem plainAll_put {s : Net D} (h : PlainAll s) (c : Cfg) (x : Bool) {t : Bytes} (ht : Origin (s.get x).asked (s.get x).answered t) : PlainAll (s.put c x t) := by
  unfold Net.put; split
  · exact plainAll_push h x ht
  · exact h

theorem plain_bye : PlainNote (⟨byeMethod, some (.obj [])⟩ : Notification D) :=
  ⟨by show ∀ c ∈ byeMethod, c ≠ '"' ∧ c ≠ '\\'; decide, by show byeMethod ≠ []; decide, by intro v hv; cases hv; simp [JVal.Wire, WireFields]⟩

theorem plainAll_step {s : Net D} (h : PlainAll s) (hf : Fifo s) (c : Cfg) (op : Op D) (hop : PlainOp op) : PlainAll (s.step c op) := by
  cases op with
  | start x =>
    cases x <;> (simp only [Net.step, Net.start]; split)
    · exact h
    · exact plainAll_frame h false (f := fun e => { e with connected := true, loop := true, opened := true }) rfl (fun _ h => h) (fun _ _ h => h)
    · exact plainAll_frame h true (f := fun e => { e with connected := true, loop := true, opened := true }) rfl (fun _ h => h) (fun _ _ h => h)
    · exact h
  | send x r =>
    show PlainAll (s.upd x fun e => e.send r)
    cases hc : (s.get x).connected with
    | true =>
      have e : (s.get x).send r = { s.get x with tickets := (s.get x).tickets ++ [r] } := by simp [Endpoint.send, hc]
      refine plainAll_upd h x (fun h => ?_) ?_ ?_ ?_
      · simp only [e]
        refine ⟨?_, h.askedSent, h.sending, h.log, h.jobs, h.answered, h.outcomes⟩
        intro q hq
        rcases List.mem_append.1 hq with h1 | h1
        · exact h.tickets q h1
        · simp at h1; subst h1; exact hop
      all_goals (simp only [e]; exact fun _ h => h)
    | false =>
      have e : (s.get x).send r = { s.get x with tab := (s.get x).tab.immediate (.refused r.id) } := by simp [Endpoint.send, hc]
      refine plainAll_frame h x ?_ ?_ ?_
      · simp only [e]; rfl
      · simp only [e]; exact fun _ h => h
      · simp only [e]
        intro n q hq
        rcases List.mem_append.1 hq with h1 | h1
        · exact h1
        · simp at h1
  | file x i =>
    show PlainAll (s.upd x fun e => e.file i)
    cases hg : (s.get x).tickets[i]? with
    | none =>
      have e : (s.get x).file i = s.get x := by simp [Endpoint.file, hg]
      exact plainAll_frame h x (by simp only [e]) (by simp only [e]; exact fun _ h => h) (by simp only [e]; exact fun _ _ h => h)
    | some r =>
      have e : (s.get x).file i = { s.get x with
          tickets := (s.get x).tickets.eraseIdx i, counter := (chooseId r.id (s.get x).counter).2,
          tab := (s.get x).tab.insert (idText (chooseId r.id (s.get x).counter).1) .broken,
          sending := (s.get x).sending ++ [(idText (chooseId r.id (s.get x).counter).1, { r with id := (chooseId r.id (s.get x).counter).1 })],
          asked := (s.get x).asked ++ [((s.get x).tab.nextFut, { r with id := (chooseId r.id (s.get x).counter).1 })] } := by
        simp [Endpoint.file, hg]
      have hr := (h x).tickets r (List.mem_of_getElem? hg)
      refine plainAll_upd h x (fun h => ?_) (by simp only [e]; exact fun _ h => List.mem_append_left _ h) (by simp only [e]; exact fun _ h => h)
        (by simp only [e]; exact fun _ h => h)
      simp only [e]
      refine ⟨fun q hq => h.tickets q (mem_of_eraseIdx hq), ?_, ?_, ?_, h.jobs, h.answered, ?_⟩
      · intro n q hq
        rcases List.mem_append.1 hq with h1 | h1
        · exact ⟨List.mem_append_left _ (h.askedSent n q h1).1, (h.askedSent n q h1).2⟩
        · simp at h1
          obtain ⟨rfl, rfl⟩ := h1
          exact ⟨List.mem_append_right _ (by simp), chooseId_plain hr.1 _, hr.2.1, hr.2.2.1, hr.2.2.2⟩
      · intro k q hq
        rcases List.mem_append.1 hq with h1 | h1
        · obtain ⟨n, hn⟩ := h.sending k q h1; exact ⟨n, List.mem_append_left _ hn⟩
        · simp at h1; exact ⟨(s.get x).tab.nextFut, List.mem_append_right _ (by rw [h1.2]; simp)⟩
      · intro t ht
        exact Origin.mono (fun _ h => List.mem_append_left _ h) (fun _ h => h) (h.log t ht)
      · intro n q hq
        refine h.outcomes n q ?_
        revert hq
        simp only [PTab.insert]
        cases AMap.get (s.get x).tab.pending (idText (chooseId r.id (s.get x).counter).1) with
        | none => exact fun h => h
        | some old =>
          intro hq
          rcases List.mem_append.1 hq with h1 | h1
          · exact h1
          · simp at h1
  | deliver x i =>
    show PlainAll (s.deliver c x i)
    unfold Net.deliver
    split
    · exact h
    · rename_i key r hg
      have h' : PlainAll (s.upd x (fun e => { e with sending := e.sending.eraseIdx i })) := by
        refine plainAll_upd h x (fun h => ?_) (fun _ h => h) (fun _ h => h) (fun _ h => h)
        exact ⟨h.tickets, h.askedSent, fun k r hk => h.sending k r (mem_of_eraseIdx hk), h.log, h.jobs, h.answered, h.outcomes⟩
      obtain ⟨n, hn⟩ := (h x).sending key r (List.mem_of_getElem? hg)
      simp only
      split
      · refine plainAll_push h' x (.request (n := n) ?_ ((h x).askedSent n r hn).2)
        rw [get_upd_same]; exact hn
      · refine plainAll_frame h' x rfl ?_ ?_
        · intro y hy; rw [PTab.complete_sent]; exact hy
        · intro n r hr
          rcases complete_resp hr with h1 | h1
          · exact h1
          · split at h1 <;> cases h1
  | notify x n => exact plainAll_put h c x (.note hop)
  | take x =>
    obtain ⟨h1, h2, h3, h4, h5, h6, h7, h8, h9⟩ := take_frame c x (s.get x)
    refine plainAll_frame h x ?_ ?_ ?_
    · simp only [Endpoint.talk, h1, h2, h3, h4, h8, h9]
    · rw [h7]; exact fun _ h => h
    · rw [h7]; exact fun _ _ h => h
  | handle x =>
    obtain ⟨e1, e2, e3, e4, e5, e6, e7⟩ := handle_frame (s.get x)
    refine plainAll_upd h x (fun hx => ?_) (by rw [e2]; exact fun _ h => h) (by rw [e3]; exact fun _ h => h) (by rw [e1]; exact fun _ h => h)
    unfold Endpoint.handle
    split
    · exact hx
    · rename_i t hc
      obtain ⟨pre, h1, _⟩ := hf x
      have hl : t ∈ (s.get (!x)).log := by rw [h1, hc]; simp
      exact hx.handled ((h (!x)).log t hl) hl
  | reply x i out =>
    show PlainAll (s.reply c x i out)
    unfold Net.reply
    split
    · exact h
    · rename_i req hg
      have hm := List.mem_of_getElem? hg
      have h' : ∀ ok, PlainAll (s.upd x (fun e => { e with jobs := e.jobs.eraseIdx i, answered := e.answered ++ [(req, out, ok)] })) := by
        intro ok
        refine plainAll_upd h x (fun h => ?_) (fun _ h => h) (fun _ h => List.mem_append_left _ h) (fun _ h => h)
        refine ⟨h.tickets, h.askedSent, h.sending, fun t ht => Origin.mono (fun _ h => h) (fun _ h => List.mem_append_left _ h) (h.log t ht),
          fun r hr => h.jobs r (mem_of_eraseIdx hr), ?_, h.outcomes⟩
        intro r o k hr
        rcases List.mem_append.1 hr with h1 | h1
        · exact h.answered r o k h1
        · simp at h1; rw [h1.1]; exact h.jobs req hm
      simp only
      split
      · rename_i hk
        refine plainAll_push (h' _) x (.reply (req := req) (out := out) ?_ ((h x).jobs req hm).2.1.1 hop)
        rw [get_upd_same]; simp [hk]
      · exact h' _
  | loopEnd x =>
    show PlainAll (s.upd x Endpoint.loopEnd)
    refine plainAll_frame h x ?_ ?_ ?_
    · unfold Endpoint.loopEnd; split <;> rfl
    · unfold Endpoint.loopEnd; split <;> exact fun _ h => h
    · unfold Endpoint.loopEnd
      split
      · exact fun _ _ h => closeAll_resp (by intro k r e; cases e) h
      · exact fun _ _ h => h
  | closeTell => exact plainAll_put h c false (.note plain_bye)
  | closeFlag x => exact plainAll_frame h x rfl (fun _ h => h) (fun _ _ h => h)
  | closeEnd x =>
    show PlainAll (s.closeEnd x)
    unfold Net.closeEnd
    split
    · exact h
    · have h' : PlainAll (s.upd x (fun e => { e with tab := e.tab.closeAll .closed })) :=
        plainAll_frame h x rfl (fun _ h => h) (fun _ _ h => closeAll_resp (by intro k r e; cases e) h)
      intro y
      rw [get_removed, get_removed]; exact h' y
  | tick x => exact plainAll_frame h x rfl (fun _ h => h) (fun _ _ h => h)

theorem plainAll_run {s : Net D} (h : PlainAll s) (hf : Fifo s) (c : Cfg) (ops : List (Op D)) (hops : ∀ op ∈ ops, PlainOp op) :
    PlainAll (s.run c ops) := by
  induction ops generalizing s with
  | nil => exact h
  | cons op ops ih =>
    exact ih (plainAll_step h hf c op (hops op (by simp))) (fifo_step hf c op) (fun o ho => hops o (by simp [ho]))

end Verif.Shm
