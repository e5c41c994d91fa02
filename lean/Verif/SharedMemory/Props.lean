import Verif.SharedMemory.Traffic

/-! C47 and C90: the shared-memory transport. -/

set_option linter.unusedSectionVars false

namespace Verif

open Shm
open Verif.Stdio (idText)
open InMemory (PlainReq PlainNote PlainOut replyFor_id)

variable {D : Type} [DblFmt D]

namespace Shm

/-- Steps the two transports take by themselves, once the calls made have begun. -/
def Own : Op D → Prop
  | .file _ _ => True
  | .deliver _ _ => True
  | .take _ => True
  | .handle _ => True
  | .reply _ _ _ => True
  | .loopEnd _ => True
  | _ => False

/-- Nothing is under way on a side, and nothing will be: no message waits for a loop that still runs. -/
def Endpoint.quiet (c : Cfg) (x : Bool) (e : Endpoint D) : Bool :=
  e.tickets.isEmpty && e.sending.isEmpty && e.jobs.isEmpty && e.current.isNone &&
  (!e.loop || (e.connected && e.queue.isEmpty && decide (c.sizeA ≤ c.size x)))

theorem Endpoint.quiet_iff (c : Cfg) (x : Bool) (e : Endpoint D) : e.quiet c x = true ↔ e.tickets = [] ∧ e.sending = [] ∧ e.jobs = [] ∧
    e.current = none ∧ (e.loop = false ∨ (e.connected = true ∧ e.queue = [] ∧ ¬ c.size x < c.sizeA)) := by
  simp [Endpoint.quiet, and_assoc]

theorem upd_self (s : Net D) (x : Bool) {f : Endpoint D → Endpoint D} (h : f (s.get x) = s.get x) : s.upd x f = s := by
  cases x <;> simp only [Net.upd, Net.get] at * <;> rw [h]

theorem quiet_step {c : Cfg} {s : Net D} (h : ∀ y, (s.get y).quiet c y = true) {op : Op D} (ho : Own op) : s.step c op = s := by
  have h := fun y => (Endpoint.quiet_iff c y _).1 (h y)
  cases op with
  | file x i => exact upd_self s x (f := fun e => e.file i) (show (s.get x).file i = s.get x by simp [Endpoint.file, (h x).1])
  | deliver x i => simp [Net.step, Net.deliver, (h x).2.1]
  | take x =>
    apply upd_self
    unfold Endpoint.take
    split
    · rename_i hc
      rcases (h x).2.2.2.2 with h1 | ⟨h1, h2, h3⟩
      · simp [h1] at hc
      · rw [if_neg h3, h2]
    · rfl
  | handle x => exact upd_self s x (show (s.get x).handle = s.get x by simp [Endpoint.handle, (h x).2.2.2.1])
  | reply x i out => simp [Net.step, Net.reply, (h x).2.2.1]
  | loopEnd x =>
    apply upd_self
    unfold Endpoint.loopEnd
    split
    · rename_i hc
      rcases (h x).2.2.2.2 with h1 | ⟨h1, h2, h3⟩
      · simp [h1] at hc
      · simp [h1] at hc
    · rfl
  | _ => exact absurd ho (fun h => h)

theorem quiet_run {c : Cfg} {s : Net D} (h : ∀ y, (s.get y).quiet c y = true) : ∀ (ops : List (Op D)), (∀ op ∈ ops, Own op) → s.run c ops = s
  | [], _ => rfl
  | op :: ops, ho => by
    show (s.step c op).run c ops = s
    rw [quiet_step h (ho op (by simp))]
    exact quiet_run h ops (fun o h => ho o (by simp [h]))

/-- Neither the requests nor the notifications of this side are taken for answers. -/
def NoWords (p : Endpoint D) : Prop :=
  (∀ m q, (m, q) ∈ p.asked → ¬ ReqMisread q) ∧ ∀ n : Notification D, PlainNote n → serNotification n ∈ p.log → ¬ NoteMisread n

theorem NoWords.answer {p : Endpoint D} (h : NoWords p) {r : Response D} (hr : Answer p r ∨ Mistaken p r) : Answer p r := by
  rcases hr with h1 | ⟨m, q, h1, h2, _⟩ | ⟨n, h1, h2, h3, _⟩
  · exact h1
  · exact absurd h2 (h.1 m q h1)
  · exact absurd h3 (h.2 n h1 h2)

end Shm

/-! ### C47 -/

/-- **C47.** With a handler installed, a request is handed to the handler, as it was sent, exactly when it says neither `result` nor
`error`: not as its id or method, not as the name of a member of its parameters at any depth, and not as a string in them (or as the end
of one, after a quote). -/
theorem C47_handed_iff (r : Request D) (h : PlainReq r) :
    eventOf true (serRequest r) = .request r ↔ ¬ (ReqSays (lit "result") r ∨ ReqSays (lit "error") r) := by
  constructor
  · intro he hm
    rw [event_misread h hm] at he
    cases he
  · intro hm
    rw [event_request h hm]; rfl

/-- **C47.** In every execution the requests handed to the handler are, with multiplicity, those still being handled and those answered:
each is answered at most once, and exactly once when its handler returns. -/
theorem C47_answered_once (c : Cfg) (ha hb : Bool) (ops : List (Op D)) (y : Bool) :
    let s := (Net.init ha hb : Net D).run c ops
    ((s.get y).events.filterMap Event.req?).Perm ((s.get y).jobs ++ (s.get y).answered.map (·.1)) :=
  jobsInv_run (jobsInv_init ha hb) c ops y

/-- **C47 (partial).** When the handler of a request returns, the response owed for it, under its id, enters the peer's queue, if it is no
larger than either side's limit allows and the queue has room. Missing: it is dropped otherwise. -/
theorem C47_answer_sent_partial (c : Cfg) (s : Net D) (x : Bool) (i : Nat) (req : Request D) (out : HandlerOutcome D)
    (hj : (s.get x).jobs[i]? = some req) (ho : (s.get x).opened = true) (hroom : (s.get (!x)).queue.length < c.count) :
    ∃ resp, OwedResponse req out resp ∧ ((serResponse resp).length ≤ c.size x → (serResponse resp).length ≤ c.sizeA →
      ((s.step c (.reply x i out)).get (!x)).queue = (s.get (!x)).queue ++ [serResponse resp]) := by
  refine ⟨replyFor req out, ?_, ?_⟩
  · cases out <;> simp [OwedResponse, replyFor, mkErrorObj, Code.internalError]
  · intro h1 h2
    have hf : s.fits c x (serResponse (replyFor req out)) = true := by simp [Net.fits, ho, h1, h2, hroom]
    show ((s.reply c x i out).get (!x)).queue = _
    unfold Net.reply
    rw [hj]
    simp only [hf, if_true]
    rw [get_push, if_neg (by cases x <;> simp), get_upd_not]

/-- **C47 fails**: in every execution with distinct ids and a peer that sends no messages of its own that look like answers, a request
that says `result` or `error` is never answered. -/
theorem C47_dropped_counterexample (c : Cfg) (ha hb : Bool) (ops : List (Op D)) (hops : ∀ op ∈ ops, PlainOp op) (y : Bool) :
    let s := (Net.init ha hb : Net D).run c ops
    ((s.get y).tab.sent.map (·.2)).Nodup → NoWords (s.get (!y)) →
    ∀ n r, (n, r) ∈ (s.get y).asked → (ReqSays (lit "result") r ∨ ReqSays (lit "error") r) →
      ∀ resp, (n, Outcome.response resp) ∉ (s.get y).tab.outcomes := by
  intro s hd hw n r hn hm resp hr
  have hp : PlainAll s := plainAll_run (plainAll_init ha hb) (fifo_init ha hb) c ops hops
  have ht : TabInv s := tabInv_run (tabInv_init ha hb) c ops
  have hk : AskedInv s := askedInv_run c ha hb ops
  obtain ⟨req, out, h1, h2, h3⟩ := hw.answer ((hp y).outcomes n resp hr)
  obtain ⟨⟨m, h4⟩, h5, h6⟩ := (hp (!y)).answered req out true h1
  rw [Bool.not_not] at h4
  have e1 := own_future ht hk hd hr h4 h3
  subst e1
  exact h6 (asked_fun ht hk h4 hn ▸ hm)

/-- Limits for the examples. -/
def shmCfg : Cfg := ⟨300, 300, 4⟩

/-- **C47 fails**: `logging/setLevel` asking for errors only, the request of the logging feature of the protocol, is never answered and
never handled: both sides connected, a handler installed, nothing left to do, and the future is open for good. -/
theorem C47_set_level_counterexample :
    ∃ ops : List (Op Empty), let s := (Net.init true true).run shmCfg ops
      s.a.connected = true ∧ s.b.connected = true ∧ s.b.asked.map (·.2) =
        [⟨.int 1, lit "logging/setLevel", some (.obj [(lit "level", .str (lit "error"))])⟩] ∧
      s.a.events.filterMap Event.req? = [] ∧
      ∀ more, (∀ op ∈ more, Own op) → (lit "1", 0) ∈ ((s.run shmCfg more).get true).tab.pending := by
  refine ⟨[.start false, .start true, .send true ⟨.int 1, lit "logging/setLevel", some (.obj [(lit "level", .str (lit "error"))])⟩,
    .file true 0, .deliver true 0, .take false, .handle false], by decide +kernel, by decide +kernel, by decide +kernel, by decide +kernel, ?_⟩
  intro more hm
  rw [quiet_run (by decide +kernel) more hm]
  decide +kernel

/-- **C47 fails** for notifications: one that says either word never reaches the notification handler; a log message of level `error` is
an instance, whatever it reports. -/
theorem C47_error_log_counterexample (hh : Bool) (data : JVal D) (hd : data.Wire) :
    ∃ r, eventOf (D := D) hh (serNotification (⟨lit "notifications/message",
      some (.obj [(lit "level", .str (lit "error")), (lit "data", data)])⟩ : Notification D)) = .resolve r := by
  refine ⟨_, event_note_misread ⟨?_, ?_, ?_⟩ (.inr (.inr ⟨_, rfl, ?_⟩)) hh⟩
  · show ∀ c ∈ lit "notifications/message", c ≠ '"' ∧ c ≠ '\\'; decide
  · show lit "notifications/message" ≠ []; decide
  · intro v hv
    cases hv
    simp [JVal.Wire, WireFields, hd, PlainText, lit]
  · simp [SaysWord, SaysWordFields, SaysText]

/-- **C47.** A notification is handed over, as it was sent, exactly when it says neither word (and is not the farewell of the transport). -/
theorem C47_notification_iff (hh : Bool) (n : Notification D) (h : PlainNote n) (hb : n.method ≠ lit "transport/disconnected") :
    eventOf hh (serNotification n) = .notification n ↔ ¬ (NoteSays (lit "result") n ∨ NoteSays (lit "error") n) := by
  constructor
  · intro he hm
    rw [event_note_misread h hm] at he
    cases he
  · intro hm
    rw [event_note h hm]
    exact if_neg hb

/-- **C47 fails**: a request that says either word answers the receiver's own request of the same id, with a response nobody made. -/
theorem C47_own_request_counterexample :
    ∃ (ops : List (Op Empty)) (r : Response Empty), let s := (Net.init true true).run shmCfg ops
      (0, Outcome.response r) ∈ s.a.tab.outcomes ∧ s.b.answered = [] ∧ s.b.events = [] := by
  refine ⟨[.start false, .start true, .send false ⟨.int 1, lit "roots/list", none⟩, .file false 0,
    .send true ⟨.int 1, lit "tools/call", some (.obj [(lit "result", .int 5)])⟩, .file true 0, .deliver true 0, .take false, .handle false],
    ⟨.int 1, some (.int 5), none⟩, ?_⟩
  refine ⟨by decide +kernel, ?_, by decide +kernel⟩
  exact List.isEmpty_iff.1 (by decide +kernel)

/-- **C47 fails**: a notification that mentions an error and an id answers the receiver's request of that id. -/
theorem C47_log_answers_counterexample :
    ∃ (ops : List (Op Empty)) (r : Response Empty), let s := (Net.init true true).run shmCfg ops
      (0, Outcome.response r) ∈ s.b.tab.outcomes ∧ s.a.answered = [] ∧ s.a.events = [] := by
  refine ⟨[.start false, .start true, .send true ⟨.int 1, lit "tools/list", none⟩, .file true 0, .deliver true 0,
    .notify false ⟨lit "notifications/message", some (.obj [(lit "level", .str (lit "error")), (lit "data", .obj [(lit "id", .int 1)])])⟩,
    .take true, .handle true], ⟨.int 1, none, none⟩, ?_⟩
  refine ⟨by decide +kernel, ?_, by decide +kernel⟩
  exact List.isEmpty_iff.1 (by decide +kernel)

example : PlainReq (⟨.int 1, lit "tools/call", some (.obj [(lit "name", .str (lit "errors"))])⟩ : Request Empty) ∧
    ¬ ReqMisread (⟨.int 1, lit "tools/call", some (.obj [(lit "name", .str (lit "errors"))])⟩ : Request Empty) := by
  refine ⟨⟨?_, ?_, ?_, ?_⟩, ?_⟩
  · simp [IdPlain, Int64OK]
  · show ∀ c ∈ lit "tools/call", c ≠ '"' ∧ c ≠ '\\'; decide
  · show lit "tools/call" ≠ []; decide
  · intro v hv
    cases hv
    simp [JVal.Wire, WireFields, PlainText, lit]
  · rintro ((h | h | ⟨v, hv, h⟩) | (h | h | ⟨v, hv, h⟩))
    · exact h
    · revert h; decide
    · cases hv
      simp only [SaysWord, SaysWordFields, SaysText] at h
      revert h; decide
    · exact h
    · revert h; decide
    · cases hv
      simp only [SaysWord, SaysWordFields, SaysText] at h
      revert h; decide

/-! ### C90 -/

/-- **C90.** In every execution, what an endpoint has done so far is exactly what follows from a first part of the texts its peer
put on the queue, in order and each once; the remaining texts are still queued. -/
theorem C90_in_order_exactly_once (c : Cfg) (ha hb : Bool) (ops : List (Op D)) (y : Bool) :
    let s := (Net.init ha hb : Net D).run c ops
    ∃ done, (s.get (!y)).log = done ++ (s.get y).current.toList ++ (s.get y).queue ∧
      (s.get y).events = done.map (eventOf (s.get y).hasHandler) :=
  fifo_run (fifo_init ha hb) c ops y

/-- **C90.** In every execution every request future completes at most once, and a completion with a response or a transport error
names the id under which that future was filed; only a request refused at once was never filed. -/
theorem C90_completes_at_most_once (c : Cfg) (ha hb : Bool) (ops : List (Op D)) (y : Bool) :
    let s := (Net.init ha hb : Net D).run c ops
    ((s.get y).tab.outcomes.map (·.1)).Nodup ∧
    (∀ n r, (n, Outcome.response r) ∈ (s.get y).tab.outcomes → (n, idText r.id) ∈ (s.get y).tab.sent) ∧
    (∀ n id, (n, Outcome.tooLarge id) ∈ (s.get y).tab.outcomes ∨ (n, Outcome.sendFailed id) ∈ (s.get y).tab.outcomes →
      (n, idText id) ∈ (s.get y).tab.sent) ∧
    (∀ n id, (n, Outcome.peerGone id) ∈ (s.get y).tab.outcomes ∨ (n, Outcome.closed id) ∈ (s.get y).tab.outcomes →
      (n, id) ∈ (s.get y).tab.sent) ∧
    (∀ n, n < (s.get y).tab.nextFut → (∃ k, (k, n) ∈ (s.get y).tab.pending) ∨ n ∈ (s.get y).tab.outcomes.map (·.1)) := by
  have h := (tabInv_run (tabInv_init (D := D) ha hb) c ops y).1
  have key : ∀ n o, (n, o) ∈ (((Net.init ha hb : Net D).run c ops).get y).tab.outcomes → ¬ Loose o →
      ∃ k, (n, k) ∈ (((Net.init ha hb : Net D).run c ops).get y).tab.sent ∧ Fits o k :=
    fun n o ho hl => (h.fits n o ho).resolve_left hl
  refine ⟨h.once, ?_, ?_, ?_, fun n hn => h.accounted hn⟩
  · intro n r hr
    obtain ⟨k, h1, h2⟩ := key _ _ hr (fun x => x)
    exact (show idText r.id = k from h2) ▸ h1
  · rintro n id (hr | hr)
    · obtain ⟨k, h1, h2⟩ := key _ _ hr (fun x => x)
      exact (show idText id = k from h2) ▸ h1
    · obtain ⟨k, h1, h2⟩ := key _ _ hr (fun x => x)
      exact (show idText id = k from h2) ▸ h1
  · rintro n id (hr | hr)
    · obtain ⟨k, h1, h2⟩ := key _ _ hr (fun x => x)
      exact (show id = k from h2) ▸ h1
    · obtain ⟨k, h1, h2⟩ := key _ _ hr (fun x => x)
      exact (show id = k from h2) ▸ h1

/-- **C90 (partial).** In every execution with plain traffic and distinct ids, a future completed with a response was completed with the
peer handler's answer to the very request it was made for, and that answer was put on the queue; provided the peer sent nothing that looks
like an answer (C47). Missing: traffic with quotes or backslashes in ids and methods, for which the wire format itself fails (C04, C15). -/
theorem C90_answer_is_reply_partial (c : Cfg) (ha hb : Bool) (ops : List (Op D)) (hops : ∀ op ∈ ops, PlainOp op) (y : Bool) (n : Nat)
    (r : Response D) :
    let s := (Net.init ha hb : Net D).run c ops
    ((s.get y).tab.sent.map (·.2)).Nodup → NoWords (s.get (!y)) → (n, Outcome.response r) ∈ (s.get y).tab.outcomes →
    ∃ req out, (n, req) ∈ (s.get y).asked ∧ (req, out, true) ∈ (s.get (!y)).answered ∧ r.id = req.id ∧
      r = deResponse (serResponse (replyFor req out)) := by
  intro s hd hw hr
  have hp : PlainAll s := plainAll_run (plainAll_init ha hb) (fifo_init ha hb) c ops hops
  have ht : TabInv s := tabInv_run (tabInv_init ha hb) c ops
  have hk : AskedInv s := askedInv_run c ha hb ops
  obtain ⟨req, out, h1, h2, h3⟩ := hw.answer ((hp y).outcomes n r hr)
  obtain ⟨⟨m, h4⟩, _⟩ := (hp (!y)).answered req out true h1
  rw [Bool.not_not] at h4
  have e1 := own_future ht hk hd hr h4 h3
  subst e1
  exact ⟨req, out, h4, h1, h3, h2⟩

/-- **C90.** In every execution a queue holds no more messages than it was created for, and none larger than either side's limit. -/
theorem C90_queue_bounds (c : Cfg) (ha hb : Bool) (ops : List (Op D)) (y : Bool) :
    let s := (Net.init ha hb : Net D).run c ops
    (s.get y).queue.length ≤ c.count ∧ ∀ t ∈ (s.get y).queue, t.length ≤ c.sizeA ∧ t.length ≤ c.size (!y) :=
  bounded_run (bounded_init c ha hb) ops y

/-- **C90.** A request that is too large for this side, or that the queue does not take, completes at once with an error naming its id. -/
theorem C90_unsent_reported (c : Cfg) (s : Net D) (x : Bool) (i : Nat) (key : Bytes) (r : Request D) (n : Nat)
    (hs : (s.get x).sending[i]? = some (key, r)) (hp : AMap.get (s.get x).tab.pending key = some n) :
    (c.size x < (serRequest r).length → (n, Outcome.tooLarge r.id) ∈ ((s.step c (.deliver x i)).get x).tab.outcomes) ∧
    ((serRequest r).length ≤ c.size x → (c.sizeA < (serRequest r).length ∨ c.count ≤ (s.get (!x)).queue.length) →
      (n, Outcome.sendFailed r.id) ∈ ((s.step c (.deliver x i)).get x).tab.outcomes) := by
  constructor
  · intro h
    have hf : s.fits c x (serRequest r) = false := by simp [Net.fits]; intro _ h1; omega
    show _ ∈ ((s.deliver c x i).get x).tab.outcomes
    unfold Net.deliver
    rw [hs]
    simp only [hf]
    rw [if_neg (by simp), get_upd_same, get_upd_same, if_pos h]
    exact PTab.complete_outcome hp
  · intro h1 h2
    have hf : s.fits c x (serRequest r) = false := by
      simp [Net.fits]; intro _ _ h3; omega
    show _ ∈ ((s.deliver c x i).get x).tab.outcomes
    unfold Net.deliver
    rw [hs]
    simp only [hf]
    rw [if_neg (by simp), get_upd_same, get_upd_same, if_neg (by omega)]
    exact PTab.complete_outcome hp

/-- **C90.** The opener that reads the creator's farewell is disconnected, and everything it waits for fails under its own id. -/
theorem C90_told (c : Cfg) (s : Net D) (y : Bool) (h : (s.get y).current = some (byeText (D := D))) :
    let s' := s.step c (.handle y)
    (s'.get y).connected = false ∧ (s'.get y).tab.pending = [] ∧
    ∀ k n, (k, n) ∈ (s.get y).tab.pending → (n, Outcome.peerGone k) ∈ (s'.get y).tab.outcomes := by
  have hm : ¬ NoteMisread (⟨byeMethod, some (.obj [])⟩ : Notification D) := by
    rintro ((h | ⟨v, hv, h⟩) | (h | ⟨v, hv, h⟩))
    · exact absurd h (by show byeMethod ≠ lit "result"; decide)
    · cases hv; exact h
    · exact absurd h (by show byeMethod ≠ lit "error"; decide)
    · cases hv; exact h
  have he : eventOf (s.get y).hasHandler (byeText (D := D)) = (.disconnected : Event D) := by
    have := event_note (D := D) plain_bye hm (s.get y).hasHandler
    simpa [byeText] using this
  have hs : (s.step c (.handle y)).get y = { s.get y with
      connected := false, tab := (s.get y).tab.closeAll .peerGone, events := (s.get y).events ++ [.disconnected], current := none } := by
    show (s.upd y Endpoint.handle).get y = _
    rw [get_upd_same, Endpoint.handle, h]
    simp only [he, Endpoint.apply]
  intro s'
  rw [show s'.get y = _ from hs]
  refine ⟨rfl, rfl, fun k n hk => ?_⟩
  exact List.mem_append_right _ (List.mem_map.2 ⟨_, hk, rfl⟩)

namespace Shm

/-- A side that is closed for good. -/
def Dead (x : Bool) (s : Net D) : Prop := (s.get x).connected = false ∧ (s.get x).tickets = [] ∧ (s.get x).tab.pending = []

theorem dead_upd {s : Net D} {x : Bool} (h : Dead x s) (z : Bool) {f : Endpoint D → Endpoint D}
    (hf : (s.get x).connected = false → (s.get x).tickets = [] → (s.get x).tab.pending = [] →
      (f (s.get x)).connected = false ∧ (f (s.get x)).tickets = [] ∧ (f (s.get x)).tab.pending = []) : Dead x (s.upd z f) := by
  unfold Dead
  rw [get_upd]; split
  · exact hf h.1 h.2.1 h.2.2
  · exact h

theorem dead_push {s : Net D} {x : Bool} (h : Dead x s) (z : Bool) (t : Bytes) : Dead x (s.push z t) := by
  unfold Dead; rw [get_push]; split <;> exact h

theorem dead_put {c : Cfg} {s : Net D} {x : Bool} (h : Dead x s) (z : Bool) (t : Bytes) : Dead x (s.put c z t) := by
  unfold Net.put; split
  · exact dead_push h z t
  · exact h

theorem complete_nil {t : PTab (Outcome D)} (h : t.pending = []) (k : Bytes) (o : Outcome D) : (t.complete k o).pending = [] := by
  unfold PTab.complete
  rw [h]; exact h

theorem dead_step {c : Cfg} {s : Net D} {x : Bool} (h : Dead x s) (op : Op D) (ho : ∀ z, op = .start z → z ≠ x) : Dead x (s.step c op) := by
  cases op with
  | start z =>
    have hz := ho z rfl
    unfold Dead
    have : (s.start z).get x = s.get x := by
      cases z <;> cases x <;> simp_all [Net.start] <;> split <;> rfl
    show ((s.start z).get x).connected = false ∧ _
    rw [Net.step, this]; exact h
  | send z r =>
    refine dead_upd h z (fun h1 h2 h3 => ?_)
    have : (s.get x).send r = { s.get x with tab := (s.get x).tab.immediate (.refused r.id) } := by simp [Endpoint.send, h1]
    rw [this]; exact ⟨h1, h2, h3⟩
  | file z i =>
    refine dead_upd h z (fun h1 h2 h3 => ?_)
    unfold Endpoint.file
    rw [h2]; exact ⟨h1, h2, h3⟩
  | deliver z i =>
    show Dead x (s.deliver c z i)
    unfold Net.deliver
    split
    · exact h
    · have h' : Dead x (s.upd z (fun e => { e with sending := e.sending.eraseIdx i })) := dead_upd h z (fun h1 h2 h3 => ⟨h1, h2, h3⟩)
      simp only
      split
      · exact dead_push h' _ _
      · exact dead_upd h' z (fun h1 h2 h3 => ⟨h1, h2, complete_nil h3 _ _⟩)
  | notify z n => exact dead_put h _ _
  | take z =>
    refine dead_upd h z (fun h1 h2 h3 => ?_)
    have : (s.get x).take c z = s.get x := by simp [Endpoint.take, h1]
    rw [this]; exact ⟨h1, h2, h3⟩
  | handle z =>
    refine dead_upd h z (fun h1 h2 h3 => ?_)
    unfold Endpoint.handle
    split
    · exact ⟨h1, h2, h3⟩
    · show ((s.get x).apply _).connected = false ∧ ((s.get x).apply _).tickets = [] ∧ ((s.get x).apply _).tab.pending = []
      unfold Endpoint.apply
      split
      · exact ⟨h1, h2, complete_nil h3 _ _⟩
      · exact ⟨h1, h2, h3⟩
      · exact ⟨rfl, h2, rfl⟩
      · exact ⟨h1, h2, h3⟩
  | reply z i out =>
    show Dead x (s.reply c z i out)
    unfold Net.reply
    split
    · exact h
    · have h' : ∀ req ok, Dead x (s.upd z (fun e => { e with jobs := e.jobs.eraseIdx i, answered := e.answered ++ [(req, out, ok)] })) :=
        fun req ok => dead_upd h z (fun h1 h2 h3 => ⟨h1, h2, h3⟩)
      simp only
      split
      · exact dead_push (h' _ _) _ _
      · exact h' _ _
  | loopEnd z =>
    refine dead_upd h z (fun h1 h2 h3 => ?_)
    unfold Endpoint.loopEnd
    split
    · exact ⟨h1, h2, rfl⟩
    · exact ⟨h1, h2, h3⟩
  | closeTell => exact dead_put h _ _
  | closeFlag z => exact dead_upd h z (fun h1 h2 h3 => ⟨rfl, h2, h3⟩)
  | closeEnd z =>
    unfold Dead
    show ((s.closeEnd z).get x).connected = false ∧ ((s.closeEnd z).get x).tickets = [] ∧ ((s.closeEnd z).get x).tab.pending = []
    rcases get_closeEnd s z x with e | e <;> rw [e]
    · exact h
    · exact ⟨h.1, h.2.1, rfl⟩
  | tick z => exact dead_upd h z (fun h1 h2 h3 => ⟨h1, h2, h3⟩)

theorem dead_run {c : Cfg} {s : Net D} {x : Bool} (h : Dead x s) (ops : List (Op D)) (ho : ∀ op ∈ ops, op ≠ .start x) : Dead x (s.run c ops) := by
  induction ops generalizing s with
  | nil => exact h
  | cons op ops ih =>
    refine ih (dead_step h op ?_) (fun o h => ho o (by simp [h]))
    rintro z rfl rfl
    exact ho _ (by simp) rfl

theorem run_append (c : Cfg) (s : Net D) (a b : List (Op D)) : s.run c (a ++ b) = (s.run c a).run c b := List.foldl_append

end Shm

/-- **C90 (partial).** Once `Close` has returned on a side and no `SendRequest` is between its check and filing the promise, every future
of that side, made before or later, is complete, whatever happens, until it is started again. Missing: such a `SendRequest`. -/
theorem C90_after_close_partial (c : Cfg) (ha hb : Bool) (ops more : List (Op D)) (x : Bool) :
    let s := (Net.init ha hb : Net D).run c ops
    (s.get x).loop = false → (s.get x).connected = false → (s.get x).tickets = [] → (∀ op ∈ more, op ≠ .start x) →
    let s' := (s.step c (.closeEnd x)).run c more
    ∀ n, n < (s'.get x).tab.nextFut → n ∈ (s'.get x).tab.outcomes.map (·.1) := by
  intro s h1 h2 h3 hm s' n hn
  have hd : Dead x (s.step c (.closeEnd x)) := by
    show Dead x (s.closeEnd x)
    unfold Net.closeEnd Dead
    rw [if_neg (by simp [h1]), get_removed, get_upd_same]
    exact ⟨h2, h3, rfl⟩
  have hd' : Dead x s' := dead_run hd more hm
  have ht : TabInv s' := tabInv_run (tabInv_step (tabInv_run (tabInv_init ha hb) c ops) c _) c more
  rcases (ht x).1.accounted hn with ⟨k, hk⟩ | h
  · rw [hd'.2.2] at hk; cases hk
  · exact h

example : let s := (Net.init true true : Net Empty).run shmCfg [.start false, .start true, .send true ⟨.int 1, lit "a", none⟩, .file true 0,
      .deliver true 0, .closeFlag true, .loopEnd true]
    (s.get true).loop = false ∧ (s.get true).connected = false ∧ (s.get true).tickets.isEmpty = true := by decide +kernel

/-- **C90 fails** when `SendRequest` and `Close` overlap: a request that passed the check before `Close` is filed after it, and its future
stays open. -/
theorem C90_race_counterexample :
    ∃ ops : List (Op Empty), let s := (Net.init true true).run shmCfg ops
      (s.get true).connected = false ∧ (s.get true).loop = false ∧
      ∀ more, (∀ op ∈ more, Own op) → (lit "1", 0) ∈ ((s.run shmCfg more).get true).tab.pending := by
  refine ⟨[.start false, .start true, .send true ⟨.int 1, lit "a", none⟩, .closeFlag true, .loopEnd true, .closeEnd true, .file true 0,
    .deliver true 0, .take false, .handle false, .reply false 0 .nul], by decide +kernel, by decide +kernel, ?_⟩
  intro more hm
  rw [quiet_run (by decide +kernel) more hm]
  decide +kernel

/-- **C90 fails**: an answer larger than the limit is dropped, and its requester, still connected, waits for good. -/
theorem C90_large_answer_counterexample :
    ∃ ops : List (Op Empty), let s := (Net.init true true).run ⟨60, 60, 4⟩ ops
      s.a.connected = true ∧ s.b.connected = true ∧ s.a.answered.map (fun p => (p.1.id, p.2.2)) = [(.int 1, false)] ∧
      ∀ more, (∀ op ∈ more, Own op) → (lit "1", 0) ∈ ((s.run ⟨60, 60, 4⟩ more).get true).tab.pending := by
  refine ⟨[.start false, .start true, .send true ⟨.int 1, lit "a", none⟩, .file true 0, .deliver true 0, .take false, .handle false,
    .reply false 0 (.resp ⟨.null, some (.str (lit "a result of more than twenty bytes")), none⟩)],
    by decide +kernel, by decide +kernel, by decide +kernel, ?_⟩
  intro more hm
  rw [quiet_run (by decide +kernel) more hm]
  decide +kernel

/-- **C90 fails**: an answer that finds the queue full is dropped too. -/
theorem C90_full_queue_counterexample :
    ∃ ops : List (Op Empty), let s := (Net.init true true).run ⟨60, 60, 1⟩ ops
      s.a.connected = true ∧ s.b.connected = true ∧ s.a.answered.map (fun p => (p.1.id, p.2.2)) = [(.int 1, false)] ∧
      ∀ more, (∀ op ∈ more, Own op) → (lit "1", 0) ∈ ((s.run ⟨60, 60, 1⟩ more).get true).tab.pending := by
  refine ⟨[.start false, .start true, .send true ⟨.int 1, lit "a", none⟩, .file true 0, .deliver true 0, .take false, .handle false,
    .notify false ⟨lit "n", none⟩, .reply false 0 .nul, .take true, .handle true],
    by decide +kernel, by decide +kernel, by decide +kernel, ?_⟩
  intro more hm
  rw [quiet_run (by decide +kernel) more hm]
  decide +kernel

/-- **C90 fails**: the creator does not learn that the opener is gone. Its next request is taken by the queue, and it waits for good. -/
theorem C90_creator_not_told_counterexample :
    ∃ ops : List (Op Empty), let s := (Net.init true true).run shmCfg ops
      s.b.connected = false ∧ s.a.connected = true ∧
      ∀ more, (∀ op ∈ more, Own op) → (lit "1", 0) ∈ ((s.run shmCfg more).get false).tab.pending := by
  refine ⟨[.start false, .start true, .closeFlag true, .loopEnd true, .closeEnd true, .send false ⟨.int 1, lit "a", none⟩, .file false 0,
    .deliver false 0], by decide +kernel, by decide +kernel, ?_⟩
  intro more hm
  rw [quiet_run (by decide +kernel) more hm]
  decide +kernel

/-- **C90.** What the opener does when it closes changes nothing on the creator's side. -/
theorem C90_opener_leaves (c : Cfg) (s : Net D) : (s.step c (.closeFlag true)).get false = s.get false ∧
    (s.step c (.loopEnd true)).get false = s.get false ∧ (s.step c (.closeEnd true)).get false = s.get false := by
  refine ⟨rfl, rfl, ?_⟩
  show (s.closeEnd true).get false = _
  unfold Net.closeEnd
  split <;> rfl

/-- **C90 fails**: an opener with a smaller limit than the creator's never processes a message. -/
theorem C90_small_buffer_counterexample (c : Cfg) (hc : c.sizeB < c.sizeA) (ha hb : Bool) (ops : List (Op D)) :
    let s := (Net.init ha hb : Net D).run c ops
    (s.get true).events = [] ∧ (s.get true).current = none := by
  have key : ∀ (ops : List (Op D)) (s : Net D), (s.get true).events = [] ∧ (s.get true).current = none →
      ((s.run c ops).get true).events = [] ∧ ((s.run c ops).get true).current = none := by
    intro ops
    induction ops with
    | nil => exact fun s h => h
    | cons op ops ih =>
      intro s h
      refine ih _ ?_
      have push : ∀ (s : Net D) (z : Bool) (t : Bytes), ((s.push z t).get true).events = (s.get true).events ∧
          ((s.push z t).get true).current = (s.get true).current := by
        intro s z t; rw [get_push]; split <;> exact ⟨rfl, rfl⟩
      have upd : ∀ (s : Net D) (z : Bool) (f : Endpoint D → Endpoint D), (s.get true).events = [] ∧ (s.get true).current = none →
          (∀ e, e = s.get true → z = true → (f e).events = e.events ∧ (f e).current = e.current) →
          ((s.upd z f).get true).events = [] ∧ ((s.upd z f).get true).current = none := by
        intro s z f h hf
        rw [get_upd]; split
        · rename_i hz
          rw [(hf _ rfl hz.symm).1, (hf _ rfl hz.symm).2]; exact h
        · exact h
      have put : ∀ (s : Net D) (z : Bool) (t : Bytes), (s.get true).events = [] ∧ (s.get true).current = none →
          ((s.put c z t).get true).events = [] ∧ ((s.put c z t).get true).current = none := by
        intro s z t h
        unfold Net.put; split
        · rw [(push s z t).1, (push s z t).2]; exact h
        · exact h
      cases op with
      | start z =>
        show ((s.start z).get true).events = [] ∧ ((s.start z).get true).current = none
        rcases get_start s z true with e | e <;> (rw [e]; exact h)
      | send z r => exact upd s z _ h (fun e _ _ => by unfold Endpoint.send; split <;> exact ⟨rfl, rfl⟩)
      | file z i => exact upd s z _ h (fun e _ _ => by unfold Endpoint.file; split <;> exact ⟨rfl, rfl⟩)
      | deliver z i =>
        show ((s.deliver c z i).get true).events = [] ∧ ((s.deliver c z i).get true).current = none
        unfold Net.deliver
        split
        · exact h
        · have h' := upd s z (fun e => { e with sending := e.sending.eraseIdx i }) h (fun e _ _ => ⟨rfl, rfl⟩)
          simp only
          split
          · rw [(push _ z _).1, (push _ z _).2]; exact h'
          · exact upd _ z _ h' (fun e _ _ => ⟨rfl, rfl⟩)
      | notify z n => exact put s z _ h
      | take z =>
        refine upd s z _ h (fun e _ hz => ?_)
        subst hz
        unfold Endpoint.take
        split
        · rw [if_pos (by exact hc)]; exact ⟨rfl, rfl⟩
        · exact ⟨rfl, rfl⟩
      | handle z =>
        refine upd s z _ h (fun e he _ => ?_)
        have : e.current = none := by rw [he]; exact h.2
        unfold Endpoint.handle
        rw [this]; exact ⟨rfl, this⟩
      | reply z i out =>
        show ((s.reply c z i out).get true).events = [] ∧ ((s.reply c z i out).get true).current = none
        unfold Net.reply
        split
        · exact h
        · have h' := fun req ok => upd s z (fun e => { e with jobs := e.jobs.eraseIdx i, answered := e.answered ++ [(req, out, ok)] }) h
            (fun e _ _ => ⟨rfl, rfl⟩)
          simp only
          split
          · rw [(push _ z _).1, (push _ z _).2]; exact h' _ _
          · exact h' _ _
      | loopEnd z => exact upd s z _ h (fun e _ _ => by unfold Endpoint.loopEnd; split <;> exact ⟨rfl, rfl⟩)
      | closeTell => exact put s false _ h
      | closeFlag z => exact upd s z _ h (fun e _ _ => ⟨rfl, rfl⟩)
      | closeEnd z =>
        show ((s.closeEnd z).get true).events = [] ∧ ((s.closeEnd z).get true).current = none
        rcases get_closeEnd s z true with e | e <;> (rw [e]; exact h)
      | tick z => exact upd s z _ h (fun e _ _ => ⟨rfl, rfl⟩)
  exact key ops _ ⟨rfl, rfl⟩

/-- A request sent while both sides are connected and idle, and its answer, which both fit the queue. -/
example : let r : Request Empty := ⟨.int 7, lit "tools/list", none⟩
    let s := (Net.init true true : Net Empty).run shmCfg [.start false, .start true, .send true r, .file true 0, .deliver true 0, .take false,
      .handle false, .reply false 0 (.resp ⟨.null, some (.obj []), none⟩), .take true, .handle true]
    s.b.tab.outcomes = [(0, .response ⟨.int 7, some (.obj []), none⟩)] ∧ s.a.tab.nextFut = 0 := by decide +kernel

/-- The hypotheses of `C90_answer_is_reply_partial` and `C47_dropped_counterexample` at the end of that exchange. -/
example : let ops : List (Op Empty) := [.start false, .start true, .send true ⟨.int 7, lit "tools/list", none⟩, .file true 0, .deliver true 0, .take false,
      .handle false, .reply false 0 (.resp ⟨.null, some (.obj []), none⟩), .take true, .handle true]
    let s := (Net.init true true : Net Empty).run shmCfg ops
    (∀ op ∈ ops, PlainOp op) ∧ ((s.get true).tab.sent.map (·.2)).Nodup ∧ NoWords (s.get false) := by
  refine ⟨?_, by decide +kernel, ?_⟩
  · intro op hop
    simp only [List.mem_cons, List.not_mem_nil, or_false] at hop
    rcases hop with rfl | rfl | rfl | rfl | rfl | rfl | rfl | rfl | rfl | rfl <;> try trivial
    · refine ⟨by simp [IdPlain, Int64OK], ?_, by show lit "tools/list" ≠ []; decide, by intro v hv; cases hv⟩
      show ∀ c ∈ lit "tools/list", c ≠ '"' ∧ c ≠ '\\'; decide
    · refine ⟨?_, .inl (by simp)⟩
      intro v hv; cases hv; simp [JVal.Wire, WireFields]
  · constructor
    · intro m q hq
      have : (((Net.init true true : Net Empty).run shmCfg [.start false, .start true, .send true ⟨.int 7, lit "tools/list", none⟩, .file true 0,
        .deliver true 0, .take false, .handle false, .reply false 0 (.resp ⟨.null, some (.obj []), none⟩), .take true, .handle true]).get false).asked = [] :=
        List.isEmpty_iff.1 (by decide +kernel)
      rw [this] at hq; cases hq
    · intro n _ hn
      have : (((Net.init true true : Net Empty).run shmCfg [.start false, .start true, .send true ⟨.int 7, lit "tools/list", none⟩, .file true 0,
        .deliver true 0, .take false, .handle false, .reply false 0 (.resp ⟨.null, some (.obj []), none⟩), .take true, .handle true]).get false).log =
          [lit "{\"jsonrpc\":\"2.0\",\"id\":7,\"result\":{}}"] := by decide +kernel
      rw [this] at hn
      simp [serNotification, lit] at hn

end Verif
