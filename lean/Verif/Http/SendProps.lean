import Verif.Http.TransportProps

/-!
C91: what the HTTP client transport sends, and what it does with the requests of the server.
-/

set_option linter.unusedSectionVars false

namespace Verif

open Http

variable {D : Type} [DblFmt D]

/-! ### Specification -/

/-- Where requests go, and where notifications and answers go. -/
def RequestsTo (o : HtOpts) (p : Bytes) : Prop := (o.endpointPath ≠ [] → p = o.endpointPath) ∧ (o.endpointPath = [] → p = o.rpcPath)
def NotesTo (o : HtOpts) (p : Bytes) : Prop := (o.endpointPath ≠ [] → p = o.endpointPath) ∧ (o.endpointPath = [] → p = o.notifyPath)

/-- What the client answers to a request of the server: what its handler says, or that there is none. -/
def ClientSays (h : HtHandlers D) (r : Request D) (out : HandlerOutcome D) : Prop :=
  (∀ f, h.request = some f → out = f r) ∧
  (h.request = none → out = .resp ⟨r.id, none, some (.obj [(lit "code", .int (-32001)), (lit "message", .str (lit "No request handler registered"))])⟩)

/-- The text of a request handed to the transport: under its id, or under one made for it if it has none. -/
def RequestBody (ops : List (HtOp D)) (body : Bytes) : Prop :=
  ∃ r id, HtOp.send r ∈ ops ∧ (keyText r.id ≠ [] → id = r.id) ∧ keyText id ≠ [] ∧ body = serRequest (⟨id, r.method, r.params⟩ : Request D)

def NoteBody (ops : List (HtOp D)) (body : Bytes) : Prop := ∃ n : Notification D, HtOp.note n ∈ ops ∧ body = serNotification n

/-- The text of an answer to a request of the server. -/
def AnswerBody (ops : List (HtOp D)) (body : Bytes) : Prop :=
  ∃ h json, ((∃ k sid, HtOp.finish h k json sid ∈ ops) ∨ HtOp.event h json ∈ ops) ∧ classify json = .request ∧
    ∃ (r : Request D) (out : HandlerOutcome D) (resp : Response D), deRequest json = some r ∧ ClientSays h r out ∧ OwedResponse r out resp ∧ body = serResponse resp

/-- A session id the server gave: in the response to a POST, or in the response to a request for the event stream. -/
def GaveSession (ops : List (HtOp D)) (v : Bytes) : Prop := (∃ h k b, HtOp.finish h k b v ∈ ops) ∨ HtOp.opened (some v) ∈ ops

/-- Something sent that was asked for: a POST of a message handed in, at the path of its kind, or the DELETE of a session. -/
def AskedFor (o : HtOpts) (ops : List (HtOp D)) (w : Sent) : Prop :=
  (w.delete = false →
    (RequestBody ops w.body ∧ RequestsTo o w.path) ∨ (NoteBody ops w.body ∧ NotesTo o w.path) ∨ (AnswerBody ops w.body ∧ NotesTo o w.path)) ∧
  (w.delete = true → o.enableDeleteOnClose = true ∧ o.endpointPath ≠ [] ∧ w.path = o.endpointPath ∧ w.session ≠ [] ∧ w.body = []) ∧
  (o.endpointPath = [] → w.session = []) ∧ (w.session ≠ [] → GaveSession ops w.session)

/-! ### Steps -/

theorem deliver_eq (s : Ht D) (r : Response D) (fb : Bytes) : ∃ t, (s.deliver r fb).1 = { s with tab := t } := by
  unfold Ht.deliver
  split
  · exact ⟨_, rfl⟩
  · split
    · exact ⟨_, rfl⟩
    · exact ⟨s.tab, rfl⟩

theorem incoming_eq (h : HtHandlers D) (s : Ht D) (json fb : Bytes) :
    ∃ t, s.incoming h json fb = { s with
      tab := t, handled := s.handled ++ (route h.wrap json).requestsHandled, notified := s.notified ++ notesOf (route h.wrap json).effects,
      posts := s.posts ++ (route h.wrap json).reply.toList.map (.queued .answer ·) } := by
  unfold Ht.incoming
  simp only
  generalize hs1 : ({ s with handled := s.handled ++ (route h.wrap json).requestsHandled, notified := s.notified ++ notesOf (route h.wrap json).effects } : Ht D) = s1
  have hd : ∃ t, (s1.deliverAll (route h.wrap json).effects fb).1 = { s1 with tab := t } := by
    rcases route_effects h.wrap json with ⟨r, h1, -⟩ | ⟨h1, -⟩
    · rw [h1, deliverAll_one]; exact deliver_eq _ _ _
    · rw [deliverAll_none _ _ _ h1]; exact ⟨s1.tab, rfl⟩
  obtain ⟨t, ht⟩ := hd
  rw [ht]
  cases (route h.wrap json).reply with
  | some b => exact ⟨t, by subst hs1; rfl⟩
  | none =>
    simp only [Option.toList_none, List.map_nil, List.append_nil]
    split
    · exact ⟨_, by subst hs1; rfl⟩
    · exact ⟨t, by subst hs1; rfl⟩

theorem capture_eq (s : Ht D) (sid : Bytes) : s.capture sid = { s with session := if sid = [] then s.session else sid } := by
  unfold Ht.capture
  split <;> rfl

theorem startSse_eq (o : HtOpts) (s : Ht D) :
    ∃ e : Bool × Bool × Bool, s.startSse o = { s with sse := e.1, sseThread := e.2.1, terminated := e.2.2 } := by
  unfold Ht.startSse
  split
  · exact ⟨(true, true, s.terminated || s.sseThread), rfl⟩
  · exact ⟨(s.sse, s.sseThread, s.terminated), rfl⟩

/-- The end of an exchange: a body that is a request of the server is handed on. -/
theorem completed_eq (o : HtOpts) (h : HtHandlers D) (s : Ht D) (p : PostFor) (body sid : Bytes) :
    ∃ (t : PTab (SOut D)) (e : Bool × Bool × Bool) (hd : List (Request D)) (nt : List (Notification D)) (ps : List PostStage), s.completed o h p body sid = { s with
      tab := t, handled := hd, notified := nt, posts := s.posts ++ ps, sse := e.1, sseThread := e.2.1, terminated := e.2.2, session := if sid = [] then s.session else sid } ∧
    (∀ x ∈ ps, ∃ b, (route h.wrap body).reply = some b ∧ x = .queued .answer b) := by
  cases p with
  | request key starts =>
    unfold Ht.completed
    simp only
    have h2 : ∃ e : Bool × Bool × Bool, (if starts && !sid.isEmpty then (s.capture sid).startSse o else s.capture sid) =
        { s with sse := e.1, sseThread := e.2.1, terminated := e.2.2, session := if sid = [] then s.session else sid } := by
      rw [capture_eq]
      split
      · obtain ⟨e, he⟩ := startSse_eq o ({ s with session := if sid = [] then s.session else sid } : Ht D)
        exact ⟨e, he⟩
      · exact ⟨(s.sse, s.sseThread, s.terminated), rfl⟩
    obtain ⟨e, he⟩ := h2
    rw [he]
    split
    · obtain ⟨t, ht⟩ := incoming_eq h ({ s with sse := e.1, sseThread := e.2.1, terminated := e.2.2, session := if sid = [] then s.session else sid } : Ht D) body key
      rw [ht]
      refine ⟨t, e, _, _, (route h.wrap body).reply.toList.map (.queued .answer ·), rfl, fun x hx => ?_⟩
      obtain ⟨b, hb, rfl⟩ := List.mem_map.1 hx
      exact ⟨b, Option.mem_toList.1 hb, rfl⟩
    · exact ⟨_, e, s.handled, s.notified, [], by rw [List.append_nil]; rfl, fun x hx => (by cases hx)⟩
  | note => exact ⟨s.tab, (s.sse, s.sseThread, s.terminated), s.handled, s.notified, [], by rw [List.append_nil]; exact capture_eq s sid, fun x hx => (by cases hx)⟩
  | answer => exact ⟨s.tab, (s.sse, s.sseThread, s.terminated), s.handled, s.notified, [], by rw [List.append_nil]; exact capture_eq s sid, fun x hx => (by cases hx)⟩

/-- A reply is the answer owed to a request. -/
theorem wrap_reply (h : HtHandlers D) (json b : Bytes) (hr : (route h.wrap json).reply = some b) :
    classify json = .request ∧ ∃ (r : Request D) (out : HandlerOutcome D) (resp : Response D), deRequest json = some r ∧ ClientSays h r out ∧
      OwedResponse r out resp ∧ b = serResponse resp := by
  obtain ⟨hc, r, hd⟩ := (wrap_replies h json).1 (by rw [hr]; rfl)
  refine ⟨hc, ?_⟩
  obtain ⟨resp, h1, h2⟩ := C14_request_answered h.wrap _ rfl json r hc hd
  rw [h1] at hr
  refine ⟨r, _, resp, hd, ⟨fun f hf => ?_, fun hn => ?_⟩, h2, (Option.some.inj hr).symm⟩
  · simp only [hf]
  · simp only [hn]; rfl

/-! ### What is sent -/

def PostOk (o : HtOpts) (ops : List (HtOp D)) : PostFor → Bytes → Prop
  | .request _ _, b => RequestBody ops b
  | .note, b => NoteBody ops b
  | .answer, b => AnswerBody ops b

structure SendInv (o : HtOpts) (ops : List (HtOp D)) (s : Ht D) : Prop where
  tickets : ∀ r, some r ∈ s.tickets → HtOp.send r ∈ ops
  queued : ∀ p b, PostStage.queued p b ∈ s.posts → PostOk o ops p b
  wire : ∀ w ∈ s.wire, AskedFor o ops w
  session : s.session ≠ [] → GaveSession ops s.session

theorem requestBody_mono {a b : List (HtOp D)} {t : Bytes} (hs : ∀ x ∈ a, x ∈ b) (h : RequestBody a t) : RequestBody b t := by
  obtain ⟨r, id, h1, h2⟩ := h
  exact ⟨r, id, hs _ h1, h2⟩

theorem noteBody_mono {a b : List (HtOp D)} {t : Bytes} (hs : ∀ x ∈ a, x ∈ b) (h : NoteBody a t) : NoteBody b t := by
  obtain ⟨n, h1, h2⟩ := h
  exact ⟨n, hs _ h1, h2⟩

theorem answerBody_mono {a b : List (HtOp D)} {t : Bytes} (hs : ∀ x ∈ a, x ∈ b) (h : AnswerBody a t) : AnswerBody b t := by
  obtain ⟨hd, j, h1, h2⟩ := h
  refine ⟨hd, j, ?_, h2⟩
  rcases h1 with ⟨k, sid, h1⟩ | h1
  · exact .inl ⟨k, sid, hs _ h1⟩
  · exact .inr (hs _ h1)

theorem postOk_mono {o : HtOpts} {a b : List (HtOp D)} {p : PostFor} {t : Bytes} (hs : ∀ x ∈ a, x ∈ b) (h : PostOk o a p t) : PostOk o b p t := by
  cases p with
  | request => exact requestBody_mono hs h
  | note => exact noteBody_mono hs h
  | answer => exact answerBody_mono hs h

theorem gaveSession_mono {a b : List (HtOp D)} {t : Bytes} (hs : ∀ x ∈ a, x ∈ b) (h : GaveSession a t) : GaveSession b t := by
  rcases h with ⟨hh, k, c, h⟩ | h
  · exact .inl ⟨hh, k, c, hs _ h⟩
  · exact .inr (hs _ h)

theorem askedFor_mono {o : HtOpts} {a b : List (HtOp D)} {w : Sent} (hs : ∀ x ∈ a, x ∈ b) (h : AskedFor o a w) : AskedFor o b w := by
  obtain ⟨h1, h2, h3, h4⟩ := h
  refine ⟨fun hd => ?_, h2, h3, fun hw => ?_⟩
  · rcases h1 hd with ⟨h5, h6⟩ | ⟨h5, h6⟩ | ⟨h5, h6⟩
    · exact .inl ⟨requestBody_mono hs h5, h6⟩
    · exact .inr (.inl ⟨noteBody_mono hs h5, h6⟩)
    · exact .inr (.inr ⟨answerBody_mono hs h5, h6⟩)
  · exact gaveSession_mono hs (h4 hw)

theorem sendInv_mono {o : HtOpts} {a b : List (HtOp D)} {s : Ht D} (hs : ∀ x ∈ a, x ∈ b) (h : SendInv o a s) : SendInv o b s :=
  ⟨fun r hr => hs _ (h.tickets r hr), fun p t ht => postOk_mono hs (h.queued p t ht), fun w hw => askedFor_mono hs (h.wire w hw),
    fun hn => gaveSession_mono hs (h.session hn)⟩

theorem streamable_iff (o : HtOpts) : o.streamable = true ↔ o.endpointPath ≠ [] := by
  unfold HtOpts.streamable
  cases o.endpointPath <;> simp

theorem requestTo_spec (o : HtOpts) : RequestsTo o o.requestTo := by
  unfold HtOpts.requestTo
  constructor
  · intro h; rw [if_pos ((streamable_iff o).2 h)]
  · intro h; rw [if_neg (by rw [streamable_iff]; simpa using h)]

theorem notifyTo_spec (o : HtOpts) : NotesTo o o.notifyTo := by
  unfold HtOpts.notifyTo
  constructor
  · intro h; rw [if_pos ((streamable_iff o).2 h)]
  · intro h; rw [if_neg (by rw [streamable_iff]; simpa using h)]

/-- What `withId` makes of a request. -/
theorem withId_spec (s : Ht D) (r : Request D) :
    (s.withId r).1 = ⟨(s.withId r).1.id, r.method, r.params⟩ ∧ (keyText r.id ≠ [] → (s.withId r).1.id = r.id) := by
  unfold Ht.withId
  split
  · rename_i h; exact ⟨rfl, fun hn => absurd h hn⟩
  · exact ⟨rfl, fun _ => rfl⟩

theorem sendInv_step (o : HtOpts) {ops : List (HtOp D)} {s : Ht D} (h0 : SendInv o ops s) (op : HtOp D) : SendInv o (ops ++ [op]) (s.step o op) := by
  have hop : op ∈ ops ++ [op] := by simp
  have h : SendInv o (ops ++ [op]) s := sendInv_mono (fun x hx => List.mem_append_left _ hx) h0
  generalize ops ++ [op] = all at h hop
  have inc : ∀ (hd : HtHandlers D) (json : Bytes) (ps : List PostStage), ((∃ k sid, HtOp.finish hd k json sid ∈ all) ∨ HtOp.event hd json ∈ all) →
      (∀ x ∈ ps, ∃ b, (route hd.wrap json).reply = some b ∧ x = .queued .answer b) → ∀ p b, PostStage.queued p b ∈ ps → PostOk o all p b := by
    intro hd json ps hj hps p b hm
    obtain ⟨b', h1, h2⟩ := hps _ hm
    cases h2
    obtain ⟨h3, h4⟩ := wrap_reply hd json _ h1
    exact ⟨hd, json, hj, h3, h4⟩
  have over : ∀ k p b, PostStage.queued p b ∈ s.posts.set k .over → PostOk o all p b := by
    intro k p b hm
    rcases List.mem_or_eq_of_mem_set hm with h1 | h1
    · exact h.queued p b h1
    · cases h1
  cases op with
  | start => simp only [Ht.step, Ht.start]; split <;> exact ⟨h.tickets, h.queued, h.wire, h.session⟩
  | opened v =>
    simp only [Ht.step, Ht.opened]
    split
    · refine ⟨h.tickets, h.queued, h.wire, fun hne => ?_⟩
      cases v with
      | none => exact h.session hne
      | some v => exact .inr hop
    · exact h
  | giveUp r => simp only [Ht.step, Ht.giveUp]; split <;> exact ⟨h.tickets, h.queued, h.wire, h.session⟩
  | send r =>
    simp only [Ht.step, Ht.send]
    split
    · refine ⟨fun r' hr => ?_, h.queued, h.wire, h.session⟩
      rcases List.mem_append.1 hr with h1 | h1
      · exact h.tickets r' h1
      · simp only [List.mem_singleton, Option.some.injEq] at h1; subst h1; exact hop
    · exact ⟨h.tickets, h.queued, h.wire, h.session⟩
  | file t =>
    simp only [Ht.step, Ht.file]
    split
    · rename_i r hr
      refine ⟨fun r' hr' => ?_, fun p b hm => ?_, h.wire, h.session⟩
      · rcases List.mem_or_eq_of_mem_set hr' with h3 | h3
        · exact h.tickets r' h3
        · cases h3
      · rcases List.mem_append.1 hm with h1 | h1
        · exact h.queued p b h1
        · simp only [List.mem_singleton] at h1
          cases h1
          obtain ⟨h2, h3⟩ := withId_spec s r
          exact ⟨r, (s.withId r).1.id, h.tickets r (List.mem_of_getElem? hr), h3, withId_key _ _, by rw [← h2]⟩
    · exact h
  | note n =>
    simp only [Ht.step, Ht.note]
    split
    · refine ⟨h.tickets, fun p b hm => ?_, h.wire, h.session⟩
      rcases List.mem_append.1 hm with h1 | h1
      · exact h.queued p b h1
      · simp only [List.mem_singleton] at h1
        cases h1
        exact ⟨n, hop, rfl⟩
    · exact h
  | begin k =>
    simp only [Ht.step, Ht.begin]
    split
    · rename_i p body _ hq
      refine ⟨h.tickets, fun p b hm => ?_, fun w hw => ?_, h.session⟩
      · rcases List.mem_or_eq_of_mem_set hm with h1 | h1
        · exact h.queued p b h1
        · cases h1
      · rcases List.mem_append.1 hw with h1 | h1
        · exact h.wire w h1
        · simp only [List.mem_singleton] at h1
          subst h1
          have hp := h.queued _ _ (List.mem_of_getElem? hq)
          refine ⟨fun _ => ?_, fun hd => (by cases hd), fun he => ?_, fun hne => ?_⟩
          · cases p with
            | request key st => exact .inl ⟨hp, requestTo_spec o⟩
            | note => exact .inr (.inl ⟨hp, notifyTo_spec o⟩)
            | answer => exact .inr (.inr ⟨hp, notifyTo_spec o⟩)
          · simp only; rw [if_neg (by rw [streamable_iff]; simpa using he)]
          · simp only at hne ⊢
            split at hne
            · rename_i hs; rw [if_pos hs]; exact h.session hne
            · exact absurd rfl hne
    · exact h
  | finish hd k body sid =>
    simp only [Ht.step, Ht.finish]
    split
    · rename_i p _ _
      obtain ⟨t, e, ha, nt, ps, he, hps⟩ := completed_eq o hd ({ s with posts := s.posts.set k .over } : Ht D) p body sid
      rw [he]
      refine ⟨h.tickets, fun p b hm => ?_, h.wire, fun hne => ?_⟩
      · rcases List.mem_append.1 hm with h1 | h1
        · exact over k p b h1
        · exact inc hd body ps (.inl ⟨k, sid, hop⟩) hps p b h1
      · simp only at hne ⊢
        split at hne
        · rename_i hs; rw [if_pos hs]; exact h.session hne
        · rename_i hs; rw [if_neg hs]; exact .inl ⟨hd, k, body, hop⟩
    · exact h
  | failEarly hd k =>
    simp only [Ht.step, Ht.failEarly]
    split
    · rename_i p _ _ _
      obtain ⟨t, e, ha, nt, ps, he, hps⟩ := completed_eq o hd ({ s with posts := s.posts.set k .over } : Ht D) p [] []
      rw [he]
      refine ⟨h.tickets, fun p b hm => ?_, h.wire, h.session⟩
      rcases List.mem_append.1 hm with h1 | h1
      · exact over k p b h1
      · obtain ⟨b', h2, -⟩ := hps _ h1
        obtain ⟨h3, -⟩ := wrap_reply hd [] _ h2
        exact absurd h3 (by decide)
    · exact h
  | event hd json =>
    simp only [Ht.step, Ht.event]
    split
    · obtain ⟨t, he⟩ := incoming_eq hd s json []
      rw [he]
      refine ⟨h.tickets, fun p b hm => ?_, h.wire, h.session⟩
      rcases List.mem_append.1 hm with h1 | h1
      · exact h.queued p b h1
      · refine inc hd json _ (.inr hop) (fun x hx => ?_) p b h1
        obtain ⟨b, hb, rfl⟩ := List.mem_map.1 hx
        exact ⟨b, Option.mem_toList.1 hb, rfl⟩
    · exact h
  | close =>
    simp only [Ht.step, Ht.close]
    split
    · exact ⟨h.tickets, h.queued, h.wire, h.session⟩
    · refine ⟨h.tickets, h.queued, fun w hw => ?_, fun hne => absurd rfl hne⟩
      rcases List.mem_append.1 hw with h1 | h1
      · exact h.wire w h1
      · split at h1
        · rename_i hc
          simp only [Bool.and_eq_true, Bool.not_eq_true', List.isEmpty_eq_false_iff] at hc
          simp only [List.mem_singleton] at h1
          subst h1
          have he := (streamable_iff o).1 hc.1.1.2
          exact ⟨fun hd => (by cases hd), fun _ => ⟨hc.1.2, he, (requestTo_spec o).1 he, hc.2, rfl⟩, fun h' => absurd h' he, fun hne => h.session hne⟩
        · cases h1

theorem sendInv_run (o : HtOpts) (ops : List (HtOp D)) : SendInv o ops ((Ht.init : Ht D).run o ops) := by
  suffices ∀ (l a : List (HtOp D)) (s : Ht D), SendInv o a s → SendInv o (a ++ l) (s.run o l) by
    have := this ops [] Ht.init ⟨fun r hr => (by cases hr), fun p b hm => (by cases hm), fun w hw => (by cases hw), fun hne => absurd rfl hne⟩
    simpa using this
  intro l
  induction l with
  | nil => intro a s h; rw [List.append_nil]; exact h
  | cons op l ih =>
    intro a s h
    have := ih (a ++ [op]) _ (sendInv_step o h op)
    rw [List.append_assoc] at this
    exact this

/-- **C91.** Whatever happens, everything the transport has sent was asked for: a POST is the text of a request, of a notification or of the
answer owed to a request of the server, at the path of its kind; a DELETE is of a session; and the session ids sent are ones the server gave. -/
theorem C91_sent (o : HtOpts) (ops : List (HtOp D)) : ∀ w ∈ ((Ht.init : Ht D).run o ops).wire, AskedFor o ops w := (sendInv_run o ops).wire

/-- **C91.** A request made while the transport is not connected fails at once, under its own id, and nothing else happens; a notification
is dropped. -/
theorem C91_refused (o : HtOpts) (s : Ht D) (hs : s.connected = false) (r : Request D) (n : Notification D) :
    s.step o (.send r) = { s with tab := { s.tab with outcomes := s.tab.outcomes ++ [(s.tab.nextFut, refusedSend r.id)], nextFut := s.tab.nextFut + 1 } } ∧
    s.step o (.note n) = s := by
  simp only [Ht.step, Ht.send, Ht.note, hs]
  exact ⟨rfl, rfl⟩

/-- **C91.** A request that passed the check of the connection is filed under the id it is sent with, its own if it has one, and queued once
to be sent. -/
theorem C91_filed (o : HtOpts) (s : Ht D) (t : Nat) (r : Request D) (ht : s.tickets[t]? = some (some r)) :
    let s' := s.step o (.file t)
    ∃ id starts, (keyText r.id ≠ [] → id = r.id) ∧ keyText id ≠ [] ∧
      s'.posts = s.posts ++ [.queued (.request (keyText id) starts) (serRequest ⟨id, r.method, r.params⟩)] ∧
      AMap.get s'.tab.pending (keyText id) = some s.tab.nextFut ∧ s'.tickets[t]? = some none ∧
      (starts = true ↔ o.endpointPath ≠ [] ∧ r.method = lit "initialize") := by
  intro s'
  obtain ⟨h2, h3⟩ := withId_spec s r
  have hlt : t < s.tickets.length := (List.getElem?_eq_some_iff.1 ht).1
  refine ⟨(s.withId r).1.id, o.streamable && decide (r.method = lit "initialize"), h3, withId_key _ _, ?_, ?_, ?_, ?_⟩
  · show (s.file o t).posts = _
    unfold Ht.file
    rw [ht, ← h2]
  · show AMap.get (s.file o t).tab.pending _ = _
    unfold Ht.file
    rw [ht]
    exact AMap.get_put_self _ _ _
  · show (s.file o t).tickets[t]? = _
    unfold Ht.file
    rw [ht]
    simp [hlt]
  · rw [Bool.and_eq_true, streamable_iff, decide_eq_true_iff]

/-! ### The session id -/

/-- **C91.** The session id sent is the one the server gave last: the end of an exchange that gives one makes it the session id, as does the
response to the request for the event stream (an empty one, too), `Close` forgets it, and nothing else changes it. -/
theorem C91_session (o : HtOpts) (s : Ht D) :
    (∀ v, s.sse = true → s.connected = true → (s.step o (.opened (some v))).session = v) ∧
    (∀ h k body sid p, s.io = .running → s.posts[k]? = some (.sent p) → sid ≠ [] → (s.step o (.finish h k body sid)).session = sid) ∧
    (∀ h k body, (s.step o (.finish h k body [])).session = s.session) ∧
    (s.step o .close = { s with hung := true } ∨ (s.step o .close).session = []) ∧
    (∀ op, (∀ h k body sid, op ≠ .finish h k body sid) → (∀ v, op ≠ .opened (some v)) → op ≠ .close → (s.step o op).session = s.session) := by
  refine ⟨fun v h1 h2 => (by simp only [Ht.step, Ht.opened, h1, h2]; rfl), fun h k body sid p hio hk hs => ?_, fun h k body => ?_, ?_, fun op hf hv hc => ?_⟩
  · simp only [Ht.step, Ht.finish, hio, hk]
    obtain ⟨t, e, ha, nt, ps, he, -⟩ := completed_eq o h ({ s with posts := s.posts.set k .over } : Ht D) p body sid
    simp only [hio] at he
    rw [he]
    exact if_neg hs
  · simp only [Ht.step, Ht.finish]
    split
    · rename_i p _ _
      obtain ⟨t, e, ha, nt, ps, he, -⟩ := completed_eq o h ({ s with posts := s.posts.set k .over } : Ht D) p body []
      rw [he]
      rfl
    · rfl
  · simp only [Ht.step, Ht.close]
    split
    · exact .inl rfl
    · exact .inr rfl
  · cases op with
    | start => simp only [Ht.step, Ht.start]; split <;> rfl
    | opened v =>
      cases v with
      | none => simp only [Ht.step, Ht.opened]; split <;> rfl
      | some v => exact absurd rfl (hv v)
    | giveUp r => simp only [Ht.step, Ht.giveUp]; split <;> rfl
    | send r => simp only [Ht.step, Ht.send]; split <;> rfl
    | file t => simp only [Ht.step, Ht.file]; split <;> rfl
    | note n => simp only [Ht.step, Ht.note]; split <;> rfl
    | begin k => simp only [Ht.step, Ht.begin]; split <;> rfl
    | finish h k b sid => exact absurd rfl (hf h k b sid)
    | failEarly hd k =>
      simp only [Ht.step, Ht.failEarly]
      split
      · rename_i p _ _ _
        obtain ⟨t, e, ha, nt, ps, he, -⟩ := completed_eq o hd ({ s with posts := s.posts.set k .over } : Ht D) p [] []
        rw [he]
        rfl
      · rfl
    | event hd json =>
      simp only [Ht.step, Ht.event]
      split
      · obtain ⟨t, he⟩ := incoming_eq hd s json []
        rw [he]
      · rfl
    | close => exact absurd rfl hc

/-! ### Requests of the server -/

/-- The answer to a request of the server is queued. -/
structure AnswersServer (h : HtHandlers D) (r : Request D) (s s' : Ht D) : Prop where
  handled : s'.handled = s.handled ++ [r]
  notified : s'.notified = s.notified
  answer : ∃ out resp, ClientSays h r out ∧ OwedResponse r out resp ∧ s'.posts = s.posts ++ [.queued .answer (serResponse resp)]

theorem incoming_answers (h : HtHandlers D) (s : Ht D) (json fb : Bytes) (r : Request D) (hc : classify json = .request) (hd : deRequest json = some r) :
    AnswersServer h r s (s.incoming h json fb) := by
  obtain ⟨t, he⟩ := incoming_eq h s json fb
  obtain ⟨resp, h1, h2⟩ := C14_request_answered h.wrap _ rfl json r hc hd
  rw [h1] at he
  rw [he]
  refine ⟨rfl, by simp [notesOf], _, resp, ⟨fun f hf => ?_, fun hn => ?_⟩, h2, rfl⟩
  · simp only [hf]
  · simp only [hn]; rfl

/-- **C91.** A request of the server, on the event stream while it is open or as the body of an exchange, is handed to the request handler
once, and the answer owed (an error if there is no handler) is queued to be sent. -/
theorem C91_server_request (o : HtOpts) (s : Ht D) (h : HtHandlers D) (json : Bytes) (r : Request D) (hc : classify json = .request)
    (hd : deRequest json = some r) :
    (s.sse = true → s.connected = true → AnswersServer h r s (s.step o (.event h json))) ∧
    (∀ k key starts sid, s.io = .running → s.posts[k]? = some (.sent (.request key starts)) →
      AnswersServer h r { s with posts := s.posts.set k .over } (s.step o (.finish h k json sid))) := by
  refine ⟨fun h1 h2 => ?_, fun k key starts sid hio hk => ?_⟩
  · simp only [Ht.step, Ht.event, h1, h2]
    exact incoming_answers h s json [] r hc hd
  · have hne : json ≠ [] := by rintro rfl; revert hc; decide
    simp only [Ht.step, Ht.finish, hio, hk, Ht.completed]
    rw [if_pos hne]
    have h2 : ∃ e : Bool × Bool × Bool, (if starts && !sid.isEmpty then (({ s with posts := s.posts.set k .over } : Ht D).capture sid).startSse o else
        ({ s with posts := s.posts.set k .over } : Ht D).capture sid) =
        { s with posts := s.posts.set k .over, sse := e.1, sseThread := e.2.1, terminated := e.2.2, session := if sid = [] then s.session else sid } := by
      rw [capture_eq]
      split
      · exact startSse_eq o _
      · exact ⟨(s.sse, s.sseThread, s.terminated), rfl⟩
    obtain ⟨e, he⟩ := h2
    simp only [hio] at he
    rw [he]
    obtain ⟨h3, h4, h5⟩ := incoming_answers h ({ s with posts := s.posts.set k .over, sse := e.1, sseThread := e.2.1, terminated := e.2.2, session := if sid = [] then s.session else sid } : Ht D) json key r hc hd
    simp only [hio] at h3 h4 h5 ⊢
    exact ⟨h3, h4, h5⟩

/-- **C91.** A notification of the server is handed over once if there is a handler for notifications, and nothing is sent for it. -/
theorem C91_server_notification (o : HtOpts) (s : Ht D) (h : HtHandlers D) (json : Bytes) (n : Notification D) (hc : classify json = .notification)
    (hd : deNotification json = some n) (h1 : s.sse = true) (h2 : s.connected = true) :
    let s' := s.step o (.event h json)
    s'.handled = s.handled ∧ s'.posts = s.posts ∧ (h.notification = true → s'.notified = s.notified ++ [n]) ∧
    (h.notification = false → s'.notified = s.notified) := by
  intro s'
  have hs' : s' = s.incoming h json [] := by show s.step o _ = _; simp only [Ht.step, Ht.event, h1, h2]; rfl
  obtain ⟨t, he⟩ := incoming_eq h s json []
  have hr : (route h.wrap json) = routeNotification h.wrap json := by
    unfold classify at hc
    unfold route
    split at hc
    · cases hc
    · rename_i h1
      rw [if_neg h1]
      split at hc
      · rename_i h2
        split at hc
        · cases hc
        · rename_i h3
          rw [if_neg (by simp [h3])]
      · rename_i h2
        rw [if_neg (by simp [h2])]
  rw [hs', he, hr]
  unfold routeNotification
  simp only [hd]
  have hw : h.wrap.notification = h.notification := rfl
  rw [hw]
  cases h.notification <;> simp [notesOf]

structure Shut (hd : List (Request D)) (nt : List (Notification D)) (w : List Sent) (x : Ht D) : Prop where
  io : x.io = .stopped
  sse : x.sse = false
  session : x.session = []
  handled : x.handled = hd
  notified : x.notified = nt
  wire : x.wire = w

theorem Shut.said {hd : List (Request D)} {nt : List (Notification D)} {w : List Sent} {x : Ht D} (h : Shut hd nt w x) :
    x.handled = hd ∧ x.notified = nt ∧ x.wire = w ∧ x.session = [] := ⟨h.handled, h.notified, h.wire, h.session⟩

theorem shut_step (o : HtOpts) {hd : List (Request D)} {nt : List (Notification D)} {w : List Sent} {x : Ht D} (h : Shut hd nt w x) (op : HtOp D) :
    Shut hd nt w (x.step o op) := by
  obtain ⟨h1, h2, h3, h4, h5, h6⟩ := h
  cases op with
  | start => simp only [Ht.step, Ht.start, h1]; exact ⟨rfl, h2, h3, h4, h5, h6⟩
  | opened v => simp only [Ht.step, Ht.opened, h2]; exact ⟨h1, h2, h3, h4, h5, h6⟩
  | giveUp r => simp only [Ht.step, Ht.giveUp, h2]; exact ⟨h1, h2, h3, h4, h5, h6⟩
  | send r => simp only [Ht.step, Ht.send]; split <;> exact ⟨h1, h2, h3, h4, h5, h6⟩
  | file t => simp only [Ht.step, Ht.file]; split <;> exact ⟨h1, h2, h3, h4, h5, h6⟩
  | note n => simp only [Ht.step, Ht.note]; split <;> exact ⟨h1, h2, h3, h4, h5, h6⟩
  | begin k => simp only [Ht.step, Ht.begin, h1]; exact ⟨h1, h2, h3, h4, h5, h6⟩
  | finish h k b sid => simp only [Ht.step, Ht.finish, h1]; exact ⟨h1, h2, h3, h4, h5, h6⟩
  | failEarly hd k => simp only [Ht.step, Ht.failEarly, h1]; exact ⟨h1, h2, h3, h4, h5, h6⟩
  | event hd json => simp only [Ht.step, Ht.event, h2]; exact ⟨h1, h2, h3, h4, h5, h6⟩
  | close =>
    simp only [Ht.step, Ht.close]
    split
    · exact ⟨h1, h2, h3, h4, h5, h6⟩
    · refine ⟨rfl, rfl, rfl, h4, h5, ?_⟩
      simp only [h3, List.isEmpty_nil, Bool.not_true, Bool.and_false, Bool.false_eq_true, if_false, List.append_nil]
      exact h6

theorem shut_run (o : HtOpts) (l : List (HtOp D)) {hd : List (Request D)} {nt : List (Notification D)} {w : List Sent} {x : Ht D} (h : Shut hd nt w x) :
    Shut hd nt w (x.run o l) := by
  induction l generalizing x with
  | nil => exact h
  | cons op l ih => exact ih (shut_step o h op)

/-- **C91.** Nothing is handed to the handlers, and nothing completed or queued, by what arrives once `Close` has returned, until the next
`Start` (and then nothing either, since the io thread does not run again). -/
theorem C91_after_close (o : HtOpts) (s : Ht D) (ops : List (HtOp D)) :
    let c := s.step o .close
    c ≠ { s with hung := true } →
    let s' := c.run o ops
    s'.handled = s.handled ∧ s'.notified = s.notified ∧ s'.wire = c.wire ∧ s'.session = [] := by
  intro c hc s'
  have hcl : c.io = .stopped ∧ c.sse = false ∧ c.session = [] ∧ c.handled = s.handled ∧ c.notified = s.notified := by
    show (s.step o .close).io = _ ∧ (s.step o .close).sse = _ ∧ (s.step o .close).session = _ ∧ (s.step o .close).handled = _ ∧ (s.step o .close).notified = _
    have hc : s.step o .close ≠ { s with hung := true } := hc
    revert hc
    simp only [Ht.step, Ht.close]
    split
    · intro h; exact absurd rfl h
    · intro _; exact ⟨rfl, rfl, rfl, rfl, rfl⟩
  exact (shut_run o ops ⟨hcl.1, hcl.2.1, hcl.2.2.1, hcl.2.2.2.1, hcl.2.2.2.2, rfl⟩).said

/-! ### The ids made by the transport -/

/-- The ids callers gave their requests. -/
def givenIds (ops : List (HtOp D)) : List Bytes :=
  ops.filterMap (fun op => match op with | .send r => if keyText r.id = [] then none else some (keyText r.id) | _ => none)

/-- The number of requests filed at most. -/
def filings (ops : List (HtOp D)) : Nat := (ops.filter (fun op => match op with | .file _ => true | _ => false)).length

/-- Callers give their requests ids of their own, or none, and not of the form the transport makes; and there are fewer than 2^32 requests. -/
structure OwnIds (ops : List (HtOp D)) : Prop where
  distinct : (givenIds ops).Nodup
  form : ∀ k ∈ givenIds ops, ¬ lit "http-req-" <+: k
  few : filings ops < 2 ^ 32

def madeId (i : Nat) : Bytes := lit "http-req-" ++ natDec i

theorem madeId_inj {i j : Nat} (h : madeId i = madeId j) : i = j := by
  have := congrArg digitsVal (List.append_cancel_left h)
  rwa [digitsVal_natDec, digitsVal_natDec] at this

def ticketKey (t : Option (Request D)) : Option Bytes :=
  match t with
  | some r => if keyText r.id = [] then none else some (keyText r.id)
  | none => none

structure IdInv (ops : List (HtOp D)) (s : Ht D) : Prop where
  nodup : (s.tab.sent.map (·.2) ++ s.tickets.filterMap ticketKey).Nodup
  made : ∀ k ∈ s.tab.sent.map (·.2), k ∈ givenIds ops ∨ ∃ i, i ≤ s.counter ∧ k = madeId i
  tickets : ∀ k ∈ s.tickets.filterMap ticketKey, k ∈ givenIds ops
  counter : s.counter ≤ filings ops
  noBroken : ∀ x ∈ s.tab.outcomes, x.2 ≠ .broken

theorem filterMap_set_none {α β : Type} (f : Option α → Option β) (hf : f none = none) (l : List (Option α)) (t : Nat) (x : Option α) (h : l[t]? = some x) :
    (l.filterMap f).Perm ((f x).toList ++ (l.set t none).filterMap f) := by
  induction l generalizing t with
  | nil => cases h
  | cons a l ih =>
    cases t with
    | zero =>
      simp only [List.getElem?_cons_zero, Option.some.injEq] at h
      subst h
      rw [List.set_cons_zero, List.filterMap_cons, List.filterMap_cons, hf]
      cases f a <;> simp
    | succ t =>
      rw [List.set_cons_succ, List.filterMap_cons, List.filterMap_cons]
      have := ih t h
      cases hfa : f a with
      | none => exact this
      | some b => exact (this.cons b).trans (List.perm_middle.symm)

/-- Every outcome added by an exchange or by closing is a response. -/
theorem idInv_tab {ops : List (HtOp D)} {s s' : Ht D} (h : IdInv ops s) (ht : s'.tab.sent = s.tab.sent) (hk : s'.tickets = s.tickets)
    (hc : s'.counter = s.counter) (ho : ∀ x ∈ s'.tab.outcomes, x ∈ s.tab.outcomes ∨ ∃ r, x.2 = .resp r) : IdInv ops s' := by
  refine ⟨by rw [ht, hk]; exact h.nodup, by rw [ht, hc]; exact h.made, by rw [hk]; exact h.tickets, by rw [hc]; exact h.counter, fun x hx => ?_⟩
  rcases ho x hx with h1 | ⟨r, h1⟩
  · exact h.noBroken x h1
  · rw [h1]; intro e; cases e

theorem complete_outcomes_resp (t : PTab (SOut D)) (k : Bytes) (r : Response D) :
    ∀ x ∈ (t.complete k (.resp r)).outcomes, x ∈ t.outcomes ∨ ∃ r, x.2 = .resp r := by
  intro x hx
  unfold PTab.complete at hx
  split at hx
  · rcases List.mem_append.1 hx with h1 | h1
    · exact .inl h1
    · simp only [List.mem_singleton] at h1
      subst h1
      exact .inr ⟨r, rfl⟩
  · exact .inl hx

theorem incoming_resp (h : HtHandlers D) (s : Ht D) (json fb : Bytes) :
    ∀ x ∈ (s.incoming h json fb).tab.outcomes, x ∈ s.tab.outcomes ∨ ∃ r, x.2 = .resp r := by
  rw [incoming_tab]
  split
  · unfold Ht.deliver
    split
    · exact complete_outcomes_resp _ _ _
    · split
      · exact complete_outcomes_resp _ _ _
      · exact fun x hx => .inl hx
  · split
    · exact fun x hx => .inl hx
    · split
      · exact fun x hx => .inl hx
      · exact complete_outcomes_resp _ _ _

theorem completed_resp (o : HtOpts) (h : HtHandlers D) (s : Ht D) (p : PostFor) (body sid : Bytes) :
    (s.completed o h p body sid).tab.sent = s.tab.sent ∧
    ∀ x ∈ (s.completed o h p body sid).tab.outcomes, x ∈ s.tab.outcomes ∨ ∃ r, x.2 = .resp r := by
  cases p with
  | request key starts =>
    unfold Ht.completed
    simp only
    have h2 : (if starts && !sid.isEmpty then (s.capture sid).startSse o else s.capture sid).tab = s.tab := by
      split
      · rw [startSse_tab, capture_tab]
      · rw [capture_tab]
    split
    · refine ⟨by rw [(incoming_keeps _ _ _ _).2, h2], ?_⟩
      have := incoming_resp h (if starts && !sid.isEmpty then (s.capture sid).startSse o else s.capture sid) body key
      rwa [h2] at this
    · unfold Ht.fail
      rw [h2]
      exact ⟨PTab.complete_sent _ _, complete_outcomes_resp _ _ _⟩
  | note => show (s.capture sid).tab.sent = _ ∧ ∀ x ∈ (s.capture sid).tab.outcomes, _; rw [capture_tab]; exact ⟨rfl, fun x hx => .inl hx⟩
  | answer => show (s.capture sid).tab.sent = _ ∧ ∀ x ∈ (s.capture sid).tab.outcomes, _; rw [capture_tab]; exact ⟨rfl, fun x hx => .inl hx⟩

theorem givenIds_append (a b : List (HtOp D)) : givenIds (a ++ b) = givenIds a ++ givenIds b := List.filterMap_append

theorem filings_append (a b : List (HtOp D)) : filings (a ++ b) = filings a + filings b := by
  unfold filings
  rw [List.filter_append, List.length_append]

theorem ownIds_init {a b : List (HtOp D)} (h : OwnIds (a ++ b)) : OwnIds a := by
  refine ⟨?_, fun k hk => h.form k ?_, ?_⟩
  · have := h.distinct
    rw [givenIds_append] at this
    exact (List.nodup_append.1 this).1
  · rw [givenIds_append]; exact List.mem_append_left _ hk
  · have := h.few
    rw [filings_append] at this
    omega

theorem idInv_step (o : HtOpts) {ops : List (HtOp D)} {s : Ht D} (hi : HtInv s) (h0 : IdInv ops s) (op : HtOp D) (ho : OwnIds (ops ++ [op])) :
    IdInv (ops ++ [op]) (s.step o op) := by
  have h : IdInv (ops ++ [op]) s := by
    refine ⟨h0.nodup, fun k hk => ?_, fun k hk => ?_, ?_, h0.noBroken⟩
    · rcases h0.made k hk with h1 | h1
      · exact .inl (by rw [givenIds_append]; exact List.mem_append_left _ h1)
      · exact .inr h1
    · rw [givenIds_append]; exact List.mem_append_left _ (h0.tickets k hk)
    · rw [filings_append]
      have := h0.counter
      omega
  cases op with
  | start => simp only [Ht.step, Ht.start]; split <;> exact idInv_tab h rfl rfl rfl (fun x hx => .inl hx)
  | opened v => simp only [Ht.step, Ht.opened]; split <;> exact idInv_tab h rfl rfl rfl (fun x hx => .inl hx)
  | giveUp r => simp only [Ht.step, Ht.giveUp]; split <;> exact idInv_tab h rfl rfl rfl (fun x hx => .inl hx)
  | send r =>
    simp only [Ht.step, Ht.send]
    split
    · have hg : givenIds (ops ++ [HtOp.send r]) = givenIds ops ++ (ticketKey (some r)).toList := by
        rw [givenIds_append]
        congr 1
      have hd := ho.distinct
      rw [hg] at hd
      have hf : (s.tickets ++ [some r]).filterMap ticketKey = s.tickets.filterMap ticketKey ++ (ticketKey (some r)).toList := by
        rw [List.filterMap_append, List.filterMap_cons]
        cases ticketKey (some r) <;> simp
      refine ⟨?_, h.made, ?_, h.counter, h.noBroken⟩
      · show (_ ++ (s.tickets ++ [some r]).filterMap ticketKey).Nodup
        rw [hf, ← List.append_assoc]
        refine List.nodup_append.2 ⟨h.nodup, (List.nodup_append.1 hd).2.1, fun a ha b hb e => ?_⟩
        subst e
        have hb' : a ∈ givenIds (ops ++ [HtOp.send r]) := by rw [hg]; exact List.mem_append_right _ hb
        rcases List.mem_append.1 ha with h1 | h1
        · rcases h0.made a h1 with h2 | ⟨i, -, h2⟩
          · exact (List.nodup_append.1 hd).2.2 a h2 a hb rfl
          · exact ho.form a hb' (by rw [h2]; exact List.prefix_append _ _)
        · exact (List.nodup_append.1 hd).2.2 a (h0.tickets a h1) a hb rfl
      · show ∀ k ∈ (s.tickets ++ [some r]).filterMap ticketKey, _
        rw [hf]
        intro k hk
        rcases List.mem_append.1 hk with h1 | h1
        · exact h.tickets k h1
        · rw [hg]; exact List.mem_append_right _ h1
    · refine idInv_tab h rfl rfl rfl (fun x hx => ?_)
      rcases List.mem_append.1 hx with h1 | h1
      · exact .inl h1
      · simp only [List.mem_singleton] at h1
        subst h1
        exact .inr ⟨_, rfl⟩
  | file t =>
    have hcn : s.counter + 1 ≤ filings (ops ++ [HtOp.file t]) := by
      rw [filings_append]
      have := h0.counter
      show _ ≤ filings ops + 1
      omega
    have hlt : s.counter + 1 < 2 ^ 32 := Nat.lt_of_le_of_lt hcn ho.few
    simp only [Ht.step, Ht.file]
    split
    · rename_i r hr
      have hperm := filterMap_set_none ticketKey rfl s.tickets t (some r) hr
      have hmod : (s.counter + 1) % 2 ^ 32 = s.counter + 1 := Nat.mod_eq_of_lt hlt
      -- the key the request is filed under
      have hkey : (keyText (s.withId r).1.id = madeId (s.counter + 1) ∧ (s.withId r).2 = s.counter + 1 ∧ ticketKey (some r) = none) ∨
          ((s.withId r).2 = s.counter ∧ ticketKey (some r) = some (keyText (s.withId r).1.id)) := by
        unfold Ht.withId ticketKey
        by_cases hk : keyText r.id = []
        · left
          simp only [if_pos hk, hmod]
          exact ⟨rfl, trivial, trivial⟩
        · right
          simp only [if_neg hk]
          exact ⟨trivial, trivial⟩
      have hnew : keyText (s.withId r).1.id ∉ s.tab.sent.map (·.2) ∧ (keyText (s.withId r).1.id ∉ (s.tickets.set t none).filterMap ticketKey) ∧
          (keyText (s.withId r).1.id ∈ givenIds (ops ++ [HtOp.file t]) ∨ ∃ i, i ≤ (s.withId r).2 ∧ keyText (s.withId r).1.id = madeId i) ∧
          s.counter ≤ (s.withId r).2 ∧ (s.withId r).2 ≤ filings (ops ++ [HtOp.file t]) := by
        rcases hkey with ⟨h1, h2, h3⟩ | ⟨h2, h3⟩
        · rw [h1, h2]
          refine ⟨fun hm => ?_, fun hm => ?_, .inr ⟨_, Nat.le_refl _, rfl⟩, by omega, hcn⟩
          · rcases h.made _ hm with h4 | ⟨i, h4, h5⟩
            · exact ho.form _ h4 (List.prefix_append _ _)
            · have := madeId_inj h5
              omega
          · refine ho.form (madeId (s.counter + 1)) (h.tickets _ ?_) (List.prefix_append _ _)
            exact hperm.mem_iff.2 (List.mem_append_right _ hm)
        · have hin : keyText (s.withId r).1.id ∈ s.tickets.filterMap ticketKey := hperm.mem_iff.2 (List.mem_append_left _ (by rw [h3]; simp))
          have hnd : (s.tickets.filterMap ticketKey).Nodup := (List.nodup_append.1 h.nodup).2.1
          rw [h2]
          refine ⟨fun hm => (List.nodup_append.1 h.nodup).2.2 _ hm _ hin rfl, fun hm => ?_, .inl (h.tickets _ hin), Nat.le_refl _, h.counter⟩
          have hnd' := hperm.nodup_iff.1 hnd
          rw [h3] at hnd'
          exact (List.nodup_append.1 hnd').2.2 _ (by simp) _ hm rfl
      obtain ⟨hn1, hn2, hn3, hn4, hn5⟩ := hnew
      have hsub : ∀ k ∈ (s.tickets.set t none).filterMap ticketKey, k ∈ s.tickets.filterMap ticketKey :=
        fun k hk => hperm.mem_iff.2 (List.mem_append_right _ hk)
      refine ⟨?_, ?_, fun k hk => h.tickets k (hsub k hk), hn5, ?_⟩
      · show ((s.tab.sent ++ [(s.tab.nextFut, keyText (s.withId r).1.id)]).map (·.2) ++ (s.tickets.set t none).filterMap ticketKey).Nodup
        rw [List.map_append, List.append_assoc]
        refine List.nodup_append.2 ⟨(List.nodup_append.1 h.nodup).1, ?_, fun a ha b hb e => ?_⟩
        · show (keyText (s.withId r).1.id :: (s.tickets.set t none).filterMap ticketKey).Nodup
          refine List.nodup_cons.2 ⟨hn2, ?_⟩
          exact (List.nodup_append.1 (hperm.nodup_iff.1 (List.nodup_append.1 h.nodup).2.1)).2.1
        · subst e
          rcases List.mem_append.1 hb with h1 | h1
          · simp only [List.map_cons, List.map_nil, List.mem_singleton] at h1
            subst h1
            exact hn1 ha
          · exact (List.nodup_append.1 h.nodup).2.2 a ha a (hsub a h1) rfl
      · show ∀ k ∈ (s.tab.sent ++ [(s.tab.nextFut, keyText (s.withId r).1.id)]).map (·.2), _
        intro k hk
        rw [List.map_append] at hk
        rcases List.mem_append.1 hk with h1 | h1
        · rcases h.made k h1 with h2 | ⟨i, h2, h3⟩
          · exact .inl h2
          · exact .inr ⟨i, Nat.le_trans h2 hn4, h3⟩
        · simp only [List.map_cons, List.map_nil, List.mem_singleton] at h1
          subst h1
          exact hn3
      · have hnone : AMap.get s.tab.pending (keyText (s.withId r).1.id) = none := by
          cases hg : AMap.get s.tab.pending (keyText (s.withId r).1.id) with
          | none => rfl
          | some n => exact absurd (List.mem_map.2 ⟨_, hi.pend _ _ (AMap.get_some_mem hg), rfl⟩) hn1
        show ∀ x ∈ (s.tab.insert _ _).outcomes, _
        unfold PTab.insert
        simp only [hnone]
        exact h.noBroken
    · exact h
  | note n => simp only [Ht.step, Ht.note]; split <;> exact idInv_tab h rfl rfl rfl (fun x hx => .inl hx)
  | begin k => simp only [Ht.step, Ht.begin]; split <;> exact idInv_tab h rfl rfl rfl (fun x hx => .inl hx)
  | finish hd k body sid =>
    simp only [Ht.step, Ht.finish]
    split
    · rename_i p _ _
      obtain ⟨h1, h2⟩ := completed_resp o hd ({ s with posts := s.posts.set k .over } : Ht D) p body sid
      obtain ⟨t, e, ha, nt, ps, he, -⟩ := completed_eq o hd ({ s with posts := s.posts.set k .over } : Ht D) p body sid
      exact idInv_tab h h1 (by rw [he]) (by rw [he]) h2
    · exact h
  | failEarly hd k =>
    simp only [Ht.step, Ht.failEarly]
    split
    · rename_i p _ _ _
      obtain ⟨h1, h2⟩ := completed_resp o hd ({ s with posts := s.posts.set k .over } : Ht D) p [] []
      obtain ⟨t, e, ha, nt, ps, he, -⟩ := completed_eq o hd ({ s with posts := s.posts.set k .over } : Ht D) p [] []
      exact idInv_tab h h1 (by rw [he]) (by rw [he]) h2
    · exact h
  | event hd json =>
    simp only [Ht.step, Ht.event]
    split
    · obtain ⟨t, he⟩ := incoming_eq hd s json []
      exact idInv_tab h (incoming_keeps hd s json []).2 (by rw [he]) (by rw [he]) (incoming_resp hd s json [])
    · exact h
  | close =>
    simp only [Ht.step, Ht.close]
    split
    · exact idInv_tab h rfl rfl rfl (fun x hx => .inl hx)
    · refine idInv_tab h rfl rfl rfl (fun x hx => ?_)
      rcases List.mem_append.1 hx with h1 | h1
      · exact .inl h1
      · obtain ⟨p, -, rfl⟩ := List.mem_map.1 h1
        exact .inr ⟨_, rfl⟩

theorem idInv_run (o : HtOpts) (ops : List (HtOp D)) (ho : OwnIds ops) : IdInv ops ((Ht.init : Ht D).run o ops) := by
  have key : ∀ l : List (HtOp D), OwnIds l.reverse → IdInv l.reverse ((Ht.init : Ht D).run o l.reverse) := by
    intro l
    induction l with
    | nil =>
      intro _
      exact ⟨List.nodup_nil, fun k hk => (by cases hk), fun k hk => (by cases hk), Nat.zero_le _, fun x hx => (by cases hx)⟩
    | cons op l ih =>
      intro h
      rw [List.reverse_cons] at h ⊢
      rw [ht_run_concat]
      exact idInv_step o (ht_inv o l.reverse) (ih (ownIds_init h)) op h
  have := key ops.reverse (by rw [List.reverse_reverse]; exact ho)
  rwa [List.reverse_reverse] at this

/-- **C91.** When callers give their requests ids of their own, or none, the requests are all filed under different ids, so that none takes
the place of another: no request ends with `broken_promise`. -/
theorem C91_ids_differ (o : HtOpts) (ops : List (HtOp D)) (ho : OwnIds ops) :
    let t := ((Ht.init : Ht D).run o ops).tab
    (t.sent.map (·.2)).Nodup ∧ ∀ n, (n, .broken) ∉ t.outcomes := by
  have h := idInv_run o ops ho
  exact ⟨(List.nodup_append.1 h.nodup).1, fun n hm => h.noBroken _ hm rfl⟩

/-- Two requests without ids and one with: the hypotheses of `C91_ids_differ`. -/
example : OwnIds ([.start, .send ⟨.null, lit "a", none⟩, .send ⟨.null, lit "b", none⟩, .send callOne, .file 0, .file 1, .file 2] : List (HtOp Empty)) ∧
    ((Ht.init : Ht Empty).run plainHt [.start, .send ⟨.null, lit "a", none⟩, .send ⟨.null, lit "b", none⟩, .send callOne, .file 0, .file 1, .file 2]).tab.sent.map (·.2) =
      [lit "http-req-1", lit "http-req-2", lit "1"] :=
  ⟨⟨by decide +kernel, by decide +kernel, by decide⟩, by decide +kernel⟩

/-- The event stream of an initialised session, with a request and a notification of the server: the hypotheses of `C91_server_request` and
`C91_server_notification`. -/
example : let s := (Ht.init : Ht Empty).run streamHt [.start, .send ⟨.int 1, lit "initialize", none⟩, .file 0, .begin 0,
      .finish noHandlers 0 (lit "{\"jsonrpc\":\"2.0\",\"id\":1,\"result\":{}}") (lit "s1")]
    s.sse = true ∧ s.connected = true ∧ s.io = .running ∧ s.session = lit "s1" ∧
    classify (lit "{\"jsonrpc\":\"2.0\",\"id\":9,\"method\":\"ping\"}") = .request ∧
    deRequest (D := Empty) (lit "{\"jsonrpc\":\"2.0\",\"id\":9,\"method\":\"ping\"}") = some ⟨.int 9, lit "ping", none⟩ ∧
    classify (lit "{\"jsonrpc\":\"2.0\",\"method\":\"a\"}") = .notification ∧
    deNotification (D := Empty) (lit "{\"jsonrpc\":\"2.0\",\"method\":\"a\"}") = some ⟨lit "a", none⟩ :=
  ⟨by decide +kernel, by decide +kernel, by decide +kernel, by decide +kernel, by decide +kernel, by decide +kernel, by decide +kernel, by decide +kernel⟩

end Verif
