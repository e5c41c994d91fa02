import Verif.InMemory.Lemmas

/-! C16: the in-memory transport. -/

set_option linter.unusedSectionVars false

namespace Verif

open InMemory
open Verif.Stdio (idText)

variable {D : Type} [DblFmt D]

namespace InMemory

/-- Traffic whose texts survive the wire format (C04-C06, C15): ids and methods without quotes and backslashes, values of the class
of C02, handlers that return a result or an error. -/
def PlainReq (r : Request D) : Prop :=
  IdPlain r.id ∧ PlainText r.method ∧ r.method ≠ [] ∧ ∀ v, r.params = some v → v.Wire

def PlainNote (n : Notification D) : Prop :=
  PlainText n.method ∧ n.method ≠ [] ∧ ∀ v, n.params = some v → v.Wire

def PlainOut : HandlerOutcome D → Prop
  | .resp r => (∀ v, r.result = some v → v.Wire) ∧ (r.result ≠ none ∨ r.error ≠ none)
  | _ => True

def PlainOp : Op D → Prop
  | .send _ r => PlainReq r
  | .notify _ n => PlainNote n
  | .reply _ _ out => PlainOut out
  | _ => True

theorem chooseId_plain {id : RpcId} (h : IdPlain id) (c : Nat) : IdPlain (chooseId id c).1 := by
  have key : ∀ c, PlainText (lit "mem-req-" ++ natDec c) := by
    intro c x hx
    rcases List.mem_append.1 hx with h1 | h1
    · clear hx; revert x; decide
    · have := natDec_isDig h1
      constructor <;> (intro e; subst e; revert this; decide)
  unfold chooseId
  cases id with
  | str s => simp only; split
             · exact key _
             · exact h
  | int i => exact h
  | null => exact key _

theorem replyFor_classified {req : Request D} (hid : IdPlain req.id) {out : HandlerOutcome D} (ho : PlainOut out) :
    classify (serResponse (replyFor req out)) = .response := by
  cases out with
  | resp r => exact C15_response_classified _ hid ho.1 ho.2
  | nul => exact C15_response_classified _ hid (by intro v hv; cases hv) (.inr (by simp [replyFor]))
  | threw m => exact C15_response_classified _ hid (by intro v hv; cases hv) (.inr (by simp [replyFor]))

theorem replyFor_id (req : Request D) (out : HandlerOutcome D) : (replyFor req out).id = req.id := by
  cases out <;> rfl

/-- Where a sent text comes from. -/
inductive Origin (asked : List (Nat × Request D)) (answered : List (Request D × HandlerOutcome D)) : Bytes → Prop
  | request {n : Nat} {r : Request D} : (n, r) ∈ asked → PlainReq r → Origin asked answered (serRequest r)
  | note {n : Notification D} : PlainNote n → Origin asked answered (serNotification n)
  | reply {req : Request D} {out : HandlerOutcome D} : (req, out) ∈ answered → IdPlain req.id → PlainOut out →
      Origin asked answered (serResponse (replyFor req out))

/-- The invariant of plain traffic, for the endpoint `e` with peer `p`. -/
structure PlainInv (e p : Endpoint D) : Prop where
  askedSent : ∀ n r, (n, r) ∈ e.asked → (n, idText r.id) ∈ e.tab.sent ∧ PlainReq r
  sending : ∀ k r, (k, r) ∈ e.sending → ∃ n, (n, r) ∈ e.asked
  log : ∀ t ∈ e.log, Origin e.asked e.answered t
  jobs : ∀ r ∈ e.jobs, ∃ n, (n, r) ∈ p.asked
  answered : ∀ r out, (r, out) ∈ e.answered → ∃ n, (n, r) ∈ p.asked
  answeredPlain : ∀ r out, (r, out) ∈ e.answered → PlainReq r
  outcomes : ∀ n r, (n, Outcome.response r) ∈ e.tab.outcomes →
    ∃ req out, (req, out) ∈ p.answered ∧ r = deResponse (serResponse (replyFor req out)) ∧ r.id = req.id
  jobsPlain : ∀ r ∈ e.jobs, PlainReq r

theorem Origin.mono {a a' : List (Nat × Request D)} {b b' : List (Request D × HandlerOutcome D)} (h1 : ∀ x ∈ a, x ∈ a')
    (h2 : ∀ x ∈ b, x ∈ b') {t : Bytes} (h : Origin a b t) : Origin a' b' t := by
  cases h with
  | request h hr => exact .request (h1 _ h) hr
  | note h => exact .note h
  | reply h hi ho => exact .reply (h2 _ h) hi ho

/-- The peer may gain questions and answers. -/
theorem PlainInv.peer {e p p' : Endpoint D} (h : PlainInv e p) (h1 : ∀ x ∈ p.asked, x ∈ p'.asked)
    (h2 : ∀ x ∈ p.answered, x ∈ p'.answered) : PlainInv e p' := by
  refine ⟨h.askedSent, h.sending, h.log, ?_, ?_, h.answeredPlain, ?_, h.jobsPlain⟩
  · intro r hr; obtain ⟨n, hn⟩ := h.jobs r hr; exact ⟨n, h1 _ hn⟩
  · intro r o hr; obtain ⟨n, hn⟩ := h.answered r o hr; exact ⟨n, h1 _ hn⟩
  · intro n r hr; obtain ⟨q, o, ha, hb, hc⟩ := h.outcomes n r hr; exact ⟨q, o, h2 _ ha, hb, hc⟩

/-- Updates that touch none of the tracked fields of either endpoint. -/
theorem PlainInv.frame {e p e' p' : Endpoint D} (h : PlainInv e p) (h1 : e'.asked = e.asked) (h2 : e'.answered = e.answered)
    (h3 : e'.sending = e.sending) (h4 : e'.log = e.log) (h5 : e'.jobs = e.jobs) (h6 : e'.tab = e.tab)
    (h7 : p'.asked = p.asked) (h8 : p'.answered = p.answered) : PlainInv e' p' := by
  refine ⟨by rw [h1, h6]; exact h.askedSent, by rw [h3, h1]; exact h.sending, ?_, by rw [h5, h7]; exact h.jobs,
    by rw [h2, h7]; exact h.answered, by rw [h2]; exact h.answeredPlain, by rw [h6, h8]; exact h.outcomes, by rw [h5]; exact h.jobsPlain⟩
  rw [h4, h1, h2]; exact h.log

/-- Completing promises with something other than a response. -/
theorem PlainInv.complete {e p : Endpoint D} (h : PlainInv e p) {tab : PTab (Outcome D)} (hs : ∀ x ∈ e.tab.sent, x ∈ tab.sent)
    (ho : ∀ n r, (n, Outcome.response r) ∈ tab.outcomes → (n, Outcome.response r) ∈ e.tab.outcomes) :
    PlainInv { e with tab := tab } p :=
  ⟨fun n r hr => ⟨hs _ (h.askedSent n r hr).1, (h.askedSent n r hr).2⟩, h.sending,
   h.log, h.jobs, h.answered, h.answeredPlain,
   fun n r hr => h.outcomes n r (ho n r hr), h.jobsPlain⟩

theorem PlainInv.logged {e p : Endpoint D} (h : PlainInv e p) {t : Bytes} (ht : Origin e.asked e.answered t) :
    PlainInv { e with log := e.log ++ [t] } p := by
  refine ⟨h.askedSent, h.sending, ?_, h.jobs, h.answered, h.answeredPlain, h.outcomes, h.jobsPlain⟩
  intro u hu
  rcases List.mem_append.1 hu with h1 | h1
  · exact h.log u h1
  · simp at h1; subst h1; exact ht

/-- Handling a text of the peer. -/
theorem PlainInv.handled {e p : Endpoint D} (h : PlainInv e p) {t : Bytes} (ht : Origin p.asked p.answered t) :
    PlainInv { e.apply (eventOf e.hasHandler t) with current := none } p := by
  have same : ∀ ev, (∀ r, ev ≠ .resolve r) → (∀ r, ev ≠ .request r) → PlainInv { e.apply ev with current := none } p := by
    intro ev h1 h2
    cases ev with
    | resolve r => exact absurd rfl (h1 r)
    | request r => exact absurd rfl (h2 r)
    | notification n => exact h.frame rfl rfl rfl rfl rfl rfl rfl rfl
    | dropped => exact h.frame rfl rfl rfl rfl rfl rfl rfl rfl
  have note : ∀ t, PlainInv { e.apply (asNotification t) with current := none } p := by
    intro t
    apply same <;> (intro r; unfold asNotification; split <;> simp)
  cases ht with
  | @request n r hn hr =>
    have hc := C15_request_classified r hr.1 hr.2.1 hr.2.2.2
    have hd := C04_request_roundtrip_wire r hr.1.ok hr.2.1.noQuote hr.2.2.1 hr.2.2.2
    unfold eventOf
    rw [hc]; simp only [hd]
    split
    · refine ⟨h.askedSent, h.sending, h.log, ?_, h.answered, h.answeredPlain, h.outcomes, ?_⟩
      · intro q hq
        rcases List.mem_append.1 hq with h1 | h1
        · exact h.jobs q h1
        · simp at h1; subst h1; exact ⟨n, hn⟩
      · intro q hq
        rcases List.mem_append.1 hq with h1 | h1
        · exact h.jobsPlain q h1
        · simp at h1; subst h1; exact hr
    · exact note _
  | note hn =>
    have hc := C15_notification_classified _ hn.1 hn.2.2
    unfold eventOf
    rw [hc]; exact note _
  | @reply req out ha hi ho =>
    have hc := replyFor_classified hi ho
    unfold eventOf
    rw [hc]; simp only
    have hid : (deResponse (D := D) (serResponse (replyFor req out))).id = req.id := by
      have := response_id (replyFor req out) (by rw [replyFor_id]; exact hi.ok)
      rw [replyFor_id] at this; exact this
    refine ⟨?_, h.sending, h.log, h.jobs, h.answered, h.answeredPlain, ?_, h.jobsPlain⟩
    · intro n r hr
      exact ⟨by simp only [Endpoint.apply]; rw [PTab.complete_sent]; exact (h.askedSent n r hr).1, (h.askedSent n r hr).2⟩
    · intro n r hr
      simp only [Endpoint.apply] at hr
      unfold PTab.complete at hr
      split at hr
      · rcases List.mem_append.1 hr with h1 | h1
        · exact h.outcomes n r h1
        · simp at h1
          exact ⟨req, out, ha, h1.2, by rw [h1.2]; exact hid⟩
      · exact h.outcomes n r hr

def PlainAll (s : Net D) : Prop := ∀ y, PlainInv (s.get y) (s.get (!y))

theorem plainAll_init (ha hb : Bool) : PlainAll (Net.init ha hb : Net D) := by
  intro y
  cases y <;> constructor <;> simp [Net.init, Net.get, Endpoint.init, PTab.init]

/-- Updating one endpoint. -/
theorem plainAll_upd {s : Net D} (h : PlainAll s) (x : Bool) {f : Endpoint D → Endpoint D}
    (h1 : PlainInv (s.get x) (s.get (!x)) → PlainInv (f (s.get x)) (s.get (!x)))
    (h2 : ∀ y ∈ (s.get x).asked, y ∈ (f (s.get x)).asked) (h3 : ∀ y ∈ (s.get x).answered, y ∈ (f (s.get x)).answered) :
    PlainAll (s.upd x f) := by
  intro y
  by_cases hy : y = x
  · subst hy
    rw [get_upd_same, get_upd_not]; exact h1 (h y)
  · have : x = !y := by cases x <;> cases y <;> simp_all
    subst this
    rw [get_upd_same, get_upd_not']; exact (h y).peer h2 h3

theorem plainAll_push {s : Net D} (h : PlainAll s) (x : Bool) {t : Bytes} (ht : Origin (s.get x).asked (s.get x).answered t) : PlainAll (s.push x t) := by
  unfold Net.push
  have h' : PlainAll (s.upd x (fun e => { e with log := e.log ++ [t] })) :=
    plainAll_upd h x (fun h => h.logged ht) (fun _ h => h) (fun _ h => h)
  exact plainAll_upd h' (!x) (fun h => h.frame rfl rfl rfl rfl rfl rfl rfl rfl) (fun _ h => h) (fun _ h => h)

theorem plainAll_step {s : Net D} (h : PlainAll s) (hf : Fifo s) (op : Op D) (hop : PlainOp op) : PlainAll (s.step op) := by
  cases op with
  | start x => exact plainAll_upd h x (fun h => h.frame rfl rfl rfl rfl rfl rfl rfl rfl) (fun _ h => h) (fun _ h => h)
  | closeFlag x => exact plainAll_upd h x (fun h => h.frame rfl rfl rfl rfl rfl rfl rfl rfl) (fun _ h => h) (fun _ h => h)
  | closeFail x =>
    refine plainAll_upd h x (fun h => h.complete (fun _ h => h) ?_) (fun _ h => h) (fun _ h => h)
    intro n r hr
    rcases List.mem_append.1 hr with h1 | h1
    · exact h1
    · obtain ⟨_, _, h3⟩ := List.mem_map.1 h1; simp at h3
  | send x r =>
    refine plainAll_upd h x (fun h => ?_) (fun _ h => List.mem_append_left _ h) (fun _ h => h)
    refine ⟨?_, ?_, ?_, h.jobs, h.answered, h.answeredPlain, ?_, h.jobsPlain⟩
    · intro n q hq
      rcases List.mem_append.1 hq with h1 | h1
      · exact ⟨List.mem_append_left _ (h.askedSent n q h1).1, (h.askedSent n q h1).2⟩
      · simp at h1
        obtain ⟨rfl, rfl⟩ := h1
        exact ⟨List.mem_append_right _ (by simp), chooseId_plain hop.1 _, hop.2.1, hop.2.2.1, hop.2.2.2⟩
    · intro k q hq
      rcases List.mem_append.1 hq with h1 | h1
      · obtain ⟨n, hn⟩ := h.sending k q h1; exact ⟨n, List.mem_append_left _ hn⟩
      · simp at h1; exact ⟨(s.get x).tab.nextFut, List.mem_append_right _ (by rw [h1.2]; simp)⟩
    · intro t ht
      exact Origin.mono (fun _ h => List.mem_append_left _ h) (fun _ h => h) (h.log t ht)
    · intro n q hq
      refine h.outcomes n q ?_
      revert hq
      simp only [Endpoint.send, PTab.insert]
      cases AMap.get (s.get x).tab.pending (idText (chooseId r.id (s.get x).counter).1) with
      | none => exact fun h => h
      | some old =>
        intro hq
        rcases List.mem_append.1 hq with h1 | h1
        · exact h1
        · simp at h1
  | deliver x i =>
    show PlainAll (s.deliver x i)
    unfold Net.deliver
    split
    · exact h
    · rename_i key r hg
      have h' : PlainAll (s.upd x (fun e => { e with sending := e.sending.eraseIdx i })) := by
        refine plainAll_upd h x (fun h => ?_) (fun _ h => h) (fun _ h => h)
        exact ⟨h.askedSent, fun k r hk => h.sending k r (mem_of_eraseIdx hk),
          h.log, h.jobs, h.answered, h.answeredPlain, h.outcomes, h.jobsPlain⟩
      obtain ⟨n, hn⟩ := (h x).sending key r (List.mem_of_getElem? hg)
      simp only
      split
      · refine plainAll_push h' x (.request (n := n) ?_ ((h x).askedSent n r hn).2)
        rw [get_upd_same]; exact hn
      · refine plainAll_upd h' x (fun h => h.complete ?_ ?_) (fun _ h => h) (fun _ h => h)
        · intro y hy; rw [PTab.complete_sent]; exact hy
        · intro n r hr
          unfold PTab.complete at hr
          split at hr
          · rcases List.mem_append.1 hr with h1 | h1
            · exact h1
            · simp at h1
          · exact hr
  | notify x n =>
    show PlainAll (s.notify x n)
    unfold Net.notify
    split
    · exact plainAll_push h x (.note hop)
    · exact plainAll_upd h x (fun h => h.frame rfl rfl rfl rfl rfl rfl rfl rfl) (fun _ h => h) (fun _ h => h)
  | pop x =>
    refine plainAll_upd h x (fun h => ?_) ?_ ?_
    · obtain ⟨h1, h2, h3, h4, h5, h6, h7, h8, h9⟩ := pop_frame (s.get x)
      exact h.frame h2 h3 h8 h1 h4 h7 rfl rfl
    · rw [(pop_frame _).2.1]; exact fun _ h => h
    · rw [(pop_frame _).2.2.1]; exact fun _ h => h
  | handle x =>
    refine plainAll_upd h x (fun hx => ?_) ?_ ?_
    · unfold Endpoint.handle
      split
      · exact hx
      · rename_i t hc
        refine hx.handled ?_
        obtain ⟨pre, h1, _⟩ := hf x
        refine (h (!x)).log t ?_
        rw [h1, hc]; simp
    · rw [(handle_frame _).2.1]; exact fun _ h => h
    · rw [(handle_frame _).2.2.1]; exact fun _ h => h
  | reply x i out =>
    show PlainAll (s.reply x i out)
    unfold Net.reply
    split
    · exact h
    · rename_i req hg
      have hm := List.mem_of_getElem? hg
      have h' : PlainAll (s.upd x (fun e => { e with jobs := e.jobs.eraseIdx i, answered := e.answered ++ [(req, out)] })) := by
        refine plainAll_upd h x (fun h => ?_) (fun _ h => h) (fun _ h => List.mem_append_left _ h)
        refine ⟨h.askedSent, h.sending, fun t ht => Origin.mono (fun _ h => h) (fun _ h => List.mem_append_left _ h) (h.log t ht),
          fun r hr => h.jobs r (mem_of_eraseIdx hr), ?_, ?_, h.outcomes, fun r hr => h.jobsPlain r (mem_of_eraseIdx hr)⟩
        · intro r o hr
          rcases List.mem_append.1 hr with h1 | h1
          · exact h.answered r o h1
          · simp at h1; rw [h1.1]; exact h.jobs req hm
        · intro r o hr
          rcases List.mem_append.1 hr with h1 | h1
          · exact h.answeredPlain r o h1
          · simp at h1; rw [h1.1]; exact h.jobsPlain req hm
      simp only
      split
      · refine plainAll_push h' x (.reply (req := req) (out := out) ?_ ((h x).jobsPlain req hm).1 hop)
        rw [get_upd_same]; simp
      · exact h'

theorem plainAll_run {s : Net D} (h : PlainAll s) (hf : Fifo s) (ops : List (Op D)) (hops : ∀ op ∈ ops, PlainOp op) :
    PlainAll (s.run ops) := by
  induction ops generalizing s with
  | nil => exact h
  | cons op ops ih =>
    exact ih (plainAll_step h hf op (hops op (by simp))) (fifo_step hf op) (fun o ho => hops o (by simp [ho]))

end InMemory

/-! ### C16 -/

/-- **C16.** In every execution, what an endpoint has done so far is exactly what follows from a first part of the texts its peer
put on the line, in order and each once; the remaining texts are still queued. -/
theorem C16_in_order_exactly_once (ha hb : Bool) (ops : List (Op D)) (y : Bool) :
    let s := (Net.init ha hb : Net D).run ops
    ∃ done, (s.get (!y)).log = done ++ (s.get y).current.toList ++ (s.get y).queue ∧
      (s.get y).events = done.map (eventOf (s.get y).hasHandler) :=
  fifo_run (fifo_init ha hb) ops y

/-- **C16.** In every execution every request future completes at most once, and a completion with a response or transport error
names the id under which that future was filed. -/
theorem C16_completes_at_most_once (ha hb : Bool) (ops : List (Op D)) (y : Bool) :
    let s := (Net.init ha hb : Net D).run ops
    ((s.get y).tab.outcomes.map (·.1)).Nodup ∧
    (∀ n r, (n, Outcome.response r) ∈ (s.get y).tab.outcomes → (n, idText r.id) ∈ (s.get y).tab.sent) ∧
    (∀ n id, (n, Outcome.peerGone id) ∈ (s.get y).tab.outcomes → (n, idText id) ∈ (s.get y).tab.sent) ∧
    (∀ n id, (n, Outcome.closed id) ∈ (s.get y).tab.outcomes → (n, id) ∈ (s.get y).tab.sent) := by
  have h := (tabInv_run (tabInv_init ha hb) ops y).1
  have key : ∀ n o, (n, o) ∈ (((Net.init ha hb : Net D).run ops).get y).tab.outcomes → ¬ Loose o →
      ∃ k, (n, k) ∈ (((Net.init ha hb : Net D).run ops).get y).tab.sent ∧ Fits o k :=
    fun n o ho hl => (h.fits n o ho).resolve_left hl
  refine ⟨h.once, ?_, ?_, ?_⟩
  · intro n r hr
    obtain ⟨k, h1, h2⟩ := key _ _ hr (fun x => x)
    exact (show idText r.id = k from h2) ▸ h1
  · intro n id hr
    obtain ⟨k, h1, h2⟩ := key _ _ hr (fun x => x)
    exact (show idText id = k from h2) ▸ h1
  · intro n id hr
    obtain ⟨k, h1, h2⟩ := key _ _ hr (fun x => x)
    exact (show id = k from h2) ▸ h1

/-- **C16.** In every execution each request handed to the request handler is answered at most once: handed-over requests are,
with multiplicity, those still being handled and those answered. -/
theorem C16_handled_once (ha hb : Bool) (ops : List (Op D)) (y : Bool) :
    let s := (Net.init ha hb : Net D).run ops
    ((s.get y).events.filterMap Event.req?).Perm ((s.get y).jobs ++ (s.get y).answered.map (·.1)) :=
  jobsInv_run (jobsInv_init ha hb) ops y

/-- **C16 (partial).** In every execution with plain traffic, a future completed with a response was completed with the peer
handler's answer to a request this endpoint sent, filed under the same id text. Missing: traffic with quotes or backslashes in ids and
methods, for which the wire format itself fails (C04, C15). -/
theorem C16_answer_is_reply_partial (ha hb : Bool) (ops : List (Op D)) (hops : ∀ op ∈ ops, PlainOp op) (y : Bool) (n : Nat)
    (r : Response D) :
    let s := (Net.init ha hb : Net D).run ops
    (n, Outcome.response r) ∈ (s.get y).tab.outcomes →
    ∃ m req out, (m, req) ∈ (s.get y).asked ∧ (m, idText req.id) ∈ (s.get y).tab.sent ∧ (n, idText req.id) ∈ (s.get y).tab.sent ∧
      (req, out) ∈ (s.get (!y)).answered ∧ r.id = req.id ∧ r = deResponse (serResponse (replyFor req out)) := by
  intro s hr
  have hp : PlainAll s := plainAll_run (plainAll_init ha hb) (fifo_init ha hb) ops hops
  obtain ⟨req, out, h1, h2, h3⟩ := (hp y).outcomes n r hr
  obtain ⟨m, hm⟩ := (hp (!y)).answered req out h1
  rw [Bool.not_not] at hm
  have := (C16_completes_at_most_once ha hb ops y).2.1 n r hr
  rw [h3] at this
  exact ⟨m, req, out, hm, ((hp y).askedSent m req hm).1, this, h1, h3, h2⟩

/-- **C16.** A send to a peer that is not connected completes the future at once with a transport error naming the id. -/
theorem C16_unreachable_peer_reported (s : Net D) (x : Bool) (i : Nat) (key : Bytes) (r : Request D) (n : Nat)
    (hs : (s.get x).sending[i]? = some (key, r)) (hc : (s.get (!x)).connected = false)
    (hp : AMap.get (s.get x).tab.pending key = some n) :
    (n, Outcome.peerGone r.id) ∈ ((s.step (.deliver x i)).get x).tab.outcomes := by
  show _ ∈ ((s.deliver x i).get x).tab.outcomes
  unfold Net.deliver
  rw [hs]
  simp only [hc]
  rw [if_neg (by simp), get_upd_same, get_upd_same]
  exact PTab.complete_outcome hp

/-- A request sent while both sides are idle and connected, under an id not in use. -/
theorem C16_request_answered (s : Net D) (x : Bool) (r : Request D) (hr : PlainReq r) (hid : r.id ≠ .str [] ∧ r.id ≠ .null)
    (hx : (s.get x).connected = true) (hy : (s.get (!x)).connected = true) (hh : (s.get (!x)).hasHandler = true)
    (hsend : (s.get x).sending = []) (hqx : (s.get x).queue = []) (hcx : (s.get x).current = none)
    (hqy : (s.get (!x)).queue = []) (hcy : (s.get (!x)).current = none) (hj : (s.get (!x)).jobs = [])
    (v : JVal D) (hv : v.Wire) (hk : ¬ v.HasKey (lit "error")) (q : RpcId) :
    ((s.get x).tab.nextFut, Outcome.response ⟨r.id, some v, none⟩) ∈
      ((s.run [.send x r, .deliver x 0, .pop (!x), .handle (!x), .reply (!x) 0 (.resp ⟨q, some v, none⟩), .pop x, .handle x]).get x).tab.outcomes := by
  have hc1 := C15_request_classified r hr.1 hr.2.1 hr.2.2.2
  have hd1 := C04_request_roundtrip_wire r hr.1.ok hr.2.1.noQuote hr.2.2.1 hr.2.2.2
  have hc2 : classify (serResponse (⟨r.id, some v, none⟩ : Response D)) = .response :=
    C15_response_classified _ hr.1 (by intro w hw; cases hw; exact hv) (.inl (by simp))
  have hd2 : deResponse (serResponse (⟨r.id, some v, none⟩ : Response D)) = ⟨r.id, some v, none⟩ :=
    C05_response_roundtrip_partial _ hr.1.ok (by intro w hw; cases hw; exact ⟨hv, hk⟩) (by simp) (by simp)
  have hch : ∀ c, chooseId r.id c = (r.id, c) := by
    intro c; unfold chooseId
    cases h : r.id with
    | str t => simp only; rw [if_neg]; intro e; exact hid.1 (by rw [h, e])
    | int i => rfl
    | null => exact absurd h hid.2
  have he : ∀ hh : Bool, hh = true → eventOf (D := D) hh (serRequest r) = .request r := by
    intro hh e; subst e; unfold eventOf; rw [hc1]; simp [hd1]
  have he2 : ∀ hh : Bool, eventOf (D := D) hh (serResponse (⟨r.id, some v, none⟩ : Response D)) = .resolve ⟨r.id, some v, none⟩ := by
    intro hh; unfold eventOf; rw [hc2]; simp [hd2]
  obtain ⟨a, b⟩ := s
  cases x with
  | false =>
    obtain ⟨a1, a2, a3, a4, a5, a6, a7, a8, a9, a10, a11, a12, a13⟩ := a
    obtain ⟨b1, b2, b3, b4, b5, b6, b7, b8, b9, b10, b11, b12, b13⟩ := b
    simp only [Net.get, Bool.not_false] at *
    subst hx hy hh hsend hqx hcx hqy hcy hj
    simp [Net.run, Net.step, Net.upd, Net.get, Net.deliver, Endpoint.send, hch, Net.push, Endpoint.pop, Endpoint.handle,
      he, Endpoint.apply, Net.reply, replyFor, he2]
    exact PTab.complete_outcome (AMap.get_put_self _ _ _)
  | true =>
    obtain ⟨a1, a2, a3, a4, a5, a6, a7, a8, a9, a10, a11, a12, a13⟩ := a
    obtain ⟨b1, b2, b3, b4, b5, b6, b7, b8, b9, b10, b11, b12, b13⟩ := b
    simp only [Net.get, Bool.not_true] at *
    subst hx hy hh hsend hqx hcx hqy hcy hj
    simp [Net.run, Net.step, Net.upd, Net.get, Net.deliver, Endpoint.send, hch, Net.push, Endpoint.pop, Endpoint.handle,
      he, Endpoint.apply, Net.reply, replyFor, he2]
    exact PTab.complete_outcome (AMap.get_put_self _ _ _)

example : let s := (Net.init true true : Net Empty).run [.start false, .start true]
    (s.get false).connected = true ∧ (s.get true).connected = true ∧ (s.get true).hasHandler = true ∧
    (s.get false).sending = [] ∧ (s.get false).queue = [] ∧ (s.get false).current = none ∧
    (s.get true).queue = [] ∧ (s.get true).current = none ∧ (s.get true).jobs = [] ∧
    PlainReq (⟨.int 7, lit "tools/list", some (.obj [(lit "cursor", .str (lit "a"))])⟩ : Request Empty) ∧
    (JVal.obj [(lit "tools", .arr [])] : JVal Empty).Wire ∧ ¬ (JVal.obj [(lit "tools", .arr [])] : JVal Empty).HasKey (lit "error") := by
  refine ⟨rfl, rfl, rfl, rfl, rfl, rfl, rfl, rfl, rfl, ⟨by simp [IdPlain, Int64OK], by simp [PlainText, lit], by decide, ?_⟩, ?_, ?_⟩
  · intro v hv; cases hv; simp [JVal.Wire, WireFields, PlainText, lit]
  · simp [JVal.Wire, WireFields, WireList, PlainText, lit]
  · simp [JVal.HasKey, HasKeyFields, HasKeyList]; decide

/-- A send that fails: the peer was never started. -/
example : let s := (Net.init true true : Net Empty).run [.start false, .send false ⟨.int 1, lit "ping", none⟩]
    (s.get false).sending[0]? = some (lit "1", ⟨.int 1, lit "ping", none⟩) ∧ (s.get true).connected = false ∧
    AMap.get (s.get false).tab.pending (lit "1") = some 0 := by
  refine ⟨by decide +kernel, rfl, by decide +kernel⟩

/-! #### Futures that never complete -/

/-- Everything side `false` can be subjected to after it has closed, short of reopening, closing again or new requests. -/
def AfterOwnClose : Op D → Prop
  | .start x | .closeFlag x | .closeFail x => x = true
  | .send x _ => x = true
  | _ => True

theorem closed_stuck {s : Net D} (h : s.a.connected = false ∧ s.a.current = none ∧ s.a.sending = []) (op : Op D)
    (hop : AfterOwnClose op) :
    ((s.step op).a.connected = false ∧ (s.step op).a.current = none ∧ (s.step op).a.sending = []) ∧
      (s.step op).a.tab = s.a.tab := by
  obtain ⟨h1, h2, h3⟩ := h
  cases op with
  | start x => have : x = true := hop; subst this; exact ⟨⟨h1, h2, h3⟩, rfl⟩
  | closeFlag x => have : x = true := hop; subst this; exact ⟨⟨h1, h2, h3⟩, rfl⟩
  | closeFail x => have : x = true := hop; subst this; exact ⟨⟨h1, h2, h3⟩, rfl⟩
  | send x r => have : x = true := hop; subst this; exact ⟨⟨h1, h2, h3⟩, rfl⟩
  | deliver x i =>
    show ((s.deliver x i).a.connected = false ∧ (s.deliver x i).a.current = none ∧ (s.deliver x i).a.sending = []) ∧ (s.deliver x i).a.tab = s.a.tab
    unfold Net.deliver
    cases x with
    | false => simp only [Net.get, h3]; exact ⟨⟨h1, h2, h3⟩, rfl⟩
    | true =>
      split
      · exact ⟨⟨h1, h2, h3⟩, rfl⟩
      · simp only
        split <;> exact ⟨⟨h1, h2, h3⟩, rfl⟩
  | notify x n =>
    show ((s.notify x n).a.connected = false ∧ (s.notify x n).a.current = none ∧ (s.notify x n).a.sending = []) ∧ (s.notify x n).a.tab = s.a.tab
    unfold Net.notify
    cases x <;> split <;> exact ⟨⟨h1, h2, h3⟩, rfl⟩
  | pop x =>
    cases x with
    | true => exact ⟨⟨h1, h2, h3⟩, rfl⟩
    | false =>
      show (s.a.pop.connected = false ∧ s.a.pop.current = none ∧ s.a.pop.sending = []) ∧ s.a.pop.tab = s.a.tab
      unfold Endpoint.pop
      split
      · rw [if_neg (by rw [h1]; simp)]; exact ⟨⟨h1, h2, h3⟩, rfl⟩
      · exact ⟨⟨h1, h2, h3⟩, rfl⟩
  | handle x =>
    cases x with
    | true => exact ⟨⟨h1, h2, h3⟩, rfl⟩
    | false =>
      show (s.a.handle.connected = false ∧ s.a.handle.current = none ∧ s.a.handle.sending = []) ∧ s.a.handle.tab = s.a.tab
      unfold Endpoint.handle
      rw [h2]; exact ⟨⟨h1, h2, h3⟩, rfl⟩
  | reply x i out =>
    show ((s.reply x i out).a.connected = false ∧ (s.reply x i out).a.current = none ∧ (s.reply x i out).a.sending = []) ∧ (s.reply x i out).a.tab = s.a.tab
    unfold Net.reply
    cases x <;> split
    · exact ⟨⟨h1, h2, h3⟩, rfl⟩
    · simp only; split <;> exact ⟨⟨h1, h2, h3⟩, rfl⟩
    · exact ⟨⟨h1, h2, h3⟩, rfl⟩
    · simp only; split <;> exact ⟨⟨h1, h2, h3⟩, rfl⟩

/-- **C16, completion fails**: `SendRequest` on an endpoint that has been closed is accepted and delivered to the peer, but its
future never completes, whatever the peer does, until the endpoint is started or closed again. -/
theorem C16_send_after_close_counterexample :
    ∃ ops : List (Op Empty), let s := (Net.init true true).run ops
      s.a.connected = false ∧ s.b.queue ≠ [] ∧ (0, lit "1") ∈ s.a.tab.sent ∧
      ∀ more, (∀ op ∈ more, AfterOwnClose op) → 0 ∉ (s.run more).a.tab.outcomes.map (·.1) := by
  refine ⟨[.start false, .start true, .closeFlag false, .closeFail false, .send false ⟨.int 1, lit "ping", none⟩, .deliver false 0],
    by decide +kernel, by decide +kernel, by decide +kernel, ?_⟩
  intro more hmore
  have key : ∀ (s : Net Empty), (s.a.connected = false ∧ s.a.current = none ∧ s.a.sending = []) →
      (s.run more).a.tab = s.a.tab := by
    induction more with
    | nil => intro s _; rfl
    | cons op more ih =>
      intro s hs
      have h := closed_stuck hs op (hmore op (by simp))
      rw [← h.2]
      exact ih (fun o ho => hmore o (by simp [ho])) _ h.1
  rw [key _ ⟨by decide +kernel, by decide +kernel, by decide +kernel⟩]
  decide +kernel

/-- Everything that can happen after the peer (`true`) closed, short of it being restarted or sending again, and of our
side closing or sending new requests. -/
def AfterPeerClose : Op D → Prop
  | .start _ | .closeFail _ | .send _ _ => False
  | .closeFlag _ => True
  | .notify x _ => x = false
  | _ => True

/-- Nothing is on its way to `a`. -/
def PeerSilent (s : Net D) : Prop :=
  s.a.current = none ∧ s.a.queue = [] ∧ s.a.sending = [] ∧ s.b.connected = false ∧ s.b.current = none ∧ s.b.sending = [] ∧ s.b.jobs = []

theorem peer_stuck {s : Net D} (h : PeerSilent s) (op : Op D) (hop : AfterPeerClose op) :
    PeerSilent (s.step op) ∧ (s.step op).a.tab = s.a.tab := by
  obtain ⟨h1, h2, h3, h4, h5, h6, h7⟩ := h
  cases op with
  | start x => exact hop.elim
  | closeFail x => exact hop.elim
  | send x r => exact hop.elim
  | closeFlag x => cases x <;> exact ⟨⟨h1, h2, h3, by first | exact h4 | rfl, h5, h6, h7⟩, rfl⟩
  | deliver x i =>
    show PeerSilent (s.deliver x i) ∧ (s.deliver x i).a.tab = s.a.tab
    unfold Net.deliver
    cases x <;> simp only [Net.get, h3, h6] <;> exact ⟨⟨h1, h2, h3, h4, h5, h6, h7⟩, rfl⟩
  | notify x n =>
    have : x = false := hop
    subst this
    show PeerSilent (s.notify false n) ∧ (s.notify false n).a.tab = s.a.tab
    unfold Net.notify
    simp only [Net.get, Bool.not_false, h4]
    exact ⟨⟨h1, h2, h3, h4, h5, h6, h7⟩, rfl⟩
  | pop x =>
    cases x with
    | false =>
      have : s.a.pop = s.a := by unfold Endpoint.pop; rw [h1, h2]
      show PeerSilent { s with a := s.a.pop } ∧ s.a.pop.tab = s.a.tab
      rw [this]; exact ⟨⟨h1, h2, h3, h4, h5, h6, h7⟩, rfl⟩
    | true =>
      have : s.b.pop = s.b := by
        unfold Endpoint.pop
        split
        · rw [if_neg (by rw [h4]; simp)]
        · rfl
      show PeerSilent { s with b := s.b.pop } ∧ s.a.tab = s.a.tab
      rw [this]; exact ⟨⟨h1, h2, h3, h4, h5, h6, h7⟩, rfl⟩
  | handle x =>
    cases x with
    | false =>
      have : s.a.handle = s.a := by unfold Endpoint.handle; rw [h1]
      show PeerSilent { s with a := s.a.handle } ∧ s.a.handle.tab = s.a.tab
      rw [this]; exact ⟨⟨h1, h2, h3, h4, h5, h6, h7⟩, rfl⟩
    | true =>
      have : s.b.handle = s.b := by unfold Endpoint.handle; rw [h5]
      show PeerSilent { s with b := s.b.handle } ∧ s.a.tab = s.a.tab
      rw [this]; exact ⟨⟨h1, h2, h3, h4, h5, h6, h7⟩, rfl⟩
  | reply x i out =>
    show PeerSilent (s.reply x i out) ∧ (s.reply x i out).a.tab = s.a.tab
    unfold Net.reply
    cases x with
    | true => simp only [Net.get, h7]; exact ⟨⟨h1, h2, h3, h4, h5, h6, h7⟩, rfl⟩
    | false =>
      split
      · exact ⟨⟨h1, h2, h3, h4, h5, h6, h7⟩, rfl⟩
      · simp only [Net.get, Bool.not_false, h4]
        exact ⟨⟨h1, h2, h3, h4, h5, h6, h7⟩, rfl⟩

/-- **C16, completion fails**: a peer that closes after a request reached its queue leaves the request's future incomplete for
ever; the requester is told nothing. -/
theorem C16_peer_close_counterexample :
    ∃ ops : List (Op Empty), let s := (Net.init true true).run ops
      s.a.connected = true ∧ (0, lit "1") ∈ s.a.tab.sent ∧
      ∀ more, (∀ op ∈ more, AfterPeerClose op) → 0 ∉ (s.run more).a.tab.outcomes.map (·.1) := by
  refine ⟨[.start false, .start true, .send false ⟨.int 1, lit "ping", none⟩, .deliver false 0, .closeFlag true, .closeFail true],
    by decide +kernel, by decide +kernel, ?_⟩
  intro more hmore
  have key : ∀ (s : Net Empty), PeerSilent s → (s.run more).a.tab = s.a.tab := by
    induction more with
    | nil => intro s _; rfl
    | cons op more ih =>
      intro s hs
      have h := peer_stuck hs op (hmore op (by simp))
      rw [← h.2]
      exact ih (fun o ho => hmore o (by simp [ho])) _ h.1
  rw [key _ ⟨by decide +kernel, by decide +kernel, by decide +kernel, by decide +kernel, by decide +kernel, by decide +kernel, by decide +kernel⟩]
  decide +kernel

end Verif
