import Verif.Http.Link
import Verif.Http.ServerProps
import Verif.Http.SendProps
import Verif.InMemory.Props

/-! Helper lemmas: what the server makes of the texts of the client, and the client of the texts of the server. -/

set_option linter.unusedSectionVars false

namespace Verif

open Http
open InMemory (PlainReq PlainNote PlainOut replyFor_classified replyFor_id)

variable {D : Type} [DblFmt D]

/-! ### Replies that answer nothing -/

/-- A body that names no request: empty, `{}`, or a response without an id. -/
def QuietBody (D : Type) [DblFmt D] (b : Bytes) : Prop :=
  b = [] ∨ b = lit "{}" ∨ (classify b = .response ∧ keyText (deResponse (D := D) b).id = [])

theorem quiet_errorText {m : Bytes} (hm : PlainText m) : QuietBody D (lit "{\"error\":\"" ++ m ++ lit "\"}") := by
  have e : lit "{\"error\":\"" ++ m ++ lit "\"}" = '{' :: '"' :: (lit "error" ++ '"' :: ':' :: '"' :: (m ++ '"' :: ['}'])) := by
    simp [lit]
  rw [e]
  refine .inr (.inr ⟨?_, ?_⟩)
  · unfold classify
    rw [if_pos]
    rw [hasTopLevelKey_of_brace, hasTopLevelKey_of_brace, scanTop_member_eq (lit "error") _ (plain_lit _ (by decide)), Bool.or_true]
  · have : afterKey (lit "id") ('{' :: '"' :: (lit "error" ++ '"' :: ':' :: '"' :: (m ++ '"' :: ['}']))) = none := by
      rw [afterKey_skip (by decide), afterKey_member (by decide) (by intro c hc; revert c; decide) (by decide),
        afterKey_quoted (by decide) hm.noQuote (.brace _), afterKey_skip (by decide), afterKey_nil]
    unfold deResponse getId
    simp only [this]
    rfl

theorem quiet_nullError (code : Int) (m : Bytes) : QuietBody D (nullError (D := D) code m) := by
  refine .inr (.inr ⟨C15_response_classified _ trivial (fun v hv => (by cases hv)) (.inr (by simp)), ?_⟩)
  unfold deResponse nullError
  simp only
  rw [response_id (⟨.null, none, some (mkErrorObj code m none)⟩ : Response D) trivial]
  rfl

theorem errorText_lit (s : String) (m : Bytes) (h : lit s = lit "{\"error\":\"" ++ m ++ lit "\"}") (hm : PlainText m) : QuietBody D (lit s) := by
  rw [h]; exact quiet_errorText hm

/-- The verifier of the server gives reasons without quotes and backslashes. -/
def PlainReasons (a : AuthCfg) : Prop := ∀ v token m, a.verifier = some v → v token = .refused m → PlainText m

theorem plain_dec {s : Bytes} (h : (s.all (fun c => decide (c ≠ '"' ∧ c ≠ '\\'))) = true) : PlainText s := by
  intro c hc
  have := List.all_eq_true.1 h c hc
  simpa using this

theorem refusal_plain {a : AuthCfg} (ha : PlainReasons a) {now : Int} {hd : Bytes} {st : Nat} {m : Bytes}
    (h : a.check now hd = some (.refused st m)) : PlainText m := by
  unfold AuthCfg.check at h
  split at h
  · cases h
  · split at h
    · cases h
    · rename_i v hv
      simp only [Option.some.injEq] at h
      unfold checkBearer at h
      split at h
      · cases h; exact plain_dec (by decide)
      · split at h
        · cases h; exact plain_dec (by decide)
        · split at h
          · cases h; exact plain_dec (by decide)
          · split at h
            · cases h
            · rename_i err he
              cases h
              split
              · exact plain_dec (by decide)
              · exact ha v _ _ hv he
            · unfold checkInfo at h
              split at h
              · cases h; exact plain_dec (by decide)
              · split at h
                · cases h; exact plain_dec (by decide)
                · split at h
                  · cases h; exact plain_dec (by decide)
                  · cases h

/-- What serving a POST can amount to. -/
def PostServed (h : Option TokenInfo → Handlers D) (body : Bytes) (out : Served D) : Prop :=
  (out.handled = [] ∧ ∀ rep, out.reply = some rep → QuietBody D rep.body) ∨
  ∃ tok rep, out.handled = (route (h tok) body).requestsHandled.map (fun r => (r, tok)) ∧ out.reply = some rep ∧
    ((route (h tok) body).reply = none ∨ (route (h tok) body).reply = some rep.body ∨ QuietBody D rep.body)

theorem served_just (h : Option TokenInfo → Handlers D) (body : Bytes) (n : Nat) {b : Bytes} (hb : QuietBody D b) :
    PostServed h body (Served.just n b : Served D) :=
  .inl ⟨rfl, fun rep hr => by simp only [Served.just, Option.some.injEq] at hr; subst hr; exact hb⟩

theorem served_guarded (h : Option TokenInfo → Handlers D) (body : Bytes) {a : AuthCfg} (ha : PlainReasons a) (now : Int) (req : HttpReq)
    (k : Option TokenInfo → Served D) (hk : ∀ tok, PostServed h body (k tok)) : PostServed h body (guarded a now req k) := by
  unfold guarded
  split
  · exact hk _
  · exact .inl ⟨rfl, fun rep hr => by cases hr⟩
  · rename_i st m hc
    refine .inl ⟨rfl, fun rep hr => ?_⟩
    simp only [Option.some.injEq] at hr
    subst hr
    exact quiet_errorText (refusal_plain ha hc)
  · exact hk _

theorem served_within (h : Option TokenInfo → Handlers D) (s : Hs D) (before : List (HsOp D)) (sid : Bytes) (x : Sess D) (req : HttpReq)
    (tok : Option TokenInfo) : PostServed h req.body (withinSession h s before sid x req tok) := by
  unfold withinSession
  simp only
  split
  · rename_i b hb
    exact .inr ⟨tok, _, rfl, rfl, .inr (.inl hb)⟩
  · rename_i hb
    exact .inr ⟨tok, _, rfl, rfl, .inl hb⟩

theorem quietE (s : String) (m : Bytes) (h : lit s = lit "{\"error\":\"" ++ m ++ lit "\"}") (hm : (m.all (fun c => decide (c ≠ '"' ∧ c ≠ '\\'))) = true) :
    QuietBody D (lit s) := errorText_lit s m h (plain_dec hm)

theorem served_endpoint (h : Option TokenInfo → Handlers D) (s : Hs D) (drawn : Bytes) (req : HttpReq) (hv : req.verb = .post) (tok : Option TokenInfo) :
    PostServed h req.body (handleEndpoint h s drawn req tok) := by
  unfold handleEndpoint
  rw [if_neg (by rw [hv]; intro e; cases e), if_neg (by rw [hv]; simp)]
  split
  · exact served_within ..
  · split
    · exact served_just _ _ _ (quietE _ (lit "Missing or invalid session") (by decide) (by decide))
    · split
      · exact served_just _ _ _ (quietE _ (lit "Missing or invalid session") (by decide) (by decide))
      · split
        · exact served_just _ _ _ (quietE _ (lit "Unsupported protocol version") (by decide) (by decide))
        · exact served_within ..

theorem served_rpc (h : Option TokenInfo → Handlers D) (req : HttpReq) (tok : Option TokenInfo) : PostServed h req.body (handleRpc h req tok) := by
  unfold handleRpc
  split
  · exact served_just _ _ _ (quiet_nullError _ _)
  · simp only
    split
    · rename_i b hb
      exact .inr ⟨tok, _, rfl, rfl, .inr (.inl hb)⟩
    · rename_i hb
      exact .inr ⟨tok, _, rfl, rfl, .inl hb⟩

theorem served_notify (h : Option TokenInfo → Handlers D) (req : HttpReq) (tok : Option TokenInfo) : PostServed h req.body (handleNotify h req tok) := by
  unfold handleNotify
  split
  · exact served_just _ _ _ (quiet_nullError _ _)
  · exact .inr ⟨tok, _, rfl, rfl, .inr (.inr (.inr (.inl rfl)))⟩

theorem localHeaders_quiet {loopback : Bytes → Bool} {address host origin b : Bytes} (h : localHeaders loopback address host origin = some b) : QuietBody D b := by
  unfold localHeaders at h
  split at h
  · cases h
  · split at h
    · cases h; exact quietE _ (lit "Forbidden Host header") (by decide) (by decide)
    · split at h
      · cases h
      · split at h
        · cases h; exact quietE _ (lit "Forbidden Origin header") (by decide) (by decide)
        · split at h
          · cases h
          · cases h; exact quietE _ (lit "Forbidden Origin header") (by decide) (by decide)

theorem served_post (loopback : Bytes → Bool) (o : SrvOpts) {a : AuthCfg} (ha : PlainReasons a) (now : Int) (h : Option TokenInfo → Handlers D)
    (s : Hs D) (drawn : Bytes) (req : HttpReq) (hv : req.verb = .post) : PostServed h req.body (serve loopback o a now h s drawn req) := by
  unfold serve
  rw [if_neg (by rw [hv]; rintro ⟨-, e, -⟩; cases e)]
  unfold makeResponse
  split
  · rename_i b hb
    exact served_just _ _ _ (localHeaders_quiet hb)
  · split
    · rw [if_pos (by rw [hv]; intro e; cases e)]
      exact served_just _ _ _ (quietE _ (lit "GET required") (by decide) (by decide))
    · split
      · exact served_guarded h _ ha now req _ (served_endpoint h s drawn req hv)
      · rw [if_neg (by rw [hv]; simp)]
        split
        · exact served_guarded h _ ha now req _ (served_rpc h req)
        · split
          · exact served_guarded h _ ha now req _ (served_notify h req)
          · exact served_just _ _ _ (quietE _ (lit "Not found") (by decide) (by decide))

/-- Serving does not make calls of the server. -/
theorem served_takes (loopback : Bytes → Bool) (o : SrvOpts) (a : AuthCfg) (now : Int) (h : Option TokenInfo → Handlers D)
    (s : Hs D) (drawn : Bytes) (req : HttpReq) : ∀ m, HsOp.take m ∉ (serve loopback o a now h s drawn req).ops := by
  have just : ∀ n b m, HsOp.take m ∉ (Served.just n b : Served D).ops := fun n b m hm => (by cases hm)
  have within : ∀ (before : List (HsOp D)) sid x tok m, HsOp.take m ∉ before → HsOp.take m ∉ (withinSession h s before sid x req tok).ops := by
    intro before sid x tok m hb hm
    unfold withinSession at hm
    simp only at hm
    split at hm <;>
    · simp only [routed] at hm
      rcases List.mem_append.1 hm with h1 | h1
      · exact hb h1
      · obtain ⟨_, _, h2⟩ := List.mem_map.1 h1
        cases h2
  have guard : ∀ k : Option TokenInfo → Served D, (∀ tok m, HsOp.take m ∉ (k tok).ops) → ∀ m, HsOp.take m ∉ (guarded a now req k).ops := by
    intro k hk m
    unfold guarded
    split
    · exact hk _ _
    · intro hm; cases hm
    · intro hm; cases hm
    · exact hk _ _
  intro m
  unfold serve
  split
  · unfold openEvents
    split
    · exact just _ _ _
    · split
      · exact just _ _ _
      · split
        · exact just _ _ _
        · split
          · exact just _ _ _
          · intro hm; simp at hm
  · unfold makeResponse
    split
    · exact just _ _ _
    · split
      · split <;> exact just _ _ _
      · split
        · refine guard _ (fun tok m => ?_) m
          unfold handleEndpoint
          split
          · split
            · exact just _ _ _
            · intro hm; simp at hm
          · split
            · exact just _ _ _
            · split
              · exact within _ _ _ _ _ (by simp)
              · split
                · exact just _ _ _
                · split
                  · exact just _ _ _
                  · split
                    · exact just _ _ _
                    · exact within _ _ _ _ _ (by simp)
        · split
          · exact just _ _ _
          · split
            · refine guard _ (fun tok m => ?_) m
              unfold handleRpc
              split
              · exact just _ _ _
              · simp only
                split <;> (intro hm; cases hm)
            · split
              · refine guard _ (fun tok m => ?_) m
                unfold handleNotify
                split
                · exact just _ _ _
                · intro hm; cases hm
              · exact just _ _ _

/-! ### Requests, answers and messages of the server -/

/-- Handlers whose answers survive the wire format (C05): values of the class of C02, no member `error` inside a result and no member
`result` inside an error, and a result or an error at all. -/
def PlainAnswer : HandlerOutcome D → Prop
  | .resp r => (∀ v, r.result = some v → v.Wire ∧ ¬ v.HasKey (lit "error")) ∧ (∀ v, r.error = some v → v.Wire) ∧
      (r.result = none → ∀ v, r.error = some v → ¬ v.HasKey (lit "result")) ∧ (r.result ≠ none ∨ r.error ≠ none)
  | _ => True

theorem PlainAnswer.out {out : HandlerOutcome D} (h : PlainAnswer out) : PlainOut out := by
  cases out with
  | resp r => exact ⟨fun v hv => (h.1 v hv).1, h.2.2.2⟩
  | nul => trivial
  | threw m => trivial

theorem answer_read {q : Request D} (hq : IdPlain q.id) {out : HandlerOutcome D} (ho : PlainAnswer out) :
    deResponse (serResponse (replyFor q out)) = replyFor q out := by
  have err : ∀ m : Bytes, (mkErrorObj (D := D) Code.internalError m none).Wire ∧ ¬ (mkErrorObj (D := D) Code.internalError m none).HasKey (lit "result") := by
    intro m
    simp [mkErrorObj, JVal.Wire, WireFields, PlainText, Int64OK, Code.internalError, JVal.HasKey, HasKeyFields, lit]
  cases out with
  | resp r => exact C05_response_roundtrip_partial _ hq.ok ho.1 ho.2.1 ho.2.2.1
  | nul =>
    exact C05_response_roundtrip_partial _ hq.ok (fun v hv => (by cases hv)) (fun v hv => (by cases hv; exact (err _).1)) (fun _ v hv => (by cases hv; exact (err _).2))
  | threw m =>
    exact C05_response_roundtrip_partial _ hq.ok (fun v hv => (by cases hv)) (fun v hv => (by cases hv; exact (err _).1)) (fun _ v hv => (by cases hv; exact (err _).2))

theorem route_of_request (g : Handlers D) (f : Request D → HandlerOutcome D) (hf : g.request = some f) {json : Bytes} {q : Request D}
    (hc : classify json = .request) (hd : deRequest json = some q) : route g json = ⟨some (serResponse (replyFor q (f q))), [], [q]⟩ := by
  unfold classify at hc
  split at hc
  · cases hc
  · next h1 =>
    split at hc
    · next h2 =>
      split at hc
      · next h3 =>
        unfold route
        rw [if_neg h1, if_pos (by simp [h2, h3])]
        simp only [hd, hf]
      · cases hc
    · cases hc

theorem route_request (g : Handlers D) (f : Request D → HandlerOutcome D) (hf : g.request = some f) {q : Request D} (hq : PlainReq q) :
    route g (serRequest q) = ⟨some (serResponse (replyFor q (f q))), [], [q]⟩ :=
  route_of_request g f hf (C15_request_classified q hq.1 hq.2.1 hq.2.2.2) (C04_request_roundtrip_wire q hq.1.ok hq.2.1.noQuote hq.2.2.1 hq.2.2.2)

theorem route_note (g : Handlers D) {n : Notification D} (hn : PlainNote n) :
    (route g (serNotification n)).reply = none ∧ (route g (serNotification n)).requestsHandled = [] := by
  have hc := C15_notification_classified n hn.1 hn.2.2
  have h1 : ¬ (route g (serNotification n)).reply.isSome = true := fun h => by
    have := (C14_reply_iff_handled g (serNotification n)).2.2 h
    rw [hc] at this; cases this
  have h2 : (route g (serNotification n)).reply = none := by simpa using h1
  refine ⟨h2, ?_⟩
  rcases route_handled g (serNotification n) with ⟨h3, -⟩ | ⟨r, f, -, -, h3⟩
  · exact h3
  · rw [h2] at h3; cases h3

theorem route_response (g : Handlers D) {b : Bytes} (hc : classify b = .response) :
    (route g b).reply = none ∧ (route g b).requestsHandled = [] := by
  rw [C14_response_silent g b hc]; exact ⟨rfl, rfl⟩

/-- What the client makes of a quiet body: nothing but an error of its own. -/
theorem incoming_quiet (h : HtHandlers D) (s : Ht D) {b : Bytes} (hb : QuietBody D b) (hne : b ≠ []) {key : Bytes} (hk : key ≠ []) :
    ∃ text, (text = lit "Mismatched response id" ∨ text = lit "Invalid/empty HTTP response") ∧
      (s.incoming h b key).tab = s.tab.complete key (localError key text) ∧ (route h.wrap b).reply = none := by
  rw [incoming_tab]
  rcases hb with hb | hb | ⟨hc, hi⟩
  · exact absurd hb hne
  · subst hb
    have hc : classify (lit "{}") = .unknown := by decide +kernel
    have hr : (route h.wrap (lit "{}")).reply = none := by
      cases hr : (route h.wrap (lit "{}")).reply with
      | none => rfl
      | some x =>
        have := (C14_reply_iff_handled h.wrap (lit "{}")).2.2 (by rw [hr]; rfl)
        rw [hc] at this; cases this
    refine ⟨_, .inr rfl, ?_, hr⟩
    rw [hr, if_neg (by rw [hc]; intro e; cases e), if_neg (by simp), if_neg hk]
    rfl
  · refine ⟨_, .inl rfl, ?_, (route_response h.wrap hc).1⟩
    rw [if_pos hc]
    unfold Ht.deliver
    rw [if_neg (by rw [hi]; simp), if_pos hk]
    rfl

/-- What the client makes of the answer to a request. -/
theorem incoming_answer (h : HtHandlers D) (s : Ht D) {q : Request D} (hq : IdPlain q.id) {out : HandlerOutcome D} (ho : PlainAnswer out)
    (hk : keyText q.id ≠ []) :
    (∃ n, AMap.get s.tab.pending (keyText q.id) = some n ∧
      (s.incoming h (serResponse (replyFor q out)) (keyText q.id)).tab = s.tab.complete (keyText q.id) (.resp (replyFor q out))) ∨
    (AMap.get s.tab.pending (keyText q.id) = none ∧ (s.incoming h (serResponse (replyFor q out)) (keyText q.id)).tab = s.tab) := by
  have hc := replyFor_classified hq ho.out
  rw [incoming_tab, if_pos hc, answer_read hq ho]
  unfold Ht.deliver
  rw [replyFor_id]
  cases hg : AMap.get s.tab.pending (keyText q.id) with
  | some n =>
    left
    rw [if_pos ⟨hk, rfl⟩]
    exact ⟨n, rfl, rfl⟩
  | none =>
    right
    rw [if_neg (by simp), if_pos hk]
    refine ⟨rfl, ?_⟩
    show s.tab.complete _ _ = _
    unfold PTab.complete
    rw [hg]

end Verif
