import Verif.Http.Server
import Verif.Http.AuthProps
import Verif.Http.HeadersProps
import Verif.Http.SessionProps

/-!
The HTTP server as a whole: C42 (authentication), C43 (local headers), C82 (sessions of the endpoint) and C83 (answers).
-/

namespace Verif
open Http

variable {D : Type} [DblFmt D]

/-- Nothing ran and nothing changed. -/
def NoEffect (r : Served D) : Prop := r.handled = [] ∧ r.notified = [] ∧ r.reported = 0 ∧ r.ops = []

/-- Every handler call saw this token info. -/
def Saw (r : Served D) (tok : Option TokenInfo) : Prop := (∀ x ∈ r.handled, x.2 = tok) ∧ (∀ x ∈ r.notified, x.2 = tok)

theorem quiet_just (n : Nat) (b : Bytes) : NoEffect (Served.just n b : Served D) := ⟨rfl, rfl, rfl, rfl⟩

theorem quiet_saw {r : Served D} (h : NoEffect r) (tok : Option TokenInfo) : Saw r tok :=
  ⟨fun x hx => (by rw [h.1] at hx; cases hx), fun x hx => (by rw [h.2.1] at hx; cases hx)⟩

theorem routed_saw (tok : Option TokenInfo) (rr : RouteResult D) (reply : Reply) (n : Nat) (ops : List (HsOp D)) : Saw (routed tok rr reply n ops) tok := by
  constructor
  · intro x hx
    obtain ⟨r, _, rfl⟩ := List.mem_map.1 hx
    rfl
  · intro x hx
    obtain ⟨r, _, rfl⟩ := List.mem_map.1 hx
    rfl

theorem handleRpc_saw (h : Option TokenInfo → Handlers D) (req : HttpReq) (tok : Option TokenInfo) : Saw (handleRpc h req tok) tok := by
  unfold handleRpc
  split
  · exact quiet_saw (quiet_just _ _) tok
  · simp only
    split <;> exact routed_saw ..

theorem handleNotify_saw (h : Option TokenInfo → Handlers D) (req : HttpReq) (tok : Option TokenInfo) : Saw (handleNotify h req tok) tok := by
  unfold handleNotify
  split
  · exact quiet_saw (quiet_just _ _) tok
  · exact routed_saw ..

theorem within_saw (h : Option TokenInfo → Handlers D) (s : Hs D) (before : List (HsOp D)) (sid : Bytes) (x : Sess D) (req : HttpReq)
    (tok : Option TokenInfo) : Saw (withinSession h s before sid x req tok) tok := by
  unfold withinSession
  simp only
  split <;> exact routed_saw ..

theorem handleEndpoint_saw (h : Option TokenInfo → Handlers D) (s : Hs D) (drawn : Bytes) (req : HttpReq) (tok : Option TokenInfo) :
    Saw (handleEndpoint h s drawn req tok) tok := by
  unfold handleEndpoint
  split
  · split
    · exact quiet_saw (quiet_just _ _) tok
    · exact ⟨fun x hx => (by cases hx), fun x hx => (by cases hx)⟩
  · split
    · exact quiet_saw (quiet_just _ _) tok
    · split
      · exact within_saw ..
      · split
        · exact quiet_saw (quiet_just _ _) tok
        · split
          · exact quiet_saw (quiet_just _ _) tok
          · split
            · exact quiet_saw (quiet_just _ _) tok
            · exact within_saw ..

/-- A request for an event stream of the session `sid`. -/
def StreamOpened (o : SrvOpts) (s : Hs D) (req : HttpReq) (r : Served D) : Prop :=
  o.streamable = true ∧ req.verb = .get ∧ req.target = o.stream ∧ r.handled = [] ∧ r.notified = [] ∧ r.reported = 0 ∧
    r.ops = [.find req.session, .openStream s.finds.length]

theorem guarded_enabled (a : AuthCfg) (v : Bytes → Verdict) (ha : a.enabled = true) (hv : a.verifier = some v) (now : Int) (req : HttpReq)
    (k : Option TokenInfo → Served D) :
    guarded a now req k = match checkBearer v a.opts now req.authorization with
      | .threw => ⟨none, [], [], 0, []⟩
      | .refused status message => ⟨some (authFailure a.opts status message), [], [], 0, []⟩
      | .passed info => k (some info) := by
  unfold guarded AuthCfg.check
  rw [ha, hv]
  simp only [Bool.not_true, Bool.false_eq_true, if_false]
  cases checkBearer v a.opts now req.authorization <;> rfl

/-- With the check on, the guarded part either did nothing or ran under an admitted token. -/
theorem guarded_cases (a : AuthCfg) (v : Bytes → Verdict) (ha : a.enabled = true) (hv : a.verifier = some v) (now : Int) (req : HttpReq)
    (k : Option TokenInfo → Served D) (hk : ∀ tok, Saw (k tok) tok) :
    NoEffect (guarded a now req k) ∨
    ∃ token info, Bearing req.authorization token ∧ Admits v a.opts.requiredScopes now token info ∧ Saw (guarded a now req k) (some info) := by
  rw [guarded_enabled a v ha hv]
  cases hc : checkBearer v a.opts now req.authorization with
  | threw => exact .inl ⟨rfl, rfl, rfl, rfl⟩
  | refused st m => exact .inl ⟨rfl, rfl, rfl, rfl⟩
  | passed info =>
    obtain ⟨token, h1, h2⟩ := (C42_passes_iff v a.opts now req.authorization info).1 hc
    exact .inr ⟨token, info, h1, h2, hk _⟩

/-- **C42.** With bearer authentication on, serving any request either runs no handler and changes nothing, or opens an event stream, or the
request carries a token that the verifier accepts, unexpired and with all required scopes, and the handlers see what the verifier said of
it. (That opening a stream needs no token is the counterexample below.) -/
theorem C42_guarded_partial (loopback : Bytes → Bool) (o : SrvOpts) (a : AuthCfg) (v : Bytes → Verdict) (ha : a.enabled = true)
    (hv : a.verifier = some v) (now : Int) (h : Option TokenInfo → Handlers D) (s : Hs D) (drawn : Bytes) (req : HttpReq) :
    let r := serve loopback o a now h s drawn req
    NoEffect r ∨ StreamOpened o s req r ∨
      ∃ token info, Bearing req.authorization token ∧ Admits v a.opts.requiredScopes now token info ∧ Saw r (some info) := by
  intro r
  have hr : r = serve loopback o a now h s drawn req := rfl
  clear_value r
  subst hr
  unfold serve
  split
  · next hs =>
    unfold openEvents
    split
    · exact .inl (quiet_just _ _)
    · split
      · exact .inl (quiet_just _ _)
      · split
        · exact .inl (quiet_just _ _)
        · split
          · exact .inl (quiet_just _ _)
          · exact .inr (.inl ⟨hs.1, hs.2.1, hs.2.2, rfl, rfl, rfl, rfl⟩)
  · unfold makeResponse
    split
    · exact .inl (quiet_just _ _)
    · split
      · split <;> exact .inl (quiet_just _ _)
      · split
        · exact (guarded_cases a v ha hv now req _ (handleEndpoint_saw h s drawn req)).imp id .inr
        · split
          · exact .inl (quiet_just _ _)
          · split
            · exact (guarded_cases a v ha hv now req _ (handleRpc_saw h req)).imp id .inr
            · split
              · exact (guarded_cases a v ha hv now req _ (handleNotify_saw h req)).imp id .inr
              · exact .inl (quiet_just _ _)

/-- The requests that reach a handler: POSTs to the RPC and notification paths, and everything to the endpoint path, other than requests
for an event stream and for the metadata. -/
def Reaches (o : SrvOpts) (req : HttpReq) : Prop :=
  ¬ (o.streamable = true ∧ req.verb = .get ∧ req.target = o.stream) ∧ req.target ≠ wellKnown ∧ req.target ≠ o.wellKnownBase ∧
    ((o.streamable = true ∧ req.target = o.endpointPath) ∨ (req.verb = .post ∧ (req.target = o.rpcPath ∨ req.target = o.notifyPath)))

/-- What runs once the checks are passed. -/
def inner (o : SrvOpts) (h : Option TokenInfo → Handlers D) (s : Hs D) (drawn : Bytes) (req : HttpReq) (tok : Option TokenInfo) : Served D :=
  if o.streamable = true ∧ req.target = o.endpointPath then handleEndpoint h s drawn req tok
  else if req.target = o.rpcPath then handleRpc h req tok
  else handleNotify h req tok

theorem serve_reaches (loopback : Bytes → Bool) (o : SrvOpts) (a : AuthCfg) (now : Int) (h : Option TokenInfo → Handlers D) (s : Hs D)
    (drawn : Bytes) (req : HttpReq) (hl : localHeaders loopback o.address req.host req.origin = none) (hreach : Reaches o req) :
    serve loopback o a now h s drawn req = guarded a now req (inner o h s drawn req) := by
  obtain ⟨h1, h2, h3, h4⟩ := hreach
  unfold serve makeResponse inner
  rw [if_neg h1, hl]
  simp only
  rw [if_neg (fun e => e.elim h2 h3)]
  by_cases he : o.streamable = true ∧ req.target = o.endpointPath
  · rw [if_pos he]
    simp only [if_pos he]
  · rcases h4 with h4 | ⟨h4, h5⟩
    · exact absurd h4 he
    · rw [if_neg he, if_neg (by simp [h4])]
      simp only [if_neg he]
      by_cases hr : req.target = o.rpcPath
      · rw [if_pos hr]
        simp only [if_pos hr]
      · rw [if_neg hr, if_pos (h5.resolve_left hr)]
        simp only [if_neg hr]

/-- **C42.** A request that would reach a handler but is refused (`Refusal`) gets exactly the status and message of the refusal, with a
challenge if the metadata URL is set, and nothing runs. -/
theorem C42_refused_reply (loopback : Bytes → Bool) (o : SrvOpts) (a : AuthCfg) (v : Bytes → Verdict) (ha : a.enabled = true)
    (hv : a.verifier = some v) (now : Int) (h : Option TokenInfo → Handlers D) (s : Hs D) (drawn : Bytes) (req : HttpReq)
    (hl : localHeaders loopback o.address req.host req.origin = none) (hreach : Reaches o req) (status : Nat) (message : Bytes)
    (hf : Refusal v a.opts.requiredScopes now req.authorization status message) :
    let r := serve loopback o a now h s drawn req
    NoEffect r ∧ (status = 401 ∨ status = 403) ∧ ∃ www, r.reply = some ⟨status, lit "{\"error\":\"" ++ message ++ lit "\"}", [], www⟩ ∧
      (www = [] ↔ a.opts.resourceMetadataUrl = []) := by
  have hs : status = 401 ∨ status = 403 := by cases hf <;> simp
  simp only
  rw [serve_reaches loopback o a now h s drawn req hl hreach, guarded_enabled a v ha hv, (C42_refusal_iff v a.opts now req.authorization status message).2 hf]
  refine ⟨⟨rfl, rfl, rfl, rfl⟩, hs,
    if a.opts.resourceMetadataUrl = [] then [] else challengeFor status a.opts.resourceMetadataUrl a.opts.requiredScopes message, ?_, ?_⟩
  · simp only [authFailure]
    rcases hs with rfl | rfl <;> rfl
  · by_cases hu : a.opts.resourceMetadataUrl = []
    · simp [hu]
    · simp only [hu, if_false, iff_false]
      unfold challengeFor
      simp [lit]

/-- **C42.** A request that would reach a handler and carries an admitted token is served as it would be without authentication by handlers
that see the token info. -/
theorem C42_admitted (loopback : Bytes → Bool) (o : SrvOpts) (a : AuthCfg) (v : Bytes → Verdict) (ha : a.enabled = true)
    (hv : a.verifier = some v) (now : Int) (h : Option TokenInfo → Handlers D) (s : Hs D) (drawn : Bytes) (req : HttpReq)
    (hl : localHeaders loopback o.address req.host req.origin = none) (hreach : Reaches o req) (token : Bytes) (info : TokenInfo)
    (hb : Bearing req.authorization token) (hadm : Admits v a.opts.requiredScopes now token info) :
    let r := serve loopback o a now h s drawn req
    let r' := serve loopback o { a with enabled := false } now (fun _ => h (some info)) s drawn req
    Saw r (some info) ∧ r.reply = r'.reply ∧ r.ops = r'.ops ∧ r.reported = r'.reported ∧ r.handled.map (·.1) = r'.handled.map (·.1) ∧
      r.notified.map (·.1) = r'.notified.map (·.1) := by
  simp only
  have hoff : guarded { a with enabled := false } now req (inner o (fun _ => h (some info)) s drawn req) =
      inner o (fun _ => h (some info)) s drawn req none := rfl
  rw [serve_reaches loopback o a now h s drawn req hl hreach, serve_reaches loopback o _ now _ s drawn req hl hreach, hoff,
    guarded_enabled a v ha hv, (C42_passes_iff v a.opts now req.authorization info).2 ⟨token, hb, hadm⟩]
  simp only
  have key : ∀ (tok : Option TokenInfo) (rr : RouteResult D) (reply : Reply) (n : Nat) (ops : List (HsOp D)),
      (routed tok rr reply n ops).reply = (routed none rr reply n ops).reply ∧ (routed tok rr reply n ops).ops = (routed none rr reply n ops).ops ∧
      (routed tok rr reply n ops).reported = (routed none rr reply n ops).reported ∧
      (routed tok rr reply n ops).handled.map (·.1) = (routed none rr reply n ops).handled.map (·.1) ∧
      (routed tok rr reply n ops).notified.map (·.1) = (routed none rr reply n ops).notified.map (·.1) := by
    intro tok rr reply n ops
    simp [routed]
  have within : ∀ (before : List (HsOp D)) (sid : Bytes) (x : Sess D),
      let r := withinSession h s before sid x req (some info)
      let r' := withinSession (fun _ => h (some info)) s before sid x req none
      r.reply = r'.reply ∧ r.ops = r'.ops ∧ r.reported = r'.reported ∧ r.handled.map (·.1) = r'.handled.map (·.1) ∧
        r.notified.map (·.1) = r'.notified.map (·.1) := by
    intro before sid x
    simp only
    unfold withinSession
    simp only
    split <;> exact key _ _ _ _ _
  unfold inner
  split
  · refine ⟨handleEndpoint_saw .., ?_⟩
    unfold handleEndpoint
    split
    · split <;> exact ⟨rfl, rfl, rfl, rfl, rfl⟩
    · split
      · exact ⟨rfl, rfl, rfl, rfl, rfl⟩
      · split
        · exact within ..
        · split
          · exact ⟨rfl, rfl, rfl, rfl, rfl⟩
          · split
            · exact ⟨rfl, rfl, rfl, rfl, rfl⟩
            · split
              · exact ⟨rfl, rfl, rfl, rfl, rfl⟩
              · exact within ..
  · split
    · refine ⟨handleRpc_saw .., ?_⟩
      unfold handleRpc
      split
      · exact ⟨rfl, rfl, rfl, rfl, rfl⟩
      · simp only
        split <;> exact key _ _ _ _ _
    · refine ⟨handleNotify_saw .., ?_⟩
      unfold handleNotify
      split
      · exact ⟨rfl, rfl, rfl, rfl, rfl⟩
      · exact key _ _ _ _ _

/-- **C42 does not hold of event streams.** Whatever the verifier, a request without any token opens an event stream of a live session, and
the next message queued for that session goes to it. -/
theorem C42_stream_counterexample (loopback : Bytes → Bool) (o : SrvOpts) (a : AuthCfg) (now : Int) (h : Option TokenInfo → Handlers D)
    (s : Hs D) (drawn : Bytes) (req : HttpReq) (hl : localHeaders loopback o.address req.host req.origin = none)
    (hst : o.streamable = true) (hreq : req.verb = .get ∧ req.target = o.stream ∧ req.authorization = [] ∧ req.version = [])
    (i : Nat) (x : Sess D) (e : Nat × Bytes) (rest : List (Nat × Bytes)) (hlook : s.lookup req.session = some i) (hx : s.objs[i]? = some x)
    (hq : x.queue = e :: rest) (hc : x.closed = false) (hrun : s.running = true) :
    let r := serve loopback o a now h s drawn req
    let s' := (s.run r.ops).step (.pump s.streams.length true)
    (∀ token, ¬ Bearing req.authorization token) ∧ r.reply = some ⟨200, [], req.session, []⟩ ∧
      s'.events = s.events ++ [(s.streams.length, e, true)] := by
  simp only
  have hv : versionAccepted x.version req.version = true := by unfold versionAccepted; rw [hreq.2.2.2]; rfl
  have hserve : serve loopback o a now h s drawn req =
      ⟨some ⟨200, [], req.session, []⟩, [], [], 0, [.find req.session, .openStream s.finds.length]⟩ := by
    unfold serve
    rw [if_pos ⟨hst, hreq.1, hreq.2.1⟩]
    unfold openEvents
    rw [hl, hlook]
    simp only [hx]
    rw [hv]
    rfl
  rw [hserve]
  refine ⟨fun token hb => ?_, rfl, ?_⟩
  · rw [hreq.2.2.1] at hb
    exact ((bearing_iff [] token).1 hb).1 rfl
  · simp only [Hs.run, List.foldl_cons, List.foldl_nil, Hs.step, Hs.find, hlook, Hs.openStream, List.getElem?_concat_length, Hs.pump, hx, hc, hrun, hq]
    rfl

/-! ### C43 -/

/-- **C43.** On a server bound to a loopback address, a request whose Host header names a foreign host, or whose Host is local and whose Origin
names a foreign host, is refused with 403 whatever its verb and target: nothing runs and nothing changes. -/
theorem C43_server_partial (loopback : Bytes → Bool) (o : SrvOpts) (a : AuthCfg) (now : Int) (h : Option TokenInfo → Handlers D) (s : Hs D)
    (drawn : Bytes) (req : HttpReq) (hg : guardsLocal loopback o.address = true) (host : Bytes) (hh : Names host req.host)
    (hforeign : ¬ IsLocal loopback host ∨ IsLocal loopback host ∧ ∃ org, OriginOf org req.origin ∧ ¬ IsLocal loopback org) :
    let r := serve loopback o a now h s drawn req
    NoEffect r ∧ (r.reply = some ⟨403, forbiddenHost, [], []⟩ ∨ r.reply = some ⟨403, forbiddenOrigin, [], []⟩) := by
  obtain ⟨h1, _, h3⟩ := C43_headers_partial loopback o.address hg host req.host hh
  have hl : localHeaders loopback o.address req.host req.origin = some forbiddenHost ∨
      localHeaders loopback o.address req.host req.origin = some forbiddenOrigin := by
    rcases hforeign with hf | ⟨hf, org, ho, hn⟩
    · exact .inl (h1 hf req.origin)
    · exact .inr ((h3 hf org req.origin ho).2 hn)
  have hs : ∀ b, localHeaders loopback o.address req.host req.origin = some b → serve loopback o a now h s drawn req = .just 403 b := by
    intro b hb
    unfold serve openEvents makeResponse
    rw [hb]
    simp
  simp only
  rcases hl with hl | hl
  · rw [hs _ hl]; exact ⟨quiet_just _ _, .inl rfl⟩
  · rw [hs _ hl]; exact ⟨quiet_just _ _, .inr rfl⟩

/-! ### C82: the sessions of the endpoint -/

/-- The check of a request is passed (or off), the handlers seeing `tok`. -/
def Passes (a : AuthCfg) (now : Int) (req : HttpReq) (tok : Option TokenInfo) : Prop :=
  (a.enabled = false ∧ tok = none) ∨ ∃ v token info, a.enabled = true ∧ a.verifier = some v ∧ Bearing req.authorization token ∧
    Admits v a.opts.requiredScopes now token info ∧ tok = some info

/-- A request for the endpoint, let through by the checks. -/
structure AtEndpoint (loopback : Bytes → Bool) (o : SrvOpts) (a : AuthCfg) (now : Int) (req : HttpReq) (tok : Option TokenInfo) : Prop where
  streamable : o.endpointPath ≠ []
  target : req.target = o.endpointPath
  notWellKnown : req.target ≠ wellKnown ∧ req.target ≠ o.wellKnownBase
  local_ : localHeaders loopback o.address req.host req.origin = none
  passes : Passes a now req tok

/-- The body is an initialize request. -/
def Opens (D : Type) [DblFmt D] (body : Bytes) (r : Request D) : Prop := deRequest (D := D) body = some r ∧ r.method = lit "initialize"

theorem endpoint_serve {loopback : Bytes → Bool} {o : SrvOpts} {a : AuthCfg} {now : Int} {req : HttpReq} {tok : Option TokenInfo}
    (he : AtEndpoint loopback o a now req tok) (hverb : req.verb ≠ .get) (h : Option TokenInfo → Handlers D) (s : Hs D) (drawn : Bytes) :
    serve loopback o a now h s drawn req = handleEndpoint h s drawn req tok := by
  have hst : o.streamable = true := by
    unfold SrvOpts.streamable
    cases hp : o.endpointPath with
    | nil => exact absurd hp he.streamable
    | cons => rfl
  have hreach : Reaches o req := ⟨fun hx => hverb hx.2.1, he.notWellKnown.1, he.notWellKnown.2, .inl ⟨hst, he.target⟩⟩
  rw [serve_reaches loopback o a now h s drawn req he.local_ hreach]
  have hin : inner o h s drawn req = handleEndpoint h s drawn req := by
    funext t
    unfold inner
    rw [if_pos ⟨hst, he.target⟩]
  rw [hin]
  rcases he.passes with ⟨h1, rfl⟩ | ⟨v, token, info, h1, h2, h3, h4, rfl⟩
  · unfold guarded AuthCfg.check
    rw [h1]
    rfl
  · rw [guarded_enabled a v h1 h2, (C42_passes_iff v a.opts now req.authorization info).2 ⟨token, h3, h4⟩]

theorem run_answers (s : Hs D) (f o : Nat) (l : List (Response D)) (hf : s.finds[f]? = some (some o)) :
    (s.run (l.map (fun r => HsOp.answer f r))).table = s.table ∧
    (∀ o', o' ≠ o → (s.run (l.map (fun r => HsOp.answer f r))).objs[o']? = s.objs[o']?) ∧
    ∀ x, s.objs[o]? = some x → ∃ y, (s.run (l.map (fun r => HsOp.answer f r))).objs[o]? = some y ∧ y.version = x.version := by
  induction l generalizing s with
  | nil => exact ⟨rfl, fun _ _ => rfl, fun x hx => ⟨x, hx, rfl⟩⟩
  | cons r l ih =>
    obtain ⟨_, h2, h3⟩ := C44_answer_own s f o r hf
    have hf' : (s.step (.answer f r)).finds[f]? = some (some o) := by rw [step_finds]; exact hf
    obtain ⟨i1, i2, i3⟩ := ih (s.step (.answer f r)) hf'
    refine ⟨i1.trans h3, fun o' ho => (i2 o' ho).trans (h2 o' ho), fun x hx => ?_⟩
    obtain ⟨y, h4, h5⟩ := i3 _ (step_obj s (.answer f r) o x hx)
    refine ⟨y, h4, h5.trans ?_⟩
    simp only [objEffect, hf, if_true]
    unfold Sess.resolve
    split <;> rfl

theorem within_fields (h : Option TokenInfo → Handlers D) (s : Hs D) (before : List (HsOp D)) (sid : Bytes) (x : Sess D) (req : HttpReq)
    (tok : Option TokenInfo) :
    ∃ l : List (Response D), (withinSession h s before sid x req tok).ops = before ++ l.map (fun r => HsOp.answer s.finds.length r) ∧
      ∃ status body, (withinSession h s before sid x req tok).reply = some ⟨status, body, sid, []⟩ ∧ (status = 200 ∨ status = 202) := by
  unfold withinSession
  simp only
  split
  · exact ⟨_, rfl, _, _, rfl, .inl rfl⟩
  · exact ⟨_, rfl, _, _, rfl, .inr rfl⟩

/-- **C82.** A POST to the endpoint without a live session is refused with 400, nothing runs and nothing changes, unless it is an initialize
request without a session header. -/
theorem C82_needs_session (loopback : Bytes → Bool) (o : SrvOpts) (a : AuthCfg) (now : Int) (h : Option TokenInfo → Handlers D) (s : Hs D)
    (drawn : Bytes) (req : HttpReq) (tok : Option TokenInfo) (he : AtEndpoint loopback o a now req tok) (hverb : req.verb = .post)
    (hdead : s.lookup req.session = none) (hno : req.session ≠ [] ∨ ∀ r, ¬ Opens D req.body r) :
    serve loopback o a now h s drawn req = .just 400 (lit "{\"error\":\"Missing or invalid session\"}") := by
  rw [endpoint_serve he (by rw [hverb]; intro e; cases e)]
  unfold handleEndpoint
  rw [if_neg (by rw [hverb]; intro e; cases e), if_neg (by rw [hverb]; simp)]
  have hop : opening (D := D) req = none := by
    unfold opening
    cases hd : deRequest (D := D) req.body with
    | none => rfl
    | some r =>
      simp only
      rw [if_neg]
      rintro ⟨h1, h2⟩
      rcases hno with hn | hn
      · exact hn h2
      · exact hn r ⟨hd, h1⟩
  rw [hop, hdead]

/-- The protocol version an initialize request asks for. -/
def AsksFor (r : Request D) (v : Bytes) : Prop :=
  v ≠ [] ∧ ∃ m, r.params = some (.obj m) ∧ AMap.get m (lit "protocolVersion") = some (.str v)

/-- **C82.** An initialize request without a session header opens a session: afterwards the id in the response header names it, with the protocol
version the client asked for, and every other session is as before. -/
theorem C82_opens (loopback : Bytes → Bool) (o : SrvOpts) (a : AuthCfg) (now : Int) (h : Option TokenInfo → Handlers D) (s : Hs D)
    (drawn : Bytes) (req : HttpReq) (tok : Option TokenInfo) (he : AtEndpoint loopback o a now req tok) (hverb : req.verb = .post)
    (hsess : req.session = []) (r : Request D) (hop : Opens D req.body r) :
    let out := serve loopback o a now h s drawn req
    let s' := s.run out.ops
    (∃ status body, out.reply = some ⟨status, body, drawn, []⟩ ∧ (status = 200 ∨ status = 202)) ∧
    s'.lookup drawn = some s.objs.length ∧
    (∀ v, AsksFor r v → ∃ x, s'.objs[s.objs.length]? = some x ∧ x.version = v) ∧
    (∀ sid, sid ≠ drawn → s'.lookup sid = s.lookup sid) ∧
    (∀ o', o' < s.objs.length → s'.objs[o']? = s.objs[o']?) ∧
    Saw out tok := by
  simp only
  have hserve : serve loopback o a now h s drawn req =
      withinSession h s [.create drawn (requestedVersion r), .find drawn] drawn (Sess.fresh (requestedVersion r)) req tok := by
    rw [endpoint_serve he (by rw [hverb]; intro e; cases e)]
    unfold handleEndpoint
    have ho : opening req = some r := by
      unfold opening
      rw [hop.1]
      exact if_pos ⟨hop.2, hsess⟩
    rw [if_neg (by rw [hverb]; intro e; cases e), if_neg (by rw [hverb]; simp), ho]
  rw [hserve]
  obtain ⟨l, h1, h2⟩ := within_fields h s [.create drawn (requestedVersion r), .find drawn] drawn (Sess.fresh (requestedVersion r)) req tok
  rw [h1, hs_run_append]
  have hstate : s.run [.create drawn (requestedVersion r), .find drawn] =
      { s with objs := s.objs ++ [Sess.fresh (requestedVersion r)], table := AMap.put s.table drawn s.objs.length, active := drawn, finds := s.finds ++ [some s.objs.length] } := by
    simp [Hs.run, Hs.step, Hs.create, Hs.find, Hs.lookup, AMap.get_put_self]
  rw [hstate]
  obtain ⟨i1, i2, i3⟩ := run_answers { s with objs := s.objs ++ [Sess.fresh (requestedVersion r)], table := AMap.put s.table drawn s.objs.length, active := drawn, finds := s.finds ++ [some s.objs.length] } s.finds.length s.objs.length l (List.getElem?_concat_length ..)
  refine ⟨h2, ?_, fun v hv => ?_, fun sid hne => ?_, fun o' ho => ?_, within_saw ..⟩
  · unfold Hs.lookup
    rw [i1]
    exact AMap.get_put_self _ _ _
  · obtain ⟨hne, m, hp, hg⟩ := hv
    obtain ⟨y, h4, h5⟩ := i3 _ (List.getElem?_concat_length ..)
    refine ⟨y, h4, h5.trans ?_⟩
    have hrv : requestedVersion r = v := by unfold requestedVersion; rw [hp]; simp only [hg]
    rw [hrv]
    exact if_neg hne
  · unfold Hs.lookup
    rw [i1]
    exact AMap.get_put_ne _ _ hne
  · rw [i2 o' (by omega)]
    exact List.getElem?_append_left ho

/-- **C82.** A POST to the endpoint under a live session whose version header is accepted is served within that session: the response names it,
and no other session changes. With a version header that is not accepted it is refused with 400 and nothing runs. -/
theorem C82_within (loopback : Bytes → Bool) (o : SrvOpts) (a : AuthCfg) (now : Int) (h : Option TokenInfo → Handlers D) (s : Hs D)
    (drawn : Bytes) (req : HttpReq) (tok : Option TokenInfo) (he : AtEndpoint loopback o a now req tok) (hverb : req.verb = .post)
    (hsess : req.session ≠ []) (i : Nat) (x : Sess D) (hlook : s.lookup req.session = some i) (hx : s.objs[i]? = some x) :
    let out := serve loopback o a now h s drawn req
    let s' := s.run out.ops
    (versionAccepted x.version req.version = true →
      (∃ status body, out.reply = some ⟨status, body, req.session, []⟩ ∧ (status = 200 ∨ status = 202)) ∧
      (∀ sid, s'.lookup sid = s.lookup sid) ∧ (∀ o', o' ≠ i → s'.objs[o']? = s.objs[o']?) ∧ Saw out tok) ∧
    (versionAccepted x.version req.version = false → out = .just 400 (lit "{\"error\":\"Unsupported protocol version\"}")) := by
  simp only
  have hserve : serve loopback o a now h s drawn req =
      if !versionAccepted x.version req.version then .just 400 (lit "{\"error\":\"Unsupported protocol version\"}")
      else withinSession h s [.find req.session] req.session x req tok := by
    rw [endpoint_serve he (by rw [hverb]; intro e; cases e)]
    unfold handleEndpoint
    rw [if_neg (by rw [hverb]; intro e; cases e), if_neg (by rw [hverb]; simp)]
    have hop : opening (D := D) req = none := by
      unfold opening
      cases hd : deRequest (D := D) req.body with
      | none => rfl
      | some r =>
        simp only
        rw [if_neg (fun hh => hsess hh.2)]
    rw [hop, hlook]
    simp only [hx]
  rw [hserve]
  constructor
  · intro hv
    rw [hv]
    simp only [Bool.not_true, Bool.false_eq_true, if_false]
    obtain ⟨l, h1, h2⟩ := within_fields h s [.find req.session] req.session x req tok
    rw [h1, hs_run_append]
    have hstate : s.run [.find req.session] = { s with finds := s.finds ++ [some i] } := by
      simp [Hs.run, Hs.step, Hs.find, hlook]
    rw [hstate]
    obtain ⟨i1, i2, _⟩ := run_answers { s with finds := s.finds ++ [some i] } s.finds.length i l (List.getElem?_concat_length ..)
    refine ⟨h2, fun sid => ?_, i2, within_saw ..⟩
    unfold Hs.lookup
    rw [i1]
  · intro hv
    rw [hv]
    rfl

/-- **C82.** A DELETE ends exactly the session it names, if there is one (`C44_remove`); without a session header it is refused. -/
theorem C82_ends (loopback : Bytes → Bool) (o : SrvOpts) (a : AuthCfg) (now : Int) (h : Option TokenInfo → Handlers D) (s : Hs D)
    (drawn : Bytes) (req : HttpReq) (tok : Option TokenInfo) (he : AtEndpoint loopback o a now req tok) (hverb : req.verb = .delete) :
    (req.session ≠ [] → serve loopback o a now h s drawn req = ⟨some ⟨204, [], [], []⟩, [], [], 0, [.remove req.session]⟩) ∧
    (req.session = [] → serve loopback o a now h s drawn req = .just 400 (lit "{\"error\":\"Missing session id\"}")) := by
  rw [endpoint_serve he (by rw [hverb]; intro e; cases e)]
  unfold handleEndpoint
  rw [if_pos hverb]
  exact ⟨fun hn => if_neg hn, fun hn => if_pos hn⟩

/-! ### C83: answers -/

/-- The answer to the one request that ran, if any. -/
def Answered (h : Option TokenInfo → Handlers D) (r : Served D) : Prop :=
  r.handled = [] ∨ ∃ req tok f, r.handled = [(req, tok)] ∧ (h tok).request = some f ∧
    ∃ sid, r.reply = some ⟨200, serResponse (replyFor req (f req)), sid, []⟩

theorem quiet_answered (h : Option TokenInfo → Handlers D) {r : Served D} (hq : NoEffect r) : Answered h r := .inl hq.1

/-- What a routing handled: nothing, or one request whose answer is the reply. -/
theorem route_handled (g : Handlers D) (json : Bytes) :
    ((route g json).requestsHandled = [] ∧ (route g json).reply = none) ∨
    ∃ req f, (route g json).requestsHandled = [req] ∧ g.request = some f ∧ (route g json).reply = some (serResponse (replyFor req (f req))) := by
  have hn : (routeNotification g json).requestsHandled = [] ∧ (routeNotification g json).reply = none := by
    unfold routeNotification
    split <;> exact ⟨rfl, rfl⟩
  unfold route
  split
  · exact .inl ⟨rfl, rfl⟩
  · split
    · split
      · next req _ =>
        split
        · next f hf => exact .inr ⟨req, f, rfl, hf, rfl⟩
        · exact .inl hn
      · exact .inl hn
    · exact .inl hn

theorem handleRpc_answered (h : Option TokenInfo → Handlers D) (req : HttpReq) (tok : Option TokenInfo) : Answered h (handleRpc h req tok) := by
  unfold handleRpc
  split
  · exact quiet_answered h (quiet_just _ _)
  · simp only
    rcases route_handled (h tok) req.body with ⟨h1, h2⟩ | ⟨r, f, h1, h2, h3⟩
    · rw [h2]
      exact .inl (by simp [routed, h1])
    · rw [h3]
      exact .inr ⟨r, tok, f, by simp [routed, h1], h2, [], rfl⟩

theorem within_answered (h : Option TokenInfo → Handlers D) (s : Hs D) (before : List (HsOp D)) (sid : Bytes) (x : Sess D) (req : HttpReq)
    (tok : Option TokenInfo) : Answered h (withinSession h s before sid x req tok) := by
  unfold withinSession
  simp only
  rcases route_handled (h tok) req.body with ⟨h1, h2⟩ | ⟨r, f, h1, h2, h3⟩
  · rw [h2]
    exact .inl (by simp [routed, h1])
  · rw [h3]
    exact .inr ⟨r, tok, f, by simp [routed, h1], h2, sid, rfl⟩

theorem handleEndpoint_answered (h : Option TokenInfo → Handlers D) (s : Hs D) (drawn : Bytes) (req : HttpReq) (tok : Option TokenInfo) :
    Answered h (handleEndpoint h s drawn req tok) := by
  unfold handleEndpoint
  split
  · split
    · exact quiet_answered h (quiet_just _ _)
    · exact .inl rfl
  · split
    · exact quiet_answered h (quiet_just _ _)
    · split
      · exact within_answered ..
      · split
        · exact quiet_answered h (quiet_just _ _)
        · split
          · exact quiet_answered h (quiet_just _ _)
          · split
            · exact quiet_answered h (quiet_just _ _)
            · exact within_answered ..

theorem guarded_answered (h : Option TokenInfo → Handlers D) (a : AuthCfg) (now : Int) (req : HttpReq) (k : Option TokenInfo → Served D)
    (hk : ∀ tok, Answered h (k tok)) : Answered h (guarded a now req k) := by
  unfold guarded
  split
  · exact hk _
  · exact .inl rfl
  · exact .inl rfl
  · exact hk _

/-- **C83.** Serving an HTTP request runs the request handler at most once, and if it ran, the HTTP response is 200 and its body is the answer of the
handler under the id of the request. Missing: the notification path, where a request is handled but its answer dropped. -/
theorem C83_answered_partial (loopback : Bytes → Bool) (o : SrvOpts) (a : AuthCfg) (now : Int) (h : Option TokenInfo → Handlers D) (s : Hs D)
    (drawn : Bytes) (req : HttpReq) (hn : req.target ≠ o.notifyPath) : Answered h (serve loopback o a now h s drawn req) := by
  unfold serve
  split
  · unfold openEvents
    split
    · exact quiet_answered h (quiet_just _ _)
    · split
      · exact quiet_answered h (quiet_just _ _)
      · split
        · exact quiet_answered h (quiet_just _ _)
        · split
          · exact quiet_answered h (quiet_just _ _)
          · exact .inl rfl
  · unfold makeResponse
    split
    · exact quiet_answered h (quiet_just _ _)
    · split
      · split <;> exact quiet_answered h (quiet_just _ _)
      · split
        · exact guarded_answered h a now req _ (handleEndpoint_answered h s drawn req)
        · split
          · exact quiet_answered h (quiet_just _ _)
          · split
            · exact guarded_answered h a now req _ (handleRpc_answered h req)
            · exact quiet_answered h (quiet_just _ _)

/-- **C83.** The id of the answer is the id of the request. -/
theorem C83_own_id (req : Request D) (out : HandlerOutcome D) : (replyFor req out).id = req.id := by
  cases out <;> rfl

/-- **C83.** On the request path every POST that passes the checks is answered with 200 and a JSON-RPC response: under the id of the request if the body
can be read as one, and else the parse error under the null id, with nothing run. -/
theorem C83_rpc_answered (h : Option TokenInfo → Handlers D) (req : HttpReq) (tok : Option TokenInfo) :
    (deRequest (D := D) req.body = none → NoEffect (handleRpc h req tok) ∧ ∃ e : Response D, (handleRpc h req tok).reply = some ⟨200, serResponse e, [], []⟩ ∧
      e.id = .null ∧ e.result = none ∧ e.error = some (.obj [(lit "code", .int (-32700)), (lit "message", .str (lit "Parse error"))])) ∧
    (∀ r, deRequest (D := D) req.body = some r → ∃ resp : Response D, (handleRpc h req tok).reply = some ⟨200, serResponse resp, [], []⟩ ∧ resp.id = r.id) := by
  constructor
  · intro hd
    unfold handleRpc
    rw [hd]
    exact ⟨quiet_just _ _, ⟨.null, none, some (mkErrorObj Code.parseError (lit "Parse error") none)⟩, rfl, rfl, rfl, rfl⟩
  · intro r hd
    unfold handleRpc
    rw [hd]
    simp only
    split
    · rename_i body hb
      unfold route at hb
      rw [hd] at hb
      simp only at hb
      have hn : (routeNotification (h tok) req.body).reply = none := by unfold routeNotification; split <;> rfl
      split at hb
      · cases hb
      · split at hb
        · split at hb
          · cases hb
            exact ⟨_, rfl, C83_own_id r _⟩
          · rw [hn] at hb; cases hb
        · rw [hn] at hb; cases hb
    · exact ⟨_, rfl, rfl⟩

example : deRequest (D := Empty) (lit "{") = none ∧ deRequest (D := Empty) (lit "{\"id\":1,\"method\":\"a\"}") = some ⟨.int 1, lit "a", none⟩ :=
  ⟨by decide +kernel, by decide +kernel⟩

/-- The plain server of the examples: no endpoint, no authentication. -/
def plainOpts : SrvOpts := ⟨lit "0.0.0.0", lit "/mcp/rpc", lit "/mcp/notify", [], []⟩

/-- **C83 does not hold of the notification path.** A request posted there runs the request handler, whatever it answers, and the client gets `{}`. -/
theorem C83_notify_counterexample (f : Request Empty → HandlerOutcome Empty) (now : Int) (s : Hs Empty) (drawn : Bytes) :
    let body := lit "{\"jsonrpc\":\"2.0\",\"id\":7,\"method\":\"tools/call\"}"
    let r := serve (fun _ => false) plainOpts AuthCfg.init now (fun _ => ⟨some f, true, true⟩) s drawn
      ⟨.post, lit "/mcp/notify", [], [], [], [], [], body⟩
    r.handled.map (·.1) = [⟨.int 7, lit "tools/call", none⟩] ∧ r.reply = some ⟨200, lit "{}", [], []⟩ := by
  simp only
  have h1 : localHeaders (fun _ => false) plainOpts.address [] [] = none := by decide +kernel
  have hd : (deNotification (D := Empty) (lit "{\"jsonrpc\":\"2.0\",\"id\":7,\"method\":\"tools/call\"}")).isSome = true := by decide +kernel
  have hr : (hasTopLevelKey (lit "{\"jsonrpc\":\"2.0\",\"id\":7,\"method\":\"tools/call\"}") (lit "result") ||
      hasTopLevelKey (lit "{\"jsonrpc\":\"2.0\",\"id\":7,\"method\":\"tools/call\"}") (lit "error")) = false := by decide +kernel
  have hm : (containsSub (lit "\"method\"") (lit "{\"jsonrpc\":\"2.0\",\"id\":7,\"method\":\"tools/call\"}") &&
      hasTopLevelKey (lit "{\"jsonrpc\":\"2.0\",\"id\":7,\"method\":\"tools/call\"}") (lit "id")) = true := by decide +kernel
  have hq : deRequest (D := Empty) (lit "{\"jsonrpc\":\"2.0\",\"id\":7,\"method\":\"tools/call\"}") = some ⟨.int 7, lit "tools/call", none⟩ := by
    decide +kernel
  have hs : serve (fun _ => false) plainOpts AuthCfg.init now (fun _ => ⟨some f, true, true⟩) s drawn
      ⟨.post, lit "/mcp/notify", [], [], [], [], [], lit "{\"jsonrpc\":\"2.0\",\"id\":7,\"method\":\"tools/call\"}"⟩ =
      handleNotify (fun _ => ⟨some f, true, true⟩) ⟨.post, lit "/mcp/notify", [], [], [], [], [],
        lit "{\"jsonrpc\":\"2.0\",\"id\":7,\"method\":\"tools/call\"}"⟩ none := by
    unfold serve makeResponse
    rw [if_neg (by decide), h1]
    simp only
    rw [if_neg (by decide), if_neg (by decide), if_neg (by decide), if_neg (by decide), if_pos (by decide)]
    rfl
  rw [hs]
  unfold handleNotify
  simp only
  cases hn : deNotification (D := Empty) (lit "{\"jsonrpc\":\"2.0\",\"id\":7,\"method\":\"tools/call\"}") with
  | none => rw [hn] at hd; cases hd
  | some n =>
    simp only
    refine ⟨?_, rfl⟩
    unfold routed route
    rw [hr, hm, hq]
    rfl

/-! ### Examples -/

/-- A request that reaches a handler, refused for want of a token. -/
example : Reaches plainOpts ⟨.post, lit "/mcp/rpc", lit "localhost", [], [], [], [], lit "{}"⟩ ∧
    Refusal (fun _ => .refused []) [] 5 [] 401 (lit "no bearer token") := by
  refine ⟨⟨by decide, by decide, by decide, .inr ⟨rfl, .inl rfl⟩⟩, .noToken (fun token hb => ((bearing_iff [] token).1 hb).1 rfl)⟩

/-- A request at the endpoint, with no authentication. -/
example : AtEndpoint (fun _ => false) ⟨lit "0.0.0.0", lit "/rpc", lit "/notify", lit "/mcp", []⟩ AuthCfg.init 0
    ⟨.post, lit "/mcp", [], [], [], [], [], lit "{\"jsonrpc\":\"2.0\",\"id\":1,\"method\":\"initialize\"}"⟩ none ∧
    Opens Empty (lit "{\"jsonrpc\":\"2.0\",\"id\":1,\"method\":\"initialize\"}") ⟨.int 1, lit "initialize", none⟩ := by
  refine ⟨⟨by decide, rfl, ⟨by decide, by decide⟩, by decide +kernel, .inl ⟨rfl, rfl⟩⟩, by decide +kernel, rfl⟩

/-- A live session with a message waiting. -/
example : ∃ s : Hs Empty, ∃ x e, s.lookup (lit "mcp-http-1000") = some 0 ∧ s.objs[0]? = some x ∧ x.queue = [e] ∧ x.closed = false ∧ s.running = true := by
  refine ⟨Hs.init.run [.create (lit "mcp-http-1000") [], .take (.note ⟨lit "notifications/x", none⟩), .advance 0], _, _, ?_, rfl, rfl, ?_, ?_⟩ <;>
    decide +kernel

/-- Foreign hosts. -/
example : guardsLocal (fun a => decide (a = lit "127.0.0.1")) (lit "127.0.0.1") = true ∧ Names (lit "evil.com") (lit "evil.com") ∧
    ¬ IsLocal (fun a => decide (a = lit "127.0.0.1")) (lit "evil.com") := by
  refine ⟨by decide, ?_, by unfold IsLocal; decide⟩
  exact .plain _ ⟨by decide, by decide, by decide⟩

end Verif
