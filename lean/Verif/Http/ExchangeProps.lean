import Verif.Http.Exchange
import Verif.Http.Server
import Verif.Http.ChallengeProps

/-!
C110: every request of an HTTP client carries the credentials in force, and what the server says of them can be looked up.
-/

namespace Verif
open Http

/-! ### Specification -/

/-- The value of the last field of a name. -/
def lastOf (hs : Fields) (name : Bytes) : Option Bytes := (hs.reverse.find? (fun x => sameName x.1 name)).map (·.2)

/-- What a request has to carry: with the session id, the credentials (if any) and the body it is made for. -/
structure Bears (o : XOpts) (session : Bytes) (auth : Option Bytes) (verb : XVerb) (body : Bytes) (f : Fields) : Prop where
  host : f.look (lit "Host") = o.host ∨ (o.https = true ∧ f.look (lit "Host") = o.serverName)
  named : o.https = true → o.serverName ≠ [] → f.look (lit "Host") = o.serverName
  unnamed : o.serverName = [] → f.look (lit "Host") = o.host
  auth : f.look (lit "Authorization") = auth.getD []
  session : o.streamable = true → f.look (lit "Mcp-Session-Id") = session
  version : o.streamable = true → f.look (lit "MCP-Protocol-Version") = currentVersion
  plain : o.streamable = false → f.look (lit "Mcp-Session-Id") = [] ∧ f.look (lit "MCP-Protocol-Version") = []
  json : verb = .post → f.look (lit "Content-Type") = lit "application/json" ∧ f.look (lit "Content-Length") = natDec body.length
  accept : f.look (lit "Accept") = match verb with
    | .post => if o.streamable then lit "application/json, text/event-stream" else lit "application/json"
    | .delete => lit "application/json"
    | .get => lit "text/event-stream"

/-- Credentials of the application that set nothing but the Authorization field. -/
def OnlyAuth : Cred → Prop
  | .own _ hs => ∀ h ∈ hs, sameName h.1 (lit "Authorization") = true
  | _ => True

/-- `SetAuth` in any of its forms. -/
def SetsAuth : XOp → Prop
  | .setShared _ => True
  | .setRef _ => True
  | .setNone => True
  | _ => False

/-- The Authorization field of a token. -/
def bearerOf (t : Bytes) : Option Bytes := if t = [] then none else some (lit "Bearer " ++ t)

/-- An operation on one exchange. -/
def Concerns (k : Nat) : XOp → Prop
  | .fetched j _ => j = k
  | .send j => j = k
  | .answer j _ => j = k
  | .fail j => j = k
  | _ => False

/-- An object the transport may still use: the credentials in force, and those an exchange waits for. -/
def Needed (s : Xt) (i : Nat) : Prop := s.inUse = some i ∨ ∃ v f b c, .waiting v f b i c ∈ s.xs

/-- The rule of use: let go of an object only when the transport owns it or does not need it, and give other credentials only when the ones that
belong to the transport alone are not waited for. -/
def Careful (s : Xt) : XOp → Prop
  | .drop i => s.strong = some i ∨ ¬ Needed s i
  | .setShared j => ∀ i, s.strong = some i → s.held i = true ∨ i = j ∨ ∀ v f b c, .waiting v f b i c ∉ s.xs
  | .setRef _ => ∀ i, s.strong = some i → s.held i = true ∨ ∀ v f b c, .waiting v f b i c ∉ s.xs
  | .setNone => ∀ i, s.strong = some i → s.held i = true ∨ ∀ v f b c, .waiting v f b i c ∉ s.xs
  | _ => True

/-! ### Fields -/

theorem sameName_refl (a : Bytes) : sameName a a = true := by simp [sameName]

theorem sameName_comm (a b : Bytes) : sameName a b = sameName b a := by simp [sameName, eq_comm]

theorem sameName_trans {a b c : Bytes} (h : sameName a b = true) : sameName a c = sameName b c := by
  simp only [sameName, decide_eq_true_eq] at h
  simp [sameName, h]

theorem look_put (f : Fields) (n v m : Bytes) : (f.put n v).look m = if sameName n m then v else f.look m := by
  unfold Fields.put Fields.look
  rw [List.find?_append]
  split
  · rename_i h
    have : (f.filter (fun x => !sameName x.1 n)).find? (fun x => sameName x.1 m) = none := by
      rw [List.find?_eq_none]
      intro x hx hs
      obtain ⟨-, hx⟩ := List.mem_filter.1 hx
      rw [sameName_comm, ← sameName_trans h, sameName_comm] at hs
      rw [hs] at hx
      simp at hx
    rw [this]
    simp [h]
  · rename_i h
    have h1 : ([(n, v)] : Fields).find? (fun x => sameName x.1 m) = none := by simp [h]
    have h2 : (f.filter (fun x => !sameName x.1 n)).find? (fun x => sameName x.1 m) = f.find? (fun x => sameName x.1 m) := by
      clear h1
      induction f with
      | nil => rfl
      | cons x f ih =>
        by_cases hx : sameName x.1 n = true
        · rw [List.filter_cons_of_neg (by simp [hx]), ih, List.find?_cons_of_neg]
          intro hm
          apply h
          rw [← sameName_trans hx]
          exact hm
        · rw [List.filter_cons_of_pos (by simp [hx])]
          by_cases hm : sameName x.1 m = true
          · rw [List.find?_cons_of_pos (by exact hm), List.find?_cons_of_pos (by exact hm)]
          · rw [List.find?_cons_of_neg (by exact hm), List.find?_cons_of_neg (by exact hm), ih]
    rw [h1, h2, Option.or_none]

theorem look_putAll (hs : Fields) (m : Bytes) : ∀ f : Fields, (f.putAll hs).look m = (lastOf hs m).getD (f.look m) := by
  induction hs with
  | nil => intro f; rfl
  | cons h hs ih =>
    intro f
    show ((f.put h.1 h.2).putAll hs).look m = _
    rw [ih, look_put]
    unfold lastOf
    rw [List.reverse_cons, List.find?_append]
    cases e : hs.reverse.find? (fun x => sameName x.1 m) with
    | some x => rfl
    | none =>
      by_cases hm : sameName h.1 m = true
      · simp [hm]
      · simp [hm]

theorem lastOf_none (hs : Fields) (n m : Bytes) (h : ∀ x ∈ hs, sameName x.1 n = true) (hn : sameName n m = false) : lastOf hs m = none := by
  unfold lastOf
  rw [List.find?_eq_none.2]
  · rfl
  · intro x hx
    rw [sameName_trans (h x (List.mem_reverse.1 hx)), hn]
    simp

/-- Headers that set only the Authorization field leave a request as it has to be. -/
theorem carries_fields (o : XOpts) (session : Bytes) (hs : Fields) (h : ∀ x ∈ hs, sameName x.1 (lit "Authorization") = true) (verb : XVerb) (body : Bytes)
    (hv : verb = .post ∨ o.streamable = true) :
    Bears o session (lastOf hs (lit "Authorization")) verb body (finalFields o verb ((baseFields o session verb body).putAll hs)) := by
  have other : ∀ m, sameName (lit "Authorization") m = false → sameName (lit "Host") m = false →
      (finalFields o verb ((baseFields o session verb body).putAll hs)).look m = (baseFields o session verb body).look m := by
    intro m h1 h2
    have e : ((baseFields o session verb body).putAll hs).look m = (baseFields o session verb body).look m := by rw [look_putAll, lastOf_none hs _ m h h1]; rfl
    unfold finalFields
    split
    · exact e
    · rw [look_put, h2]; exact e
  have hl : ∀ (m : Bytes), Fields.look [] m = [] := fun m => rfl
  have s1 : sameName (lit "Content-Type") (lit "Authorization") = false := by decide +kernel
  have s2 : sameName (lit "Accept") (lit "Authorization") = false := by decide +kernel
  have s3 : sameName (lit "Connection") (lit "Authorization") = false := by decide +kernel
  have s4 : sameName (lit "Content-Length") (lit "Authorization") = false := by decide +kernel
  have s5 : sameName (lit "Mcp-Session-Id") (lit "Authorization") = false := by decide +kernel
  have s6 : sameName (lit "MCP-Protocol-Version") (lit "Authorization") = false := by decide +kernel
  have s7 : sameName (lit "Host") (lit "Authorization") = false := by decide +kernel
  have sess : ∀ (f : Fields) (m : Bytes), (sessionFields f session).look m =
      if sameName (lit "MCP-Protocol-Version") m then currentVersion else if session ≠ [] ∧ sameName (lit "Mcp-Session-Id") m = true then session else f.look m := by
    intro f m
    unfold sessionFields
    rw [look_put]
    split
    · rfl
    · split
      · rename_i hs; rw [if_neg (by simp [hs])]
      · rename_i hs
        rw [look_put]
        by_cases hm : sameName (lit "Mcp-Session-Id") m = true
        · rw [if_pos hm, if_pos ⟨hs, hm⟩]
        · rw [if_neg hm, if_neg (by simp [hm])]
  have d1 : sameName (lit "MCP-Protocol-Version") (lit "Mcp-Session-Id") = false := by decide +kernel
  have d2 : ∀ m ∈ [lit "Content-Type", lit "Accept", lit "Connection", lit "Content-Length", lit "Host"], sameName m (lit "Mcp-Session-Id") = false ∧
      sameName m (lit "MCP-Protocol-Version") = false ∧ sameName (lit "Mcp-Session-Id") m = false ∧ sameName (lit "MCP-Protocol-Version") m = false := by decide +kernel
  have host : (finalFields o verb ((baseFields o session verb body).putAll hs)).look (lit "Host") = o.hostField := by
    unfold finalFields
    split
    · rename_i hg
      subst hg
      rw [look_putAll, lastOf_none hs _ _ h (by decide +kernel)]
      show (baseFields o session .get body).look (lit "Host") = _
      simp only [baseFields]
      rw [sess, if_neg (by decide +kernel), if_neg (by rintro ⟨-, h⟩; revert h; decide +kernel), look_put, if_neg (by decide +kernel), look_put, if_pos (by decide +kernel)]
    · rw [look_put, if_pos (by decide +kernel)]
  constructor
  · -- host
    rw [host]
    unfold XOpts.hostField
    split
    · rename_i h; exact .inr ⟨(Bool.and_eq_true _ _ ▸ h).1, rfl⟩
    · exact .inl rfl
  · intro h1 h2
    rw [host]
    unfold XOpts.hostField
    rw [if_pos (by simp [h1, h2])]
  · intro h1
    rw [host]
    unfold XOpts.hostField
    rw [if_neg (by simp [h1])]
  · -- authorization
    have e : (finalFields o verb ((baseFields o session verb body).putAll hs)).look (lit "Authorization") =
        ((baseFields o session verb body).putAll hs).look (lit "Authorization") := by
      unfold finalFields
      split
      · rfl
      · rw [look_put, if_neg (by rw [s7]; simp)]
    rw [e, look_putAll]
    have : (baseFields o session verb body).look (lit "Authorization") = [] := by
      cases verb with
      | post =>
        simp only [baseFields]
        split
        · rw [sess, if_neg (by rw [s6]; simp), if_neg (by rw [s5]; simp), look_put, if_neg (by rw [s4]; simp), look_put, if_neg (by rw [s3]; simp), look_put, if_neg (by rw [s2]; simp),
            look_put, if_neg (by rw [s1]; simp)]
          exact hl _
        · rw [look_put, if_neg (by rw [s4]; simp), look_put, if_neg (by rw [s3]; simp), look_put, if_neg (by rw [s2]; simp),
            look_put, if_neg (by rw [s1]; simp)]
          exact hl _
      | delete =>
        simp only [baseFields]
        rw [sess, if_neg (by rw [s6]; simp), if_neg (by rw [s5]; simp), look_put, if_neg (by rw [s3]; simp), look_put, if_neg (by rw [s2]; simp)]
        exact hl _
      | get =>
        simp only [baseFields]
        rw [sess, if_neg (by rw [s6]; simp), if_neg (by rw [s5]; simp), look_put, if_neg (by rw [s2]; simp), look_put, if_neg (by rw [s7]; simp)]
        exact hl _
    rw [this]
  · -- session
    intro hst
    rw [other _ (by decide +kernel) (by decide +kernel)]
    have key : ∀ f : Fields, f.look (lit "Mcp-Session-Id") = [] → (sessionFields f session).look (lit "Mcp-Session-Id") = session := by
      intro f hf
      rw [sess, if_neg (by rw [d1]; simp)]
      by_cases hs : session = []
      · rw [if_neg (by simp [hs]), hf, hs]
      · rw [if_pos ⟨hs, sameName_refl _⟩]
    cases verb with
    | post =>
      simp only [baseFields]
      rw [if_pos hst]
      apply key
      rw [look_put, if_neg (by rw [(d2 _ (by simp)).1]; simp), look_put, if_neg (by rw [(d2 _ (by simp)).1]; simp), look_put, if_neg (by rw [(d2 _ (by simp)).1]; simp),
        look_put, if_neg (by rw [(d2 _ (by simp)).1]; simp)]
      exact hl _
    | delete =>
      apply key
      rw [look_put, if_neg (by rw [(d2 _ (by simp)).1]; simp), look_put, if_neg (by rw [(d2 _ (by simp)).1]; simp)]
      exact hl _
    | get =>
      apply key
      rw [look_put, if_neg (by rw [(d2 _ (by simp)).1]; simp), look_put, if_neg (by rw [(d2 _ (by simp)).1]; simp)]
      exact hl _
  · -- version
    intro hst
    rw [other _ (by decide +kernel) (by decide +kernel)]
    cases verb with
    | post => simp only [baseFields]; rw [if_pos hst, sess, if_pos (by decide +kernel)]
    | delete => simp only [baseFields]; rw [sess, if_pos (by decide +kernel)]
    | get => simp only [baseFields]; rw [sess, if_pos (by decide +kernel)]
  · -- without sessions
    intro hst
    have hp : verb = .post := hv.resolve_right (by rw [hst]; simp)
    subst hp
    rw [other _ (by decide +kernel) (by decide +kernel), other _ (by decide +kernel) (by decide +kernel)]
    simp only [baseFields]
    rw [if_neg (by rw [hst]; simp)]
    constructor
    · rw [look_put, if_neg (by rw [(d2 _ (by simp)).1]; simp), look_put, if_neg (by rw [(d2 _ (by simp)).1]; simp), look_put, if_neg (by rw [(d2 _ (by simp)).1]; simp),
        look_put, if_neg (by rw [(d2 _ (by simp)).1]; simp)]
      exact hl _
    · rw [look_put, if_neg (by rw [(d2 _ (by simp)).2.1]; simp), look_put, if_neg (by rw [(d2 _ (by simp)).2.1]; simp), look_put, if_neg (by rw [(d2 _ (by simp)).2.1]; simp),
        look_put, if_neg (by rw [(d2 _ (by simp)).2.1]; simp)]
      exact hl _
  case json =>
    -- json
    intro hp
    subst hp
    rw [other _ (by decide +kernel) (by decide +kernel), other _ (by decide +kernel) (by decide +kernel)]
    simp only [baseFields]
    have e1 : ∀ f : Fields, (sessionFields f session).look (lit "Content-Type") = f.look (lit "Content-Type") := by
      intro f; rw [sess, if_neg (by decide +kernel), if_neg (by rintro ⟨-, h⟩; revert h; decide +kernel)]
    have e2 : ∀ f : Fields, (sessionFields f session).look (lit "Content-Length") = f.look (lit "Content-Length") := by
      intro f; rw [sess, if_neg (by decide +kernel), if_neg (by rintro ⟨-, h⟩; revert h; decide +kernel)]
    constructor
    · split
      · rw [e1, look_put, if_neg (by decide +kernel), look_put, if_neg (by decide +kernel), look_put, if_neg (by decide +kernel), look_put, if_pos (by decide +kernel)]
      · rw [look_put, if_neg (by decide +kernel), look_put, if_neg (by decide +kernel), look_put, if_neg (by decide +kernel), look_put, if_pos (by decide +kernel)]
    · split
      · rw [e2, look_put, if_pos (by decide +kernel)]; rfl
      · rw [look_put, if_pos (by decide +kernel)]; rfl
  case accept =>
    -- accept
    rw [other _ (by decide +kernel) (by decide +kernel)]
    have e1 : ∀ f : Fields, (sessionFields f session).look (lit "Accept") = f.look (lit "Accept") := by
      intro f; rw [sess, if_neg (by decide +kernel), if_neg (by rintro ⟨-, h⟩; revert h; decide +kernel)]
    cases verb with
    | post =>
      simp only [baseFields]
      by_cases hst : o.streamable = true
      · rw [if_pos hst, e1, look_put, if_neg (by decide +kernel), look_put, if_neg (by decide +kernel), look_put, if_pos (by decide +kernel)]
      · rw [if_neg hst, look_put, if_neg (by decide +kernel), look_put, if_neg (by decide +kernel), look_put, if_pos (by decide +kernel)]
    | delete => simp only [baseFields]; rw [e1, look_put, if_neg (by decide +kernel), look_put, if_pos (by decide +kernel)]
    | get => simp only [baseFields]; rw [e1, look_put, if_pos (by decide +kernel)]


/-! ### The course of an exchange -/

theorem xrun_append (o : XOpts) (s : Xt) (a b : List XOp) : s.run o (a ++ b) = (s.run o a).run o b := List.foldl_append

theorem xrun_cons (o : XOpts) (s : Xt) (op : XOp) (b : List XOp) : s.run o (op :: b) = (s.step o op).run o b := rfl

theorem begin_xs (o : XOpts) (s : Xt) (verb : XVerb) (body : Bytes) : ∃ l, (s.begin o verb body).xs = s.xs ++ l := by
  unfold Xt.begin
  split
  · dsimp only
    split
    · exact ⟨_, rfl⟩
    · split
      · split
        · exact ⟨_, rfl⟩
        · exact ⟨_, rfl⟩
      · exact ⟨[], by simp⟩
  · exact ⟨[], by simp⟩

/-- An exchange is where it was as long as nothing is done to it. -/
theorem stays_step (o : XOpts) (s : Xt) (op : XOp) (k : Nat) (x : XStage) (hx : s.xs[k]? = some x) (h : ¬ Concerns k op) :
    (s.step o op).xs[k]? = some x := by
  have set' : ∀ (j : Nat) (y : XStage), j ≠ k → (s.xs.set j y)[k]? = some x := by
    intro j y hj
    rw [List.getElem?_set_ne hj, hx]
  cases op with
  | new c => exact hx
  | setShared i => simp only [Xt.step]; split <;> exact hx
  | setRef i => simp only [Xt.step]; split <;> exact hx
  | setNone => exact hx
  | drop i => exact hx
  | tick d => exact hx
  | forget => exact hx
  | begin verb body =>
    obtain ⟨l, hl⟩ := begin_xs o s verb body
    show (s.begin o verb body).xs[k]? = some x
    rw [hl, List.getElem?_append_left (List.getElem?_eq_some_iff.1 hx).1, hx]
  | fetched j resp =>
    simp only [Xt.step, Xt.fetched]
    split
    · split
      · exact set' _ _ h
      · exact hx
    · exact hx
  | send j =>
    simp only [Xt.step, Xt.send]
    split
    · exact set' _ _ h
    · exact hx
  | answer j r =>
    simp only [Xt.step, Xt.answer]
    split
    · exact set' _ _ h
    · exact set' _ _ h
    · exact hx
  | fail j => exact set' _ _ h

theorem stays (o : XOpts) (more : List XOp) (k : Nat) (x : XStage) (h : ∀ op ∈ more, ¬ Concerns k op) :
    ∀ s : Xt, s.xs[k]? = some x → (s.run o more).xs[k]? = some x := by
  induction more with
  | nil => intro s hx; exact hx
  | cons op more ih =>
    intro s hx
    exact ih (fun p hp => h p (List.mem_cons_of_mem _ hp)) _ (stays_step o s op k x hx (h op List.mem_cons_self))

/-- A request that is ready is what is sent. -/
theorem sent_ready (o : XOpts) (s : Xt) (k : Nat) (verb : XVerb) (f : Fields) (body : Bytes) (more : List XOp) (h : ∀ op ∈ more, ¬ Concerns k op)
    (hk : s.xs[k]? = some (.ready verb f body)) :
    (s.run o (more ++ [.send k])).wire = (s.run o more).wire ++ [⟨verb, finalFields o verb f, body⟩] := by
  rw [xrun_append]
  show ((s.run o more).send o k).wire = _
  unfold Xt.send
  rw [stays o more k _ h s hk]

theorem lastOf_bearer (t : Bytes) : lastOf (Cred.headers (.bearer t)) (lit "Authorization") = bearerOf t := by
  simp only [Cred.headers, bearerOf]
  split
  · rfl
  · rfl

theorem lastOf_token (skew : Nat) (tk : Auth.Tk) : lastOf (Cred.headers (.oauth skew tk)) (lit "Authorization") = bearerOf tk.token := by
  simp only [Cred.headers, Auth.Tk.headers, bearerOf]
  split
  · rfl
  · rfl

theorem only_auth (c : Cred) (h : OnlyAuth c) : ∀ x ∈ c.headers, sameName x.1 (lit "Authorization") = true := by
  intro x hx
  cases c with
  | bearer t =>
    simp only [Cred.headers] at hx
    split at hx
    · cases hx
    · rw [List.mem_singleton] at hx; rw [hx]; exact sameName_refl _
  | oauth skew tk =>
    simp only [Cred.headers, Auth.Tk.headers] at hx
    split at hx
    · cases hx
    · rw [List.mem_singleton] at hx; rw [hx]; exact sameName_refl _
  | own w hs => exact h x hx

theorem may_verb (s : Xt) (o : XOpts) (verb : XVerb) (h : s.mayBegin o verb = true) : verb = .post ∨ o.streamable = true := by
  unfold Xt.mayBegin at h
  simp only [Bool.or_eq_true, decide_eq_true_eq, Bool.and_eq_true] at h
  exact h.imp id (·.1)

/-! ### Theorems -/

/-- **C110.** Without credentials a request carries none, whatever else happens until it is sent. -/
theorem C110_plain (o : XOpts) (s : Xt) (verb : XVerb) (body : Bytes) (more : List XOp) (hb : s.mayBegin o verb = true) (hn : s.inUse = none)
    (hm : ∀ op ∈ more, ¬ Concerns s.xs.length op) :
    ∃ f, (s.run o (.begin verb body :: (more ++ [.send s.xs.length]))).wire = (s.run o (.begin verb body :: more)).wire ++ [⟨verb, f, body⟩] ∧
      Bears o s.session none verb body f := by
  have hx : (s.step o (.begin verb body)).xs[s.xs.length]? = some (.ready verb (baseFields o s.session verb body) body) := by
    simp only [Xt.step, Xt.begin, hb, if_true, hn]
    simp
  refine ⟨_, sent_ready o _ _ _ _ _ more hm hx, ?_⟩
  exact carries_fields o s.session [] (by simp) verb body (may_verb s o verb hb)

theorem begun (o : XOpts) (s : Xt) (verb : XVerb) (body : Bytes) (hb : s.mayBegin o verb = true) (i : Nat) (obj : CredObj) (hu : s.inUse = some i)
    (ha : s.alive i = true) (ho : s.objs[i]? = some obj) (he : obj.cred.ensure.2 = none) :
    (s.step o (.begin verb body)).xs[s.xs.length]? = some (.ready verb ((baseFields o s.session verb body).putAll obj.cred.ensure.1.headers) body) := by
  simp only [Xt.step, Xt.begin, hb, if_true, hu, ha, ho, he]
  simp

/-- **C110.** A request carries the token in force when it was made: that of the bearer object, or the one an OAuth object holds that is fresh
enough. Whatever else happens until it is sent, also other credentials being set, does not matter. -/
theorem C110_carries (o : XOpts) (s : Xt) (verb : XVerb) (body : Bytes) (more : List XOp) (i : Nat) (kept : Bool) (c : Cred) (t : Bytes)
    (hb : s.mayBegin o verb = true) (hu : s.inUse = some i) (ha : s.alive i = true) (ho : s.objs[i]? = some ⟨c, kept⟩)
    (hc : c = .bearer t ∨ ∃ skew tk, c = .oauth skew tk ∧ tk.fresh skew = true ∧ tk.token = t)
    (hm : ∀ op ∈ more, ¬ Concerns s.xs.length op) :
    ∃ f, (s.run o (.begin verb body :: (more ++ [.send s.xs.length]))).wire = (s.run o (.begin verb body :: more)).wire ++ [⟨verb, f, body⟩] ∧
      Bears o s.session (bearerOf t) verb body f := by
  rcases hc with rfl | ⟨skew, tk, rfl, hf, rfl⟩
  · refine ⟨_, sent_ready o _ _ _ _ _ more hm (begun o s verb body hb i _ hu ha ho rfl), ?_⟩
    have := carries_fields o s.session (Cred.headers (.bearer t)) (only_auth (.bearer t) trivial) verb body (may_verb s o verb hb)
    rw [lastOf_bearer] at this
    exact this
  · have he : (Cred.oauth skew tk).ensure.2 = none := by simp [Cred.ensure, hf]
    refine ⟨_, sent_ready o _ _ _ _ _ more hm (begun o s verb body hb i _ hu ha ho he), ?_⟩
    have := carries_fields o s.session (Cred.headers (Cred.oauth skew tk).ensure.1) (only_auth (Cred.oauth skew tk).ensure.1 trivial) verb body
      (may_verb s o verb hb)
    have e : lastOf (Cred.headers (Cred.oauth skew tk).ensure.1) (lit "Authorization") = bearerOf tk.token := by
      show lastOf (Cred.headers (.oauth skew (tk.step skew .ensure))) _ = _
      rw [lastOf_token]
      simp [Auth.Tk.step, hf, Auth.Tk.finish]
    rw [e] at this
    exact this


theorem held_step (o : XOpts) (s : Xt) (op : XOp) (i : Nat) (h : s.held i = true) (hd : op ≠ .drop i) : (s.step o op).held i = true := by
  have setc : ∀ (j : Nat) (c : Cred), (s.setCred j c).held i = true := by
    intro j c
    unfold Xt.held at h ⊢
    simp only [Xt.setCred, List.getElem?_modify]
    cases e : s.objs[i]? with
    | none => rw [e] at h; cases h
    | some x => rw [e] at h; by_cases hj : j = i <;> simpa [hj] using h
  cases op with
  | new c =>
    unfold Xt.held at h ⊢
    simp only [Xt.step]
    cases e : s.objs[i]? with
    | none => rw [e] at h; cases h
    | some x => rw [List.getElem?_append_left (List.getElem?_eq_some_iff.1 e).1, e]; rw [e] at h; exact h
  | setShared i => simp only [Xt.step]; split <;> exact h
  | setRef i => simp only [Xt.step]; split <;> exact h
  | setNone => exact h
  | drop j =>
    have hj : j ≠ i := fun e => hd (by rw [e])
    unfold Xt.held at h ⊢
    simp only [Xt.step, List.getElem?_modify]
    cases e : s.objs[i]? with
    | none => rw [e] at h; cases h
    | some x => rw [e] at h; simpa [hj] using h
  | tick d =>
    unfold Xt.held at h ⊢
    simp only [Xt.step, List.getElem?_map]
    cases e : s.objs[i]? with
    | none => rw [e] at h; cases h
    | some x => rw [e] at h; exact h
  | forget => exact h
  | begin verb body =>
    simp only [Xt.step, Xt.begin]
    split
    · split
      · exact h
      · split
        · split
          · exact setc _ _
          · exact setc _ _
        · exact h
    · exact h
  | fetched j resp =>
    simp only [Xt.step, Xt.fetched]
    split
    · split
      · exact setc _ _
      · exact h
    · exact h
  | send j => simp only [Xt.step, Xt.send]; split <;> exact h
  | answer j r => simp only [Xt.step, Xt.answer]; split <;> exact h
  | fail j => exact h

/-- The credentials in force change only by `SetAuth`. -/
theorem force_step (o : XOpts) (s : Xt) (op : XOp) (h : ¬ SetsAuth op) : (s.step o op).strong = s.strong ∧ (s.step o op).weak = s.weak := by
  cases op with
  | new c => exact ⟨rfl, rfl⟩
  | setShared i => exact absurd trivial h
  | setRef i => exact absurd trivial h
  | setNone => exact absurd trivial h
  | drop i => exact ⟨rfl, rfl⟩
  | tick d => exact ⟨rfl, rfl⟩
  | forget => exact ⟨rfl, rfl⟩
  | begin verb body =>
    simp only [Xt.step, Xt.begin]
    split
    · split
      · exact ⟨rfl, rfl⟩
      · split
        · split <;> exact ⟨rfl, rfl⟩
        · exact ⟨rfl, rfl⟩
    · exact ⟨rfl, rfl⟩
  | fetched j resp =>
    simp only [Xt.step, Xt.fetched]
    split
    · split <;> exact ⟨rfl, rfl⟩
    · exact ⟨rfl, rfl⟩
  | send j => simp only [Xt.step, Xt.send]; split <;> exact ⟨rfl, rfl⟩
  | answer j r => simp only [Xt.step, Xt.answer]; split <;> exact ⟨rfl, rfl⟩
  | fail j => exact ⟨rfl, rfl⟩

theorem force_run (o : XOpts) (b : List XOp) (h : ∀ op ∈ b, ¬ SetsAuth op) : ∀ s : Xt, (s.run o b).strong = s.strong ∧ (s.run o b).weak = s.weak := by
  induction b with
  | nil => intro s; exact ⟨rfl, rfl⟩
  | cons op b ih =>
    intro s
    have h1 := force_step o s op (h op List.mem_cons_self)
    have h2 := ih (fun p hp => h p (List.mem_cons_of_mem _ hp)) (s.step o op)
    exact ⟨h2.1.trans h1.1, h2.2.trans h1.2⟩

/-- What becomes of the credentials of an object: their kind and what does not change of them. -/
def Cred.Like : Cred → Cred → Prop
  | .bearer t, c => c = .bearer t
  | .oauth skew tk, c => ∃ tk', c = .oauth skew tk' ∧ tk.calls.length ≤ tk'.calls.length
  | .own w hs, c => c = .own w hs

theorem like_refl (c : Cred) : Cred.Like c c := by cases c <;> simp [Cred.Like]

theorem like_trans {a b c : Cred} (h1 : Cred.Like a b) (h2 : Cred.Like b c) : Cred.Like a c := by
  cases a with
  | bearer t => cases h1; exact h2
  | own w hs => cases h1; exact h2
  | oauth skew tk =>
    obtain ⟨tk1, rfl, l1⟩ := h1
    obtain ⟨tk2, rfl, l2⟩ := h2
    exact ⟨tk2, rfl, by omega⟩

theorem like_ensure (c : Cred) : Cred.Like c c.ensure.1 := by
  cases c with
  | bearer t => rfl
  | own w hs => rfl
  | oauth skew tk =>
    refine ⟨_, rfl, ?_⟩
    simp only [Auth.Tk.step]
    split <;> simp [Auth.Tk.finish]

theorem tk_reply_calls (skew : Nat) (tk : Auth.Tk) (call : Nat) (resp : Bytes) :
    (tk.step skew (.reply call resp)).calls = if tk.calls[call]? = some .fetching then tk.calls.set call .over else tk.calls := by
  simp only [Auth.Tk.step]
  split
  · split
    · rfl
    · split <;> rfl
  · rfl

theorem like_resumed (call : Nat) (resp : Bytes) (c : Cred) : Cred.Like c (c.resumed call resp) := by
  cases c with
  | bearer t => rfl
  | own w hs => rfl
  | oauth skew tk =>
    refine ⟨_, rfl, ?_⟩
    rw [tk_reply_calls]
    split <;> simp

theorem like_tick (d : Nat) (c : Cred) : Cred.Like c (c.tick d) := by
  cases c with
  | bearer t => rfl
  | own w hs => rfl
  | oauth skew tk => exact ⟨_, rfl, Nat.le_refl _⟩

theorem like_setCred (s : Xt) (i j : Nat) (c : Cred) (obj : CredObj) (ho : s.objs[i]? = some obj)
    (hc : ∀ old, s.objs[j]? = some old → Cred.Like old.cred c) : ∃ obj', (s.setCred j c).objs[i]? = some obj' ∧ Cred.Like obj.cred obj'.cred := by
  simp only [Xt.setCred, List.getElem?_modify, ho]
  by_cases hj : j = i
  · refine ⟨{ obj with cred := c }, by simp [hj], hc obj (by rw [hj, ho])⟩
  · exact ⟨obj, by simp [hj], like_refl _⟩

theorem like_step (o : XOpts) (s : Xt) (op : XOp) (i : Nat) (obj : CredObj) (ho : s.objs[i]? = some obj) :
    ∃ obj', (s.step o op).objs[i]? = some obj' ∧ Cred.Like obj.cred obj'.cred := by
  have same : ∃ obj', s.objs[i]? = some obj' ∧ Cred.Like obj.cred obj'.cred := ⟨obj, ho, like_refl _⟩
  cases op with
  | new c => exact ⟨obj, by simp only [Xt.step]; rw [List.getElem?_append_left (List.getElem?_eq_some_iff.1 ho).1, ho], like_refl _⟩
  | setShared j => simp only [Xt.step]; split <;> exact same
  | setRef j => simp only [Xt.step]; split <;> exact same
  | setNone => exact same
  | drop j =>
    simp only [Xt.step, List.getElem?_modify, ho]
    by_cases hj : j = i
    · exact ⟨{ obj with kept := false }, by simp [hj], like_refl _⟩
    · exact ⟨obj, by simp [hj], like_refl _⟩
  | tick d => exact ⟨{ obj with cred := obj.cred.tick d }, by simp [Xt.step, ho], like_tick _ _⟩
  | forget => exact same
  | begin verb body =>
    simp only [Xt.step, Xt.begin]
    split
    · split
      · exact same
      · split
        · rename_i x _ _ _ old _ hold
          have : ∀ old', s.objs[x]? = some old' → Cred.Like old'.cred old.cred.ensure.1 := by
            intro old' h'; rw [hold] at h'; cases h'; exact like_ensure _
          split <;> exact like_setCred s i x _ obj ho this
        · exact same
    · exact same
  | fetched j resp =>
    simp only [Xt.step, Xt.fetched]
    split
    · split
      · rename_i x call _ _ _ old _ hold
        have : ∀ old', s.objs[x]? = some old' → Cred.Like old'.cred (old.cred.resumed call resp) := by
          intro old' h'; rw [hold] at h'; cases h'; exact like_resumed _ _ _
        exact like_setCred s i x _ obj ho this
      · exact same
    · exact same
  | send j => simp only [Xt.step, Xt.send]; split <;> exact same
  | answer j r => simp only [Xt.step, Xt.answer]; split <;> exact same
  | fail j => exact same

theorem like_run (o : XOpts) (b : List XOp) (i : Nat) : ∀ (s : Xt) (obj : CredObj), s.objs[i]? = some obj →
    ∃ obj', (s.run o b).objs[i]? = some obj' ∧ Cred.Like obj.cred obj'.cred := by
  induction b with
  | nil => intro s obj ho; exact ⟨obj, ho, like_refl _⟩
  | cons op b ih =>
    intro s obj ho
    obtain ⟨o1, h1, l1⟩ := like_step o s op i obj ho
    obtain ⟨o2, h2, l2⟩ := ih _ o1 h1
    exact ⟨o2, h2, like_trans l1 l2⟩

theorem held_run (o : XOpts) (b : List XOp) (i : Nat) (hd : .drop i ∉ b) : ∀ s : Xt, s.held i = true → (s.run o b).held i = true := by
  induction b with
  | nil => intro s h; exact h
  | cons op b ih =>
    intro s h
    exact ih (fun hm => hd (List.mem_cons_of_mem _ hm)) _ (held_step o s op i h (fun e => hd (by rw [e]; exact List.mem_cons_self)))

/-- **C110.** After `SetAuth` with a bearer object, shared or by reference, and until the next `SetAuth`, every request carries its token: of a
shared object also when the application has let go of it, of one given by reference as long as it has not. -/
theorem C110_in_force (o : XOpts) (s : Xt) (i : Nat) (t : Bytes) (kept : Bool) (ho : s.objs[i]? = some ⟨.bearer t, kept⟩) (hh : s.held i = true)
    (set : XOp) (b : List XOp) (hset : set = .setShared i ∨ (set = .setRef i ∧ .drop i ∉ b)) (hb : ∀ op ∈ b, ¬ SetsAuth op)
    (verb : XVerb) (body : Bytes) (hm : (s.run o (set :: b)).mayBegin o verb = true) (more : List XOp)
    (hn : ∀ op ∈ more, ¬ Concerns (s.run o (set :: b)).xs.length op) :
    ∃ f, ((s.run o (set :: b)).run o (.begin verb body :: (more ++ [.send (s.run o (set :: b)).xs.length]))).wire =
        ((s.run o (set :: b)).run o (.begin verb body :: more)).wire ++ [⟨verb, f, body⟩] ∧
      Bears o (s.run o (set :: b)).session (bearerOf t) verb body f := by
  obtain ⟨obj', h1, l1⟩ := like_run o (set :: b) i s _ ho
  have l1 : obj'.cred = .bearer t := l1
  have hu : (s.run o (set :: b)).inUse = some i ∧ (s.run o (set :: b)).alive i = true := by
    rw [xrun_cons]
    rcases hset with rfl | ⟨rfl, hd⟩
    · have e : s.step o (.setShared i) = { s with strong := some i, weak := none } := by simp [Xt.step, hh]
      have := force_run o b hb (s.step o (.setShared i))
      rw [e] at this ⊢
      unfold Xt.inUse Xt.alive
      rw [this.1]
      simp
    · have e : s.step o (.setRef i) = { s with strong := none, weak := some i } := by simp [Xt.step, hh]
      have := force_run o b hb (s.step o (.setRef i))
      have h2 := held_run o b i hd (s.step o (.setRef i)) (by rw [e]; exact hh)
      rw [e] at this h2 ⊢
      unfold Xt.inUse Xt.alive
      rw [this.1, this.2, h2]
      simp
  obtain ⟨c, k'⟩ := obj'
  exact C110_carries o _ verb body more i k' c t hm hu.1 hu.2 h1 (.inl l1) hn

/-- After `SetAuth(nullptr)` requests carry no credentials. -/
theorem C110_cleared (o : XOpts) (s : Xt) (b : List XOp) (hb : ∀ op ∈ b, ¬ SetsAuth op) (verb : XVerb) (body : Bytes)
    (hm : (s.run o (.setNone :: b)).mayBegin o verb = true) (more : List XOp) (hn : ∀ op ∈ more, ¬ Concerns (s.run o (.setNone :: b)).xs.length op) :
    ∃ f, ((s.run o (.setNone :: b)).run o (.begin verb body :: (more ++ [.send (s.run o (.setNone :: b)).xs.length]))).wire =
        ((s.run o (.setNone :: b)).run o (.begin verb body :: more)).wire ++ [⟨verb, f, body⟩] ∧
      Bears o (s.run o (.setNone :: b)).session none verb body f := by
  have hu : (s.run o (.setNone :: b)).inUse = none := by
    have := force_run o b hb (s.step o .setNone)
    rw [xrun_cons]
    unfold Xt.inUse
    rw [this.1, this.2]
    rfl
  exact C110_plain o _ verb body more hm hu hn


/-! ### Tokens that have to be fetched -/

/-- The calls of `ensureReady` on an OAuth object. -/
def callsOf : Option CredObj → Option (List Auth.TkStage)
  | some ⟨.oauth _ tk, _⟩ => some tk.calls
  | _ => none

/-- Every exchange that waits for an OAuth object waits for a call of its own that is under way. -/
structure WaitInv (s : Xt) : Prop where
  there : ∀ (k : Nat) v f b i c, s.xs[k]? = some (.waiting v f b i c) → i < s.objs.length
  under : ∀ (k : Nat) v f b i c l, s.xs[k]? = some (.waiting v f b i c) → callsOf s.objs[i]? = some l → l[c]? = some .fetching
  apart : ∀ (k k' : Nat) v f b v' f' b' i c l, s.xs[k]? = some (.waiting v f b i c) → s.xs[k']? = some (.waiting v' f' b' i c) →
    callsOf s.objs[i]? = some l → k = k'

theorem wait_less (s s' : Xt) (h : WaitInv s) (hx : ∀ (k : Nat) v f b i c, s'.xs[k]? = some (.waiting v f b i c) → s.xs[k]? = some (.waiting v f b i c))
    (hl : s.objs.length ≤ s'.objs.length)
    (ho : ∀ (k : Nat) v f b i c l', s'.xs[k]? = some (.waiting v f b i c) → callsOf s'.objs[i]? = some l' →
      ∃ l, callsOf s.objs[i]? = some l ∧ (l[c]? = some .fetching → l'[c]? = some .fetching)) : WaitInv s' := by
  constructor
  · intro k v f b i c hk
    exact Nat.lt_of_lt_of_le (h.there k v f b i c (hx k v f b i c hk)) hl
  · intro k v f b i c l' hk hc
    obtain ⟨l, h1, h2⟩ := ho k v f b i c l' hk hc
    exact h2 (h.under k v f b i c l (hx k v f b i c hk) h1)
  · intro k k' v f b v' f' b' i c l' hk hk' hc
    obtain ⟨l, h1, h2⟩ := ho k v f b i c l' hk hc
    exact h.apart k k' v f b v' f' b' i c l (hx _ _ _ _ _ _ hk) (hx _ _ _ _ _ _ hk') h1

theorem set_waiting (xs : List XStage) (j k : Nat) (y : XStage) (hy : ∀ v f b i c, y ≠ .waiting v f b i c) (v : XVerb) (f : Fields) (b : Bytes)
    (i c : Nat) (h : (xs.set j y)[k]? = some (.waiting v f b i c)) : xs[k]? = some (.waiting v f b i c) ∧ k ≠ j := by
  by_cases hj : j = k
  · subst hj
    rw [List.getElem?_set_self'] at h
    cases e : xs[j]? with
    | none => rw [e] at h; cases h
    | some x => rw [e] at h; simp at h; exact absurd h (hy v f b i c)
  · rw [List.getElem?_set_ne hj] at h
    exact ⟨h, fun e => hj e.symm⟩

theorem callsOf_kept (x : CredObj) (k : Bool) : callsOf (some { x with kept := k }) = callsOf (some x) := by
  obtain ⟨c, k0⟩ := x
  cases c <;> rfl

theorem callsOf_tick (x : CredObj) (d : Nat) : callsOf (some { x with cred := x.cred.tick d }) = callsOf (some x) := by
  obtain ⟨c, k0⟩ := x
  cases c <;> rfl

/-- What asking the credentials to get ready does to the calls under way. -/
theorem callsOf_ensure (x : CredObj) (l' : List Auth.TkStage) (h : callsOf (some { x with cred := x.cred.ensure.1 }) = some l') :
    ∃ l, callsOf (some x) = some l ∧ (∀ c : Nat, l[c]? = some .fetching → l'[c]? = some .fetching) ∧
      ∀ c, x.cred.ensure.2 = some c → c = l.length ∧ l'[c]? = some .fetching := by
  obtain ⟨c, k0⟩ := x
  cases c with
  | bearer t => cases h
  | own w hs => cases h
  | oauth skew tk =>
    refine ⟨tk.calls, rfl, ?_⟩
    by_cases hf : tk.fresh skew = true
    · have e : l' = tk.calls ++ [.over] := by
        have : some (tk.step skew .ensure).calls = some l' := h
        simp only [Auth.Tk.step, hf, if_true, Option.some.injEq] at this
        exact this.symm
      constructor
      · intro c hc
        rw [e, List.getElem?_append_left (List.getElem?_eq_some_iff.1 hc).1, hc]
      · intro c hc
        simp [Cred.ensure, hf] at hc
    · have e : l' = tk.calls ++ [.fetching] := by
        have : some (tk.step skew .ensure).calls = some l' := h
        simp only [Auth.Tk.step, hf, Option.some.injEq] at this
        exact this.symm
      constructor
      · intro c hc
        rw [e, List.getElem?_append_left (List.getElem?_eq_some_iff.1 hc).1, hc]
      · intro c hc
        simp [Cred.ensure, hf] at hc
        subst hc
        rw [e]
        simp

theorem callsOf_resumed (x : CredObj) (call : Nat) (resp : Bytes) (l' : List Auth.TkStage)
    (h : callsOf (some { x with cred := x.cred.resumed call resp }) = some l') :
    ∃ l, callsOf (some x) = some l ∧ ∀ c : Nat, c ≠ call → l[c]? = some .fetching → l'[c]? = some .fetching := by
  obtain ⟨c, k0⟩ := x
  cases c with
  | bearer t => cases h
  | own w hs => cases h
  | oauth skew tk =>
    refine ⟨tk.calls, rfl, ?_⟩
    have : (tk.step skew (.reply call resp)).calls = l' := Option.some.inj h
    rw [tk_reply_calls] at this
    intro c hc hl
    rw [← this]
    split
    · rw [List.getElem?_set_ne (fun e => hc e.symm), hl]
    · exact hl

theorem wait_step (o : XOpts) (s : Xt) (op : XOp) (h : WaitInv s) : WaitInv (s.step o op) := by
  have same : ∀ s' : Xt, s'.xs = s.xs → s'.objs = s.objs → WaitInv s' := by
    intro s' h1 h2
    refine wait_less s s' h ?_ (by rw [h2]; exact Nat.le_refl _) ?_
    · intro k v f b i c hk; rw [h1] at hk; exact hk
    · intro k v f b i c l' hk hc; rw [h2] at hc; exact ⟨l', hc, fun e => e⟩
  have drop : ∀ (s' : Xt) (j : Nat) (y : XStage), (∀ v f b i c, y ≠ .waiting v f b i c) → s'.xs = s.xs.set j y → s'.objs = s.objs → WaitInv s' := by
    intro s' j y hy h1 h2
    refine wait_less s s' h ?_ (by rw [h2]; exact Nat.le_refl _) ?_
    · intro k v f b i c hk; rw [h1] at hk; exact (set_waiting _ _ _ _ hy _ _ _ _ _ hk).1
    · intro k v f b i c l' hk hc; rw [h2] at hc; exact ⟨l', hc, fun e => e⟩
  cases op with
  | new cr =>
    refine wait_less s _ h (fun k v f b i c hk => hk) (by simp [Xt.step]) ?_
    intro k v f b i c l' hk hc
    simp only [Xt.step] at hc
    rw [List.getElem?_append_left (h.there k v f b i c hk)] at hc
    exact ⟨l', hc, fun e => e⟩
  | setShared j => simp only [Xt.step]; split <;> exact same _ rfl rfl
  | setRef j => simp only [Xt.step]; split <;> exact same _ rfl rfl
  | setNone => exact same _ rfl rfl
  | drop j =>
    refine wait_less s _ h (fun k v f b i c hk => hk) (by simp [Xt.step]) ?_
    intro k v f b i c l' hk hc
    simp only [Xt.step, List.getElem?_modify] at hc
    cases e : s.objs[i]? with
    | none => rw [e] at hc; cases hc
    | some x =>
      rw [e] at hc
      refine ⟨l', ?_, fun e => e⟩
      by_cases hj : j = i
      · simp only [hj, if_true, Option.map_eq_map, Option.map_some] at hc
        rwa [callsOf_kept] at hc
      · simpa [hj] using hc
  | tick d =>
    refine wait_less s _ h (fun k v f b i c hk => hk) (by simp [Xt.step]) ?_
    intro k v f b i c l' hk hc
    simp only [Xt.step, List.getElem?_map] at hc
    cases e : s.objs[i]? with
    | none => rw [e] at hc; cases hc
    | some x =>
      rw [e, Option.map_some, callsOf_tick] at hc
      exact ⟨l', hc, fun e => e⟩
  | forget => exact same _ rfl rfl
  | send j => simp only [Xt.step, Xt.send]; split; exact drop _ j _ (by intros; simp) rfl rfl; exact h
  | answer j r =>
    simp only [Xt.step, Xt.answer]
    split
    · exact drop _ j _ (by intros; simp) rfl rfl
    · exact drop _ j _ (by intros; simp) rfl rfl
    · exact h
  | fail j => exact drop _ j _ (by intros; simp) rfl rfl
  | begin verb body =>
    simp only [Xt.step, Xt.begin]
    split
    · split
      · -- no credentials
        refine wait_less s _ h ?_ (Nat.le_refl _) (fun k v f b i c l' hk hc => ⟨l', hc, fun e => e⟩)
        intro k v f b i c hk
        simp only at hk
        rcases Nat.lt_or_ge k s.xs.length with hlt | hge
        · rwa [List.getElem?_append_left hlt] at hk
        · rw [List.getElem?_append_right hge] at hk
          cases e : k - s.xs.length <;> rw [e] at hk <;> simp at hk
      · rename_i x hx
        split
        · rename_i _ _ old _ hold
          -- what the step does to the objects
          have objs' : ∀ (i : Nat) l', callsOf (s.setCred x old.cred.ensure.1).objs[i]? = some l' → ∃ l, callsOf s.objs[i]? = some l ∧
              (∀ c : Nat, l[c]? = some .fetching → l'[c]? = some .fetching) ∧ (i = x → ∀ c, old.cred.ensure.2 = some c → c = l.length ∧ l'[c]? = some .fetching) := by
            intro i l' hc
            simp only [Xt.setCred, List.getElem?_modify] at hc
            by_cases hi : x = i
            · subst hi
              rw [hold] at hc
              simp only [if_true, Option.map_eq_map, Option.map_some] at hc
              obtain ⟨l, h1, h2, h3⟩ := callsOf_ensure old l' hc
              exact ⟨l, by rw [hold]; exact h1, h2, fun _ => h3⟩
            · refine ⟨l', ?_, fun _ e => e, fun e => absurd e.symm hi⟩
              cases e : s.objs[i]? with
              | none => rw [e] at hc; cases hc
              | some y => rw [e] at hc; simpa [hi] using hc
          have len : (s.setCred x old.cred.ensure.1).objs.length = s.objs.length := by simp [Xt.setCred]
          split
          · -- ready at once
            refine wait_less s _ h ?_ (by rw [len]; exact Nat.le_refl _) ?_
            · intro k v f b i c hk
              simp only at hk
              rcases Nat.lt_or_ge k s.xs.length with hlt | hge
              · rwa [List.getElem?_append_left hlt] at hk
              · rw [List.getElem?_append_right hge] at hk
                cases e : k - s.xs.length <;> rw [e] at hk <;> simp at hk
            · intro k v f b i c l' hk hc
              obtain ⟨l, h1, h2, -⟩ := objs' i l' hc
              exact ⟨l, h1, h2 c⟩
          · -- a call is under way
            rename_i _ call hcall
            have at_ : ∀ (k : Nat) v f b i c, (s.xs ++ [.waiting verb (baseFields o s.session verb body) body x call])[k]? = some (.waiting v f b i c) →
                s.xs[k]? = some (.waiting v f b i c) ∨ (k = s.xs.length ∧ i = x ∧ c = call) := by
              intro k v f b i c hk
              rcases Nat.lt_or_ge k s.xs.length with hlt | hge
              · rw [List.getElem?_append_left hlt] at hk; exact .inl hk
              · rw [List.getElem?_append_right hge] at hk
                cases e : k - s.xs.length with
                | zero =>
                  rw [e] at hk
                  simp only [List.getElem?_cons_zero, Option.some.injEq, XStage.waiting.injEq] at hk
                  exact .inr ⟨by omega, hk.2.2.2.1.symm, hk.2.2.2.2.symm⟩
                | succ n => rw [e] at hk; simp at hk
            constructor
            · intro k v f b i c hk
              rw [show (s.setCred x old.cred.ensure.1).objs.length = s.objs.length from len]
              rcases at_ k v f b i c hk with hk | ⟨-, rfl, -⟩
              · exact h.there k v f b i c hk
              · exact (List.getElem?_eq_some_iff.1 hold).1
            · intro k v f b i c l' hk hc
              obtain ⟨l, h1, h2, h3⟩ := objs' i l' hc
              rcases at_ k v f b i c hk with hk | ⟨-, hi, rfl⟩
              · exact h2 c (h.under k v f b i c l hk h1)
              · exact (h3 hi _ hcall).2
            · intro k k' v f b v' f' b' i c l' hk hk' hc
              obtain ⟨l, h1, h2, h3⟩ := objs' i l' hc
              rcases at_ k v f b i c hk with ho | ⟨hke, hi, hce⟩
              · rcases at_ k' v' f' b' i c hk' with ho' | ⟨hke', hi', hce'⟩
                · exact h.apart k k' v f b v' f' b' i c l ho ho' h1
                · have := (List.getElem?_eq_some_iff.1 (h.under k v f b i c l ho h1)).1
                  have := (h3 hi' _ hcall).1
                  omega
              · rcases at_ k' v' f' b' i c hk' with ho' | ⟨hke', -, -⟩
                · have := (List.getElem?_eq_some_iff.1 (h.under k' v' f' b' i c l ho' h1)).1
                  have := (h3 hi _ hcall).1
                  omega
                · rw [hke, hke']
        · exact same _ rfl rfl
    · exact h
  | fetched j resp =>
    simp only [Xt.step, Xt.fetched]
    split
    · rename_i vb fb bb x call hj
      split
      · rename_i _ _ old _ hold
        refine wait_less s _ h ?_ (by simp [Xt.setCred]) ?_
        · intro k v f b i c hk
          exact (set_waiting _ _ _ _ (by intros; simp) _ _ _ _ _ hk).1
        · intro k v f b i c l' hk hc
          obtain ⟨ho, hne⟩ := set_waiting _ _ _ _ (by intros; simp) _ _ _ _ _ hk
          simp only [Xt.setCred, List.getElem?_modify] at hc
          by_cases hi : x = i
          · subst hi
            rw [hold] at hc
            simp only [if_true, Option.map_eq_map, Option.map_some] at hc
            obtain ⟨l, h1, h2⟩ := callsOf_resumed old call resp l' hc
            refine ⟨l, by rw [hold]; exact h1, h2 c ?_⟩
            intro e
            rw [e] at ho
            exact hne (h.apart k j v f b _ _ _ x call l ho hj (by rw [hold]; exact h1))
          · refine ⟨l', ?_, fun e => e⟩
            cases e : s.objs[i]? with
            | none => rw [e] at hc; cases hc
            | some y => rw [e] at hc; simpa [hi] using hc
      · exact same _ rfl rfl
    · exact h

theorem wait_run (o : XOpts) (ops : List XOp) : ∀ s : Xt, WaitInv s → WaitInv (s.run o ops) := by
  induction ops with
  | nil => intro s h; exact h
  | cons op ops ih => intro s h; exact ih _ (wait_step o s op h)

theorem wait_init (given : Option Cred) : WaitInv (Xt.init given) := by
  constructor <;> intros <;> rename_i h <;> simp_all [Xt.init]


theorem begun_waiting (o : XOpts) (s : Xt) (verb : XVerb) (body : Bytes) (hb : s.mayBegin o verb = true) (i : Nat) (skew : Nat) (tk : Auth.Tk) (kept : Bool)
    (hu : s.inUse = some i) (ha : s.alive i = true) (ho : s.objs[i]? = some ⟨.oauth skew tk, kept⟩) (hf : tk.fresh skew = false) :
    (s.step o (.begin verb body)).xs[s.xs.length]? = some (.waiting verb (baseFields o s.session verb body) body i tk.calls.length) := by
  have he : (Cred.oauth skew tk).ensure.2 = some tk.calls.length := by simp [Cred.ensure, hf]
  simp only [Xt.step, Xt.begin, hb, if_true, hu, ha, ho, he]
  simp

/-- What the token object holds after the reply to a call that is under way. -/
theorem tk_reply_token (skew : Nat) (tk : Auth.Tk) (call : Nat) (resp : Bytes) (h : tk.calls[call]? = some .fetching) :
    (tk.step skew (.reply call resp)).token = if resp = [] then tk.token else (Auth.tokenStr resp (lit "access_token")).getD tk.token := by
  simp only [Auth.Tk.step, h, if_true]
  split
  · rfl
  · split
    · rename_i t ht; rw [ht]; rfl
    · rename_i ht; rw [ht]; rfl

/-- **C110.** A request for which a token is fetched waits for it and carries it, with the fields it was made with: the session id of the moment it
began, whatever happens in between. When the answer of the token endpoint holds no token it carries the one held then, if any. `s` is any
state that can be reached, and the object is there when the answer comes (see `C110_alive_partial`). -/
theorem C110_token (given : Option Cred) (o : XOpts) (past : List XOp) (s : Xt) (hs : s = (Xt.init given).run o past) (verb : XVerb) (body resp : Bytes)
    (more later : List XOp) (i skew : Nat) (tk : Auth.Tk) (kept : Bool)
    (hb : s.mayBegin o verb = true) (hu : s.inUse = some i) (ha : s.alive i = true) (ho : s.objs[i]? = some ⟨.oauth skew tk, kept⟩)
    (hf : tk.fresh skew = false) (hm : ∀ op ∈ more, ¬ Concerns s.xs.length op) (hl : ∀ op ∈ later, ¬ Concerns s.xs.length op)
    (ha' : (s.run o (.begin verb body :: more)).alive i = true) :
    ∃ f tk' kept', (s.run o (.begin verb body :: more)).objs[i]? = some ⟨.oauth skew tk', kept'⟩ ∧
      (s.run o (.begin verb body :: (more ++ .fetched s.xs.length resp :: (later ++ [.send s.xs.length])))).wire =
        (s.run o (.begin verb body :: (more ++ .fetched s.xs.length resp :: later))).wire ++ [⟨verb, f, body⟩] ∧
      Bears o s.session (bearerOf (if resp = [] then tk'.token else (Auth.tokenStr resp (lit "access_token")).getD tk'.token)) verb body f := by
  have w0 : WaitInv s := by rw [hs]; exact wait_run o past _ (wait_init given)
  have w1 := wait_run o (.begin verb body :: more) s w0
  have hx := begun_waiting o s verb body hb i skew tk kept hu ha ho hf
  have hx1 : (s.run o (.begin verb body :: more)).xs[s.xs.length]? = some (.waiting verb (baseFields o s.session verb body) body i tk.calls.length) :=
    stays o more _ _ hm _ hx
  obtain ⟨⟨c', kept'⟩, h1, tk', l1, -⟩ := like_run o (.begin verb body :: more) i s _ ho
  dsimp only at l1
  subst l1
  have hfet := w1.under _ _ _ _ _ _ tk'.calls hx1 (by rw [h1]; rfl)
  have hx2 : ((s.run o (.begin verb body :: more)).step o (.fetched s.xs.length resp)).xs[s.xs.length]? =
      some (.ready verb ((baseFields o s.session verb body).putAll (Cred.headers (.oauth skew (tk'.step skew (.reply tk.calls.length resp))))) body) := by
    simp only [Xt.step, Xt.fetched, hx1, ha', h1]
    rw [List.getElem?_set_self (List.getElem?_eq_some_iff.1 hx1).1]
    rfl
  refine ⟨finalFields o verb ((baseFields o s.session verb body).putAll (Cred.headers (.oauth skew (tk'.step skew (.reply tk.calls.length resp))))),
    tk', kept', h1, ?_, ?_⟩
  · have := sent_ready o _ _ _ _ _ later hl hx2
    rw [← xrun_cons, ← xrun_cons, ← xrun_append, ← xrun_append] at this
    simpa using this
  · have := carries_fields o s.session (Cred.headers (.oauth skew (tk'.step skew (.reply tk.calls.length resp)))) (only_auth _ trivial) verb body
      (may_verb s o verb hb)
    rw [lastOf_token, tk_reply_token skew tk' _ resp hfet] at this
    exact this

/-- **C110.** The server's check of a request that carries a token is the verifier's verdict on that token. Missing: tokens that begin with a blank. -/
theorem C110_verified_partial (o : XOpts) (session : Bytes) (verb : XVerb) (body : Bytes) (f : Fields) (t : Bytes) (ht : t ≠ [])
    (hw : ∀ c ∈ t.head?, isSpaceCh c = false) (hf : Bears o session (bearerOf t) verb body f) (a : AuthCfg) (v : Bytes → Verdict)
    (he : a.enabled = true) (hv : a.verifier = some v) (now : Int) :
    a.check now (f.look (lit "Authorization")) = some (match v t with
      | .threw => .threw
      | .refused err => .refused 401 (if err = [] then lit "invalid token" else err)
      | .good info => checkInfo a.opts now info) := by
  have e : f.look (lit "Authorization") = lit "Bearer " ++ t := by rw [hf.auth]; simp [bearerOf, ht]
  have e1 : startsWithBearer (lit "Bearer " ++ t) = true := by
    unfold startsWithBearer
    rw [if_neg (by simp [lit])]
    have : (lit "Bearer " ++ t).take 7 = lit "Bearer " := by simp [lit]
    rw [this]
    simp
  have e2 : tokenOf (lit "Bearer " ++ t) = t := by
    have : (lit "Bearer " ++ t).drop 7 = t := by simp [lit]
    unfold tokenOf
    rw [this]
    cases t with
    | nil => rfl
    | cons c t => rw [List.dropWhile_cons_of_neg]; rw [hw c (by simp)]; simp
  unfold AuthCfg.check
  rw [he, hv, e]
  simp only [Bool.not_true, Bool.false_eq_true, if_false]
  unfold checkBearer
  rw [if_neg (by simp [lit]), e1, e2, if_neg (by simp), if_neg ht]
  cases v t <;> rfl

/-! ### Credentials that are still there -/

structure AliveInv (s : Xt) : Prop where
  fine : s.ub = false
  needed : ∀ i, Needed s i → s.alive i = true ∧ i < s.objs.length

theorem alive_step (o : XOpts) (s : Xt) (op : XOp) (h : AliveInv s) (hc : Careful s op) : AliveInv (s.step o op) := by
  have heldlt : ∀ i, s.held i = true → i < s.objs.length := by
    intro i hi
    unfold Xt.held at hi
    cases e : s.objs[i]? with
    | none => rw [e] at hi; cases hi
    | some x => exact (List.getElem?_eq_some_iff.1 e).1
  -- a step that leaves the credentials as they are, and makes nobody wait
  have less : ∀ s' : Xt, s'.ub = s.ub → s'.strong = s.strong → s'.weak = s.weak → s.objs.length ≤ s'.objs.length →
      (∀ i, s.held i = true → s'.held i = true) → (∀ v f b i c, .waiting v f b i c ∈ s'.xs → Needed s i) → AliveInv s' := by
    intro s' h1 h2 h3 h4 h5 h6
    refine ⟨by rw [h1]; exact h.fine, ?_⟩
    intro i hn
    have hn' : Needed s i := by
      rcases hn with hn | ⟨v, f, b, c, hn⟩
      · left; unfold Xt.inUse at hn ⊢; rw [h2, h3] at hn; exact hn
      · exact h6 v f b i c hn
    obtain ⟨ha, hl⟩ := h.needed i hn'
    refine ⟨?_, Nat.lt_of_lt_of_le hl h4⟩
    unfold Xt.alive at ha ⊢
    rw [h2]
    rw [Bool.or_eq_true] at ha ⊢
    exact ha.imp id (h5 i)
  have waits : ∀ v f b i c, .waiting v f b i c ∈ s.xs → Needed s i := fun v f b i c hm => .inr ⟨v, f, b, c, hm⟩
  have setw : ∀ (j : Nat) (y : XStage), (∀ v f b i c, y ≠ .waiting v f b i c) → ∀ v f b i c, .waiting v f b i c ∈ s.xs.set j y → Needed s i := by
    intro j y hy v f b i c hm
    rcases List.mem_or_eq_of_mem_set hm with hm | hm
    · exact waits v f b i c hm
    · exact absurd hm.symm (hy v f b i c)
  have setc : ∀ (j : Nat) (c : Cred) i, s.held i = true → (s.setCred j c).held i = true := by
    intro j c i h
    unfold Xt.held at h ⊢
    simp only [Xt.setCred, List.getElem?_modify]
    cases e : s.objs[i]? with
    | none => rw [e] at h; cases h
    | some x => rw [e] at h; by_cases hj : j = i <;> simpa [hj] using h
  -- `SetAuth`
  have sets : ∀ s' : Xt, s'.ub = s.ub → s'.objs = s.objs → s'.xs = s.xs → (∀ i, s'.inUse = some i → s'.alive i = true ∧ i < s.objs.length) →
      (∀ i, s.strong = some i → s.held i = true ∨ s'.strong = some i ∨ ∀ v f b c, .waiting v f b i c ∉ s.xs) → AliveInv s' := by
    intro s' h1 h2 h3 h4 h5
    refine ⟨by rw [h1]; exact h.fine, ?_⟩
    rintro i (hn | ⟨v, f, b, c, hn⟩)
    · rw [h2]; exact h4 i hn
    · rw [h3] at hn
      obtain ⟨ha, hl⟩ := h.needed i (.inr ⟨v, f, b, c, hn⟩)
      refine ⟨?_, by rw [h2]; exact hl⟩
      unfold Xt.alive at ha ⊢
      rw [Bool.or_eq_true] at ha ⊢
      have hh : s'.held i = s.held i := by unfold Xt.held; rw [h2]
      rw [hh]
      rcases ha with ha | ha
      · rw [decide_eq_true_eq] at ha
        rcases h5 i ha with h6 | h6 | h6
        · exact .inr h6
        · exact .inl (by rw [h6]; simp)
        · exact absurd hn (h6 v f b c)
      · exact .inr ha
  cases op with
  | new cr =>
    refine less _ rfl rfl rfl (by simp [Xt.step]) (fun i hi => held_step o s (.new cr) i hi (by simp)) waits
  | setShared j =>
    simp only [Xt.step]
    split
    · rename_i hj
      refine sets _ rfl rfl rfl ?_ ?_
      · intro i hi
        have : j = i := Option.some.inj hi
        subst this
        exact ⟨by simp [Xt.alive], heldlt _ hj⟩
      · intro i hi
        rcases hc i hi with h1 | h1 | h1
        · exact .inl h1
        · exact .inr (.inl (by rw [h1]))
        · exact .inr (.inr h1)
    · exact h
  | setRef j =>
    simp only [Xt.step]
    split
    · rename_i hj
      refine sets _ rfl rfl rfl ?_ ?_
      · intro i hi
        have : j = i := Option.some.inj hi
        subst this
        exact ⟨by simp only [Xt.alive, Bool.or_eq_true]; exact .inr hj, heldlt _ hj⟩
      · intro i hi
        rcases hc i hi with h1 | h1
        · exact .inl h1
        · exact .inr (.inr h1)
    · exact h
  | setNone =>
    refine sets _ rfl rfl rfl ?_ ?_
    · intro i hi; cases hi
    · intro i hi
      rcases hc i hi with h1 | h1
      · exact .inl h1
      · exact .inr (.inr h1)
  | drop j =>
    refine ⟨h.fine, ?_⟩
    intro i hn
    have hn' : Needed s i := hn
    obtain ⟨ha, hl⟩ := h.needed i hn'
    refine ⟨?_, by simpa [Xt.step] using hl⟩
    unfold Xt.alive at ha ⊢
    rw [Bool.or_eq_true] at ha ⊢
    by_cases hj : j = i
    · subst hj
      rcases hc with hc | hc
      · exact .inl (by simp [Xt.step, hc])
      · exact absurd hn' hc
    · exact ha.imp id (fun ha => held_step o s (.drop j) i ha (by simp [hj]))
  | tick d => exact less _ rfl rfl rfl (by simp [Xt.step]) (fun i hi => held_step o s (.tick d) i hi (by simp)) waits
  | forget => exact less _ rfl rfl rfl (Nat.le_refl _) (fun i hi => hi) waits
  | send j =>
    simp only [Xt.step, Xt.send]
    split
    · exact less _ rfl rfl rfl (Nat.le_refl _) (fun i hi => hi) (setw _ _ (by intros; simp))
    · exact h
  | answer j r =>
    simp only [Xt.step, Xt.answer]
    split
    · exact less _ rfl rfl rfl (Nat.le_refl _) (fun i hi => hi) (setw _ _ (by intros; simp))
    · exact less _ rfl rfl rfl (Nat.le_refl _) (fun i hi => hi) (setw _ _ (by intros; simp))
    · exact h
  | fail j => exact less _ rfl rfl rfl (Nat.le_refl _) (fun i hi => hi) (setw _ _ (by intros; simp))
  | begin verb body =>
    simp only [Xt.step, Xt.begin]
    split
    · split
      · refine less _ rfl rfl rfl (Nat.le_refl _) (fun i hi => hi) ?_
        intro v f b i c hm
        simp only [List.mem_append, List.mem_singleton] at hm
        rcases hm with hm | hm
        · exact waits v f b i c hm
        · cases hm
      · rename_i x hx
        obtain ⟨ha, hl⟩ := h.needed x (.inl hx)
        have hob : s.objs[x]? = some s.objs[x] := List.getElem?_eq_getElem hl
        split
        · split
          · refine less _ rfl rfl rfl (by simp [Xt.setCred]) (setc _ _) ?_
            intro v f b i c hm
            simp only [List.mem_append, List.mem_singleton] at hm
            rcases hm with hm | hm
            · exact waits v f b i c hm
            · cases hm
          · refine less _ rfl rfl rfl (by simp [Xt.setCred]) (setc _ _) ?_
            intro v f b i c hm
            simp only [List.mem_append, List.mem_singleton] at hm
            rcases hm with hm | hm
            · exact waits v f b i c hm
            · cases hm; exact .inl hx
        · rename_i hno
          exact absurd hob (hno _ ha)
    · exact h
  | fetched j resp =>
    simp only [Xt.step, Xt.fetched]
    split
    · rename_i vb fb bb x call hj
      obtain ⟨ha, hl⟩ := h.needed x (.inr ⟨_, _, _, _, List.mem_of_getElem? hj⟩)
      have hob : s.objs[x]? = some s.objs[x] := List.getElem?_eq_getElem hl
      split
      · exact less _ rfl rfl rfl (by simp [Xt.setCred]) (setc _ _) (setw _ _ (by intros; simp))
      · rename_i hno
        exact absurd hob (hno _ ha)
    · exact h

/-- A course in which every step keeps to the rule of use. -/
def CarefulRun (o : XOpts) : Xt → List XOp → Prop
  | _, [] => True
  | s, op :: ops => Careful s op ∧ CarefulRun o (s.step o op) ops

/-- **C110.** By the rule of use no credentials are used after they are gone. Missing: other courses, see `C110_alive_counterexample`. -/
theorem C110_alive_partial (o : XOpts) (given : Option Cred) (ops : List XOp) (h : CarefulRun o (Xt.init given) ops) :
    ((Xt.init given).run o ops).ub = false ∧ ∀ i, Needed ((Xt.init given).run o ops) i → ((Xt.init given).run o ops).alive i = true := by
  have key : ∀ (ops : List XOp) (s : Xt), AliveInv s → CarefulRun o s ops → AliveInv (s.run o ops) := by
    intro ops
    induction ops with
    | nil => intro s h _; exact h
    | cons op ops ih => intro s h hc; exact ih _ (alive_step o s op h hc.1) hc.2
  have h0 : AliveInv (Xt.init given) := by
    refine ⟨rfl, ?_⟩
    rintro i (hn | ⟨v, f, b, c, hn⟩)
    · cases given with
      | none => cases hn
      | some g =>
        have : (0 : Nat) = i := Option.some.inj hn
        subst this
        exact ⟨rfl, by simp [Xt.init]⟩
    · cases hn
  have := key ops _ h0 h
  exact ⟨this.fine, fun i hi => (this.needed i hi).1⟩

/-! ### Responses -/

/-- The response was recorded, and no later one. -/
theorem last_run (o : XOpts) (more : List XOp) (hm : ∀ k r, .answer k r ∉ more) : ∀ s : Xt, (s.run o more).last = s.last := by
  induction more with
  | nil => intro s; rfl
  | cons op more ih =>
    intro s
    refine (ih (fun k r h => hm k r (List.mem_cons_of_mem _ h)) _).trans ?_
    cases op with
    | answer k r => exact absurd List.mem_cons_self (hm k r)
    | setShared j => simp only [Xt.step]; split <;> rfl
    | setRef j => simp only [Xt.step]; split <;> rfl
    | begin verb body =>
      simp only [Xt.step, Xt.begin]
      split
      · split
        · rfl
        · split
          · split <;> rfl
          · rfl
      · rfl
    | fetched j resp =>
      simp only [Xt.step, Xt.fetched]
      split
      · split <;> rfl
      · rfl
    | send j => simp only [Xt.step, Xt.send]; split <;> rfl
    | _ => rfl

/-- **C110.** What `QueryLastHttpResponse` gives is the status and the fields of the response that came last, its challenge the first
`WWW-Authenticate` field however its name is written; before the first response there is none. -/
theorem C110_last (o : XOpts) (s : Xt) (k : Nat) (r : XResp) (hr : r.status ≠ 0) (verb : XVerb) (hv : verb ≠ .get) (hk : s.xs[k]? = some (.sent verb))
    (more : List XOp) (hm : ∀ j r', .answer j r' ∉ more) :
    (s.run o (.answer k r :: more)).query =
      some ⟨r.status, r.fields, ((r.fields.find? (fun x => sameName x.1 (lit "WWW-Authenticate"))).map (·.2)).getD []⟩ := by
  have e : (s.run o (.answer k r :: more)).last = recorded r := by
    rw [xrun_cons, last_run o more hm]
    simp only [Xt.step, Xt.answer, hk]
    cases verb with
    | post => rfl
    | delete => rfl
    | get => exact absurd rfl hv
  unfold Xt.query
  rw [e, if_pos (.inl hr)]
  rfl

theorem C110_none (o : XOpts) (given : Option Cred) (ops : List XOp) (hm : ∀ j r', .answer j r' ∉ ops) : ((Xt.init given).run o ops).query = none := by
  unfold Xt.query
  rw [last_run o ops hm]
  simp [Xt.init]

/-- A reply of the server as it comes to the client, HTTPServer.cpp 651-696: the type of the body, the session id and the challenge if any. -/
def Http.Reply.asResponse (r : Reply) : XResp :=
  ⟨r.status, [(lit "Content-Type", lit "application/json")] ++ (if r.session = [] then [] else [(lit "Mcp-Session-Id", r.session)]) ++
    (if r.www = [] then [] else [(lit "WWW-Authenticate", r.www)]), r.body⟩

/-- **C110.** A client whose token the server refuses can look up what the server told it: the status, and in the challenge of
`QueryLastHttpResponse`, read by the parser of the library, the address of the metadata and the scopes that are required. Missing: addresses that
contain a comma, see C48. -/
theorem C110_discovery_partial (o : XOpts) (s : Xt) (k : Nat) (verb : XVerb) (hv : verb ≠ .get) (hk : s.xs[k]? = some (.sent verb)) (opts : BearerOpts)
    (hu : Bare opts.resourceMetadataUrl) (hne : opts.resourceMetadataUrl ≠ []) (status : Nat) (hst : status = 401 ∨ status = 403) (message : Bytes)
    (more : List XOp) (hm : ∀ j r', .answer j r' ∉ more) :
    ∃ info m, (s.run o (.answer k (authFailure opts status message).asResponse :: more)).query = some info ∧ info.status = status ∧
      (∀ fuel, info.challenge.length < fuel → parseChallenge fuel info.challenge = some (some m)) ∧
      Advertises status opts.resourceMetadataUrl opts.requiredScopes message (AMap.get m) := by
  obtain ⟨m, h1, h2⟩ := C48_server_partial status opts.resourceMetadataUrl opts.requiredScopes message hu
  have e : ((authFailure opts status message).asResponse.fields.find? (fun x => sameName x.1 (lit "WWW-Authenticate"))).map (·.2) =
      some (challengeFor status opts.resourceMetadataUrl opts.requiredScopes message) := by
    have hw : challengeFor status opts.resourceMetadataUrl opts.requiredScopes message ≠ [] := by
      intro h0
      have := h1 1 (by rw [h0]; simp)
      rw [h0] at this
      revert this
      exact fun h => by cases h
    simp only [Reply.asResponse, authFailure, if_neg hne, if_neg hw, if_true, List.append_nil]
    rw [List.cons_append, List.find?_cons_of_neg (by decide +kernel), List.nil_append, List.find?_cons_of_pos (by exact sameName_refl _)]
    rfl
  have hs : (authFailure opts status message).asResponse.status = status := by
    show (if status = 403 then 403 else 401) = status
    rcases hst with rfl | rfl <;> rfl
  have hq := C110_last o s k (authFailure opts status message).asResponse (by rw [hs]; rcases hst with rfl | rfl <;> decide) verb hv hk more hm
  refine ⟨_, m, hq, hs, ?_, h2⟩
  intro fuel hf
  dsimp only at hf ⊢
  rw [e] at hf ⊢
  exact h1 fuel hf


/-! ### Session ids -/

theorem sessionOf_skip (b : Fields) (hb : ∀ x ∈ b, x.1 ≠ lit "Mcp-Session-Id") :
    ∀ v : Bytes, b.foldl (fun sid x => if x.1 = lit "Mcp-Session-Id" then x.2 else sid) v = v := by
  induction b with
  | nil => intro v; rfl
  | cons x b ih =>
    intro v
    rw [List.foldl_cons, if_neg (hb x List.mem_cons_self)]
    exact ih (fun y hy => hb y (List.mem_cons_of_mem _ hy)) v

theorem sessionOf_last (a b : Fields) (v : Bytes) (hb : ∀ x ∈ b, x.1 ≠ lit "Mcp-Session-Id") : sessionOf (a ++ (lit "Mcp-Session-Id", v) :: b) = v := by
  unfold sessionOf
  rw [List.foldl_append, List.foldl_cons, if_pos rfl]
  exact sessionOf_skip b hb v

theorem sessionOf_none (b : Fields) (hb : ∀ x ∈ b, x.1 ≠ lit "Mcp-Session-Id") : sessionOf b = [] := sessionOf_skip b hb []

theorem sessionOf_mem (f : Fields) : sessionOf f = [] ∨ (lit "Mcp-Session-Id", sessionOf f) ∈ f := by
  have key : ∀ (f : Fields) (v : Bytes), f.foldl (fun sid x => if x.1 = lit "Mcp-Session-Id" then x.2 else sid) v = v ∨
      (lit "Mcp-Session-Id", f.foldl (fun sid x => if x.1 = lit "Mcp-Session-Id" then x.2 else sid) v) ∈ f := by
    intro f
    induction f with
    | nil => intro v; exact .inl rfl
    | cons x f ih =>
      intro v
      rw [List.foldl_cons]
      by_cases hx : x.1 = lit "Mcp-Session-Id"
      · rw [if_pos hx]
        rcases ih x.2 with h | h
        · right
          rw [h, ← hx]
          exact List.mem_cons_self
        · exact .inr (List.mem_cons_of_mem _ h)
      · rw [if_neg hx]
        exact (ih v).imp id (List.mem_cons_of_mem _)
  exact key f []

/-- An operation that leaves the session as it is: `Close` and responses that name one do not. -/
def NoSession : XOp → Prop
  | .answer _ r => ∀ x ∈ r.fields, x.1 ≠ lit "Mcp-Session-Id"
  | .forget => False
  | _ => True

theorem session_step (o : XOpts) (s : Xt) (op : XOp) (h : NoSession op) : (s.step o op).session = s.session := by
  cases op with
  | answer k r =>
    simp only [Xt.step, Xt.answer]
    split
    · rw [if_pos (sessionOf_none _ h)]
    · rfl
    · rfl
  | forget => exact absurd h id
  | setShared j => simp only [Xt.step]; split <;> rfl
  | setRef j => simp only [Xt.step]; split <;> rfl
  | begin verb body =>
    simp only [Xt.step, Xt.begin]
    split
    · split
      · rfl
      · split
        · split <;> rfl
        · rfl
    · rfl
  | fetched j resp =>
    simp only [Xt.step, Xt.fetched]
    split
    · split <;> rfl
    · rfl
  | send j => simp only [Xt.step, Xt.send]; split <;> rfl
  | _ => rfl

theorem session_run (o : XOpts) (more : List XOp) (h : ∀ op ∈ more, NoSession op) : ∀ s : Xt, (s.run o more).session = s.session := by
  induction more with
  | nil => intro s; rfl
  | cons op more ih =>
    intro s
    exact (ih (fun p hp => h p (List.mem_cons_of_mem _ hp)) _).trans (session_step o s op (h op List.mem_cons_self))

/-- **C110.** The session id a response to a POST gives is the one in force, which every request carries (`C110_plain`, `C110_carries`, `C110_token`),
until another response gives one or `Close`. Missing: a server that writes the name of the field in another case, see
`C110_session_counterexample`. -/
theorem C110_session_partial (o : XOpts) (s : Xt) (k : Nat) (r : XResp) (a b : Fields) (v : Bytes) (hk : s.xs[k]? = some (.sent .post))
    (hr : r.fields = a ++ (lit "Mcp-Session-Id", v) :: b) (hb : ∀ x ∈ b, x.1 ≠ lit "Mcp-Session-Id") (hv : v ≠ [])
    (more : List XOp) (hm : ∀ op ∈ more, NoSession op) : (s.run o (.answer k r :: more)).session = v := by
  rw [xrun_cons, session_run o more hm]
  simp only [Xt.step, Xt.answer, hk]
  rw [hr, sessionOf_last a b v hb, if_neg hv]

/-- **C110.** After `Close` the session is over: the next POST carries no session id, and no DELETE or stream request is made. -/
theorem C110_closed (o : XOpts) (s : Xt) (more : List XOp) (hm : ∀ op ∈ more, NoSession op) :
    (s.run o (.forget :: more)).session = [] ∧
      ∀ verb body, verb ≠ .post → (s.run o (.forget :: more)).step o (.begin verb body) = s.run o (.forget :: more) := by
  have e : (s.run o (.forget :: more)).session = [] := by rw [xrun_cons, session_run o more hm]; rfl
  refine ⟨e, fun verb body hv => ?_⟩
  show (s.run o (.forget :: more)).begin o verb body = _
  unfold Xt.begin
  rw [if_neg]
  unfold Xt.mayBegin
  simp [e, hv]

/-! ### All requests -/

/-- What is true of every exchange: `ok` says which session ids may be carried. -/
structure WireInv (o : XOpts) (ok : Bytes → Prop) (s : Xt) : Prop where
  now : ok s.session
  objs : ∀ x ∈ s.objs, OnlyAuth x.cred
  waiting : ∀ v f b i c, .waiting v f b i c ∈ s.xs → ∃ session, ok session ∧ f = baseFields o session v b ∧ (v = .post ∨ (o.streamable = true ∧ session ≠ []))
  ready : ∀ v f b, .ready v f b ∈ s.xs → ∃ session hs, ok session ∧ (∀ x ∈ hs, sameName x.1 (lit "Authorization") = true) ∧
    f = (baseFields o session v b).putAll hs ∧ (v = .post ∨ (o.streamable = true ∧ session ≠ []))
  wire : ∀ w ∈ s.wire, ∃ session auth, ok session ∧ Bears o session auth w.verb w.body w.fields ∧ (w.verb = .post ∨ (o.streamable = true ∧ session ≠ []))

theorem only_ensure (c : Cred) (h : OnlyAuth c) : OnlyAuth c.ensure.1 := by cases c <;> exact h
theorem only_resumed (c : Cred) (k : Nat) (r : Bytes) (h : OnlyAuth c) : OnlyAuth (c.resumed k r) := by cases c <;> exact h
theorem only_tick (c : Cred) (d : Nat) (h : OnlyAuth c) : OnlyAuth (c.tick d) := by cases c <;> exact h

theorem only_setCred (s : Xt) (i : Nat) (c : Cred) (h : ∀ x ∈ s.objs, OnlyAuth x.cred) (hc : OnlyAuth c) : ∀ x ∈ (s.setCred i c).objs, OnlyAuth x.cred := by
  intro x hx
  obtain ⟨n, hn⟩ := List.getElem?_of_mem hx
  simp only [Xt.setCred, List.getElem?_modify] at hn
  cases e : s.objs[n]? with
  | none => rw [e] at hn; cases hn
  | some y =>
    rw [e] at hn
    by_cases hi : i = n
    · simp only [hi, if_true, Option.map_eq_map, Option.map_some, Option.some.injEq] at hn
      rw [← hn]; exact hc
    · simp only [hi, if_false, Option.map_eq_map, Option.map_some, Option.some.injEq] at hn
      rw [← hn]; exact h y (List.mem_of_getElem? e)

theorem may_session (s : Xt) (o : XOpts) (verb : XVerb) (h : s.mayBegin o verb = true) : verb = .post ∨ (o.streamable = true ∧ s.session ≠ []) := by
  unfold Xt.mayBegin at h
  simp only [Bool.or_eq_true, decide_eq_true_eq, Bool.and_eq_true] at h
  refine h.imp id (fun h => ⟨h.1, ?_⟩)
  intro e
  rw [e] at h
  exact absurd h.2 (by simp)

theorem wire_step (o : XOpts) (ok : Bytes → Prop) (s : Xt) (op : XOp) (h : WireInv o ok s) (h0 : ok [])
    (hn : ∀ c, op = .new c → OnlyAuth c) (ha : ∀ k r, op = .answer k r → ∀ v, (lit "Mcp-Session-Id", v) ∈ r.fields → ok v) :
    WireInv o ok (s.step o op) := by
  have seto : ∀ (s' : Xt) (j : Nat) (y : XStage), ok s'.session → s'.objs = s.objs → s'.wire = s.wire → s'.xs = s.xs.set j y →
      (y = .over ∨ ∃ v, y = .sent v) → WireInv o ok s' := by
    intro s' j y h1 h2 h3 h4 h5
    refine ⟨h1, by rw [h2]; exact h.objs, ?_, ?_, by rw [h3]; exact h.wire⟩
    · intro v f b i c hm
      rw [h4] at hm
      rcases List.mem_or_eq_of_mem_set hm with hm | hm
      · exact h.waiting v f b i c hm
      · rcases h5 with h5 | ⟨_, h5⟩ <;> rw [h5] at hm <;> cases hm
    · intro v f b hm
      rw [h4] at hm
      rcases List.mem_or_eq_of_mem_set hm with hm | hm
      · exact h.ready v f b hm
      · rcases h5 with h5 | ⟨_, h5⟩ <;> rw [h5] at hm <;> cases hm
  cases op with
  | new c =>
    refine ⟨h.now, ?_, h.waiting, h.ready, h.wire⟩
    intro x hx
    simp only [Xt.step, List.mem_append, List.mem_singleton] at hx
    rcases hx with hx | rfl
    · exact h.objs x hx
    · exact hn c rfl
  | setShared j => simp only [Xt.step]; split <;> exact ⟨h.now, h.objs, h.waiting, h.ready, h.wire⟩
  | setRef j => simp only [Xt.step]; split <;> exact ⟨h.now, h.objs, h.waiting, h.ready, h.wire⟩
  | setNone => exact ⟨h.now, h.objs, h.waiting, h.ready, h.wire⟩
  | drop j =>
    refine ⟨h.now, ?_, h.waiting, h.ready, h.wire⟩
    intro x hx
    obtain ⟨n, hn⟩ := List.getElem?_of_mem hx
    simp only [Xt.step, List.getElem?_modify] at hn
    cases e : s.objs[n]? with
    | none => rw [e] at hn; cases hn
    | some y =>
      rw [e] at hn
      have := h.objs y (List.mem_of_getElem? e)
      by_cases hi : j = n
      · simp only [hi, if_true, Option.map_eq_map, Option.map_some, Option.some.injEq] at hn
        rw [← hn]; exact this
      · simp only [hi, if_false, Option.map_eq_map, Option.map_some, Option.some.injEq] at hn
        rw [← hn]; exact this
  | tick d =>
    refine ⟨h.now, ?_, h.waiting, h.ready, h.wire⟩
    intro x hx
    simp only [Xt.step, List.mem_map] at hx
    obtain ⟨y, hy, rfl⟩ := hx
    exact only_tick _ _ (h.objs y hy)
  | forget => exact ⟨h0, h.objs, h.waiting, h.ready, h.wire⟩
  | fail j => exact seto _ j _ h.now rfl rfl rfl (.inl rfl)
  | answer j r =>
    simp only [Xt.step, Xt.answer]
    split
    · refine seto _ j .over ?_ rfl rfl rfl (.inl rfl)
      dsimp only
      split
      · exact h.now
      · rename_i hne
        exact ha j r rfl _ ((sessionOf_mem r.fields).resolve_left hne)
    · exact seto _ j .over h.now rfl rfl rfl (.inl rfl)
    · exact h
  | send j =>
    simp only [Xt.step, Xt.send]
    split
    · rename_i v f b hj
      obtain ⟨session, hs, h1, h2, h3, h4⟩ := h.ready v f b (List.mem_of_getElem? hj)
      refine ⟨h.now, h.objs, ?_, ?_, ?_⟩
      · intro v f b i c hm
        rcases List.mem_or_eq_of_mem_set hm with hm | hm
        · exact h.waiting v f b i c hm
        · cases hm
      · intro v f b hm
        rcases List.mem_or_eq_of_mem_set hm with hm | hm
        · exact h.ready v f b hm
        · cases hm
      · intro w hw
        simp only [List.mem_append, List.mem_singleton] at hw
        rcases hw with hw | rfl
        · exact h.wire w hw
        · refine ⟨session, lastOf hs (lit "Authorization"), h1, ?_, h4⟩
          dsimp only
          rw [h3]
          exact carries_fields o session hs h2 v b (h4.imp id (·.1))
    · exact h
  | begin verb body =>
    simp only [Xt.step, Xt.begin]
    split
    · rename_i hb
      have hv := may_session s o verb hb
      have add : ∀ (s' : Xt) (y : XStage), s'.session = s.session → (∀ x ∈ s'.objs, OnlyAuth x.cred) → s'.wire = s.wire → s'.xs = s.xs ++ [y] →
          ((∃ hs, (∀ x ∈ hs, sameName x.1 (lit "Authorization") = true) ∧ y = .ready verb ((baseFields o s.session verb body).putAll hs) body) ∨
            ∃ i c, y = .waiting verb (baseFields o s.session verb body) body i c) → WireInv o ok s' := by
        intro s' y h1 h2 h3 h4 h5
        refine ⟨by rw [h1]; exact h.now, h2, ?_, ?_, by rw [h3]; exact h.wire⟩
        · intro v f b i c hm
          rw [h4, List.mem_append, List.mem_singleton] at hm
          rcases hm with hm | hm
          · exact h.waiting v f b i c hm
          · rcases h5 with ⟨hs, -, h5⟩ | ⟨i', c', h5⟩
            · rw [h5] at hm; cases hm
            · rw [h5] at hm; cases hm; exact ⟨s.session, h.now, rfl, hv⟩
        · intro v f b hm
          rw [h4, List.mem_append, List.mem_singleton] at hm
          rcases hm with hm | hm
          · exact h.ready v f b hm
          · rcases h5 with ⟨hs, h6, h5⟩ | ⟨i', c', h5⟩
            · rw [h5] at hm; cases hm; exact ⟨s.session, hs, h.now, h6, rfl, hv⟩
            · rw [h5] at hm; cases hm
      split
      · exact add _ _ rfl h.objs rfl rfl (.inl ⟨[], by simp, rfl⟩)
      · rename_i x hx
        split
        · rename_i _ _ old _ hold
          have ho := only_ensure _ (h.objs old (List.mem_of_getElem? hold))
          split
          · exact add _ _ rfl (only_setCred s x _ h.objs ho) rfl rfl (.inl ⟨_, only_auth _ ho, rfl⟩)
          · exact add _ _ rfl (only_setCred s x _ h.objs ho) rfl rfl (.inr ⟨_, _, rfl⟩)
        · exact ⟨h.now, h.objs, h.waiting, h.ready, h.wire⟩
    · exact h
  | fetched j resp =>
    simp only [Xt.step, Xt.fetched]
    split
    · rename_i vb fb bb x call hj
      split
      · rename_i _ _ old _ hold
        have ho := only_resumed _ call resp (h.objs old (List.mem_of_getElem? hold))
        obtain ⟨session, h1, h2, h3⟩ := h.waiting _ _ _ _ _ (List.mem_of_getElem? hj)
        refine ⟨h.now, only_setCred s x _ h.objs ho, ?_, ?_, h.wire⟩
        · intro v f b i c hm
          rcases List.mem_or_eq_of_mem_set hm with hm | hm
          · exact h.waiting v f b i c hm
          · cases hm
        · intro v f b hm
          rcases List.mem_or_eq_of_mem_set hm with hm | hm
          · exact h.ready v f b hm
          · cases hm; exact ⟨session, _, h1, only_auth _ ho, by rw [h2], h3⟩
      · exact ⟨h.now, h.objs, h.waiting, h.ready, h.wire⟩
    · exact h

/-- **C110.** Whatever happens, every request on the wire is one a server can take: Host, version, Accept, type and length of the body, and as
session id one that a response gave, if any; DELETE and the request for the stream are made only with one. This is with the
credentials of the library, or others that set only the Authorization field. -/
theorem C110_every (o : XOpts) (given : Option Cred) (ops : List XOp) (hg : ∀ c ∈ given, OnlyAuth c) (hn : ∀ c, .new c ∈ ops → OnlyAuth c) :
    ∀ w ∈ ((Xt.init given).run o ops).wire, ∃ session auth,
      (session = [] ∨ ∃ k r, .answer k r ∈ ops ∧ (lit "Mcp-Session-Id", session) ∈ r.fields) ∧ Bears o session auth w.verb w.body w.fields ∧
      (w.verb ≠ .post → o.streamable = true ∧ session ≠ []) := by
  have key : ∀ (ops : List XOp) (ok : Bytes → Prop), ok [] → (∀ c, .new c ∈ ops → OnlyAuth c) →
      (∀ k r, .answer k r ∈ ops → ∀ v, (lit "Mcp-Session-Id", v) ∈ r.fields → ok v) → ∀ s, WireInv o ok s → WireInv o ok (s.run o ops) := by
    intro ops ok h0
    induction ops with
    | nil => intro _ _ s h; exact h
    | cons op ops ih =>
      intro h1 h2 s h
      refine ih (fun c hc => h1 c (List.mem_cons_of_mem _ hc)) (fun k r hr => h2 k r (List.mem_cons_of_mem _ hr)) _ ?_
      exact wire_step o ok s op h h0 (fun c e => h1 c (by rw [e]; exact List.mem_cons_self)) (fun k r e => h2 k r (by rw [e]; exact List.mem_cons_self))
  have := key ops (fun v => v = [] ∨ ∃ k r, .answer k r ∈ ops ∧ (lit "Mcp-Session-Id", v) ∈ r.fields) (.inl rfl) hn
    (fun k r hr v hv => .inr ⟨k, r, hr, hv⟩) (Xt.init given) ⟨.inl rfl, ?_, ?_, ?_, ?_⟩
  · intro w hw
    obtain ⟨session, auth, h1, h2, h3⟩ := this.wire w hw
    exact ⟨session, auth, h1, h2, fun hne => h3.resolve_left hne⟩
  · intro x hx
    cases given with
    | none => cases hx
    | some c =>
      simp only [Xt.init, Option.map_some, Option.toList_some, List.mem_singleton] at hx
      rw [hx]; exact hg c rfl
  · intro v f b i c hm; cases hm
  · intro v f b hm; cases hm
  · intro w hw; cases hw

/-! ### What does not hold -/

theorem begin_wire (o : XOpts) (s : Xt) (verb : XVerb) (body : Bytes) : (s.begin o verb body).wire = s.wire := by
  simp only [Xt.begin]
  split
  · split
    · rfl
    · split
      · split <;> rfl
      · rfl
  · rfl

theorem fetched_wire (s : Xt) (k : Nat) (resp : Bytes) : (s.fetched k resp).wire = s.wire := by
  simp only [Xt.fetched]
  split
  · split <;> rfl
  · rfl

/-- **C110, false when a token cannot be fetched**: the endpoint does not answer or its answer holds no token. The request is sent all the same, with
the token that is no longer fresh, or without any. -/
theorem C110_fetch_counterexample (o : XOpts) (skew : Nat) (tk : Auth.Tk) (hf : tk.fresh skew = false) (body resp : Bytes)
    (hr : resp = [] ∨ Auth.tokenStr resp (lit "access_token") = none) :
    ∃ f, ((Xt.init (some (.oauth skew tk))).run o [.begin .post body, .fetched 0 resp, .send 0]).wire = [⟨.post, f, body⟩] ∧
      Bears o [] (bearerOf tk.token) .post body f := by
  have hal : ((Xt.init (some (.oauth skew tk))).run o [.begin .post body]).alive 0 = true := by
    have := force_step o (Xt.init (some (.oauth skew tk))) (.begin .post body) (fun h => h)
    have this : ((Xt.init (some (.oauth skew tk))).run o [.begin .post body]).strong = some 0 := this.1
    unfold Xt.alive
    rw [this]
    rfl
  obtain ⟨f, tk', kept', h1, h2, h3⟩ := C110_token (some (.oauth skew tk)) o [] _ rfl .post body resp [] [] 0 skew tk false rfl rfl rfl rfl hf (by simp) (by simp)
    hal
  have e : tk'.token = tk.token := by
    have h1 : ((Xt.init (some (.oauth skew tk))).begin o .post body).objs[0]? = some ⟨.oauth skew tk', kept'⟩ := h1
    have he : (Cred.oauth skew tk).ensure = (.oauth skew (tk.step skew .ensure), some tk.calls.length) := by simp [Cred.ensure, hf]
    simp [Xt.begin, Xt.mayBegin, Xt.init, Xt.inUse, Xt.alive, he, Xt.setCred] at h1
    rw [← h1.1]
    simp [Auth.Tk.step, hf]
  refine ⟨f, ?_, ?_⟩
  · refine h2.trans ?_
    have he : (Cred.oauth skew tk).ensure = (.oauth skew (tk.step skew .ensure), some tk.calls.length) := by simp [Cred.ensure, hf]
    have : ((Xt.init (some (.oauth skew tk))).run o [.begin .post body, .fetched 0 resp]).wire = [] :=
      (fetched_wire _ _ _).trans (begin_wire _ _ _ _)
    exact congrArg (· ++ [(⟨.post, f, body⟩ : XSent)]) this
  · rw [e] at h3
    rcases hr with hr | hr
    · rwa [if_pos hr] at h3
    · rw [hr, Option.getD_none, ite_self] at h3
      exact h3

theorem ub_step (o : XOpts) (s : Xt) (op : XOp) (h : s.ub = true) : (s.step o op).ub = true := by
  cases op with
  | answer k r => simp only [Xt.step, Xt.answer]; split <;> exact h
  | setShared j => simp only [Xt.step]; split <;> exact h
  | setRef j => simp only [Xt.step]; split <;> exact h
  | begin verb body =>
    simp only [Xt.step, Xt.begin]
    split
    · split
      · exact h
      · split
        · split <;> exact h
        · rfl
    · exact h
  | fetched j resp =>
    simp only [Xt.step, Xt.fetched]
    split
    · split
      · exact h
      · rfl
    · exact h
  | send j => simp only [Xt.step, Xt.send]; split <;> exact h
  | _ => exact h

theorem ub_run (o : XOpts) (ops : List XOp) : ∀ s : Xt, s.ub = true → (s.run o ops).ub = true := by
  induction ops with
  | nil => intro s h; exact h
  | cons op ops ih => intro s h; exact ih _ (ub_step o s op h)

/-- **C110, false when credentials are set while a token is fetched**: the OAuth object made from the options belongs to the transport alone, the request
that waits for its token uses it after `SetAuth` has destroyed it. -/
theorem C110_alive_counterexample (o : XOpts) (skew : Nat) (tk : Auth.Tk) (hf : tk.fresh skew = false) (body resp : Bytes) (more : List XOp) :
    ((Xt.init (some (.oauth skew tk))).run o ([.begin .post body, .setNone, .fetched 0 resp] ++ more)).ub = true := by
  rw [xrun_append]
  apply ub_run
  have he : (Cred.oauth skew tk).ensure = (.oauth skew (tk.step skew .ensure), some tk.calls.length) := by simp [Cred.ensure, hf]
  simp [Xt.run, Xt.step, Xt.begin, Xt.fetched, Xt.mayBegin, Xt.init, Xt.inUse, Xt.alive, Xt.held, he, Xt.setCred]

/-- **C110, false for a session id whose field is not written exactly `Mcp-Session-Id`** (names of fields are the same in any case): it is not
taken, and the requests after it carry none. -/
theorem C110_session_counterexample (o : XOpts) (name v body body' : Bytes) (hn : name ≠ lit "Mcp-Session-Id") (hs : sameName name (lit "Mcp-Session-Id") = true) :
    Fields.look [(name, v)] (lit "Mcp-Session-Id") = v ∧
      ∃ f f', ((Xt.init none).run o [.begin .post body, .send 0, .answer 0 ⟨200, [(name, v)], []⟩, .begin .post body', .send 1]).wire =
        [⟨.post, f, body⟩, ⟨.post, f', body'⟩] ∧ f'.look (lit "Mcp-Session-Id") = [] := by
  refine ⟨by simp [Fields.look, hs], finalFields o .post (baseFields o [] .post body), finalFields o .post (baseFields o [] .post body'), ?_, ?_⟩
  · simp [Xt.run, Xt.step, Xt.begin, Xt.send, Xt.answer, Xt.mayBegin, Xt.init, Xt.inUse, sessionOf, hn]
  · have := carries_fields o [] [] (by simp) .post body' (.inl rfl)
    cases hst : o.streamable with
    | true => exact this.session hst
    | false => exact (this.plain hst).1

/-! ### The hypotheses can be met -/

/-- A client with sessions over TLS. -/
def exOpts : XOpts := ⟨true, true, lit "10.0.0.1", lit "mcp.example.com"⟩

/-- The application gives a bearer object, the first response opens a session, and the next request carries both. -/
example : ∃ f, (((Xt.init none).run exOpts [.new (.bearer (lit "tok")), .setShared 0, .drop 0, .begin .post (lit "{}"), .send 0,
      .answer 0 ⟨200, [(lit "Mcp-Session-Id", lit "s1")], lit "{}"⟩]).run exOpts [.begin .post (lit "[]"), .setNone, .send 1]).wire[1]? = some ⟨.post, f, lit "[]"⟩ ∧
    Bears exOpts (lit "s1") (some (lit "Bearer tok")) .post (lit "[]") f := by
  refine ⟨finalFields exOpts .post ((baseFields exOpts (lit "s1") .post (lit "[]")).putAll [(lit "Authorization", lit "Bearer tok")]), ?_, ?_⟩
  · decide +kernel
  · exact carries_fields exOpts (lit "s1") [(lit "Authorization", lit "Bearer tok")] (by decide +kernel) .post (lit "[]") (.inl rfl)

example : ((Xt.init none).run exOpts [.new (.bearer (lit "tok"))]).held 0 = true := by decide +kernel

example : (Auth.Tk.init 5).fresh 30 = false ∧ Auth.tokenStr (lit "{\"access_token\":\"abc\"}") (lit "access_token") = some (lit "abc") := by decide +kernel

/-- A course by the rule of use with other credentials set while a token is fetched for shared ones. -/
example : CarefulRun exOpts (Xt.init none) [.new (.oauth 30 (Auth.Tk.init 5)), .setShared 0, .begin .post (lit "{}"), .new (.bearer (lit "t")), .setShared 1,
    .fetched 0 (lit "{\"access_token\":\"abc\"}"), .drop 1, .send 0] := by
  refine ⟨trivial, ?_, trivial, trivial, ?_, trivial, ?_, trivial, trivial⟩
  · intro i hi; cases hi
  · intro i hi
    have : (0 : Nat) = i := Option.some.inj hi
    subst this
    exact .inl (by decide +kernel)
  · left; decide +kernel

example : sameName (lit "mcp-session-id") (lit "Mcp-Session-Id") = true ∧ lit "mcp-session-id" ≠ lit "Mcp-Session-Id" := by decide +kernel

example : ((Xt.init none).run exOpts [.begin .post (lit "{}"), .send 0]).xs[0]? = some (.sent .post) := by decide +kernel

end Verif
