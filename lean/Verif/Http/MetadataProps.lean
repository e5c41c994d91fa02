import Verif.Http.ServerProps
import Verif.Json.Props

/-!
C85: the protected resource metadata the HTTP server publishes.
-/

namespace Verif
open Http

variable {D : Type} [DblFmt D]

/-- A text that stands for itself between quotes in JSON. -/
def Unquoted (v : Bytes) : Prop := ∀ c ∈ v, c ≠ '"' ∧ c ≠ '\\' ∧ 32 ≤ c.toNat

/-- The document: the authorization servers and the scopes that were set. -/
def MetadataOf (o : BearerOpts) : JVal D :=
  .obj [(lit "authorization_servers", .arr (o.authorizationServers.map .str)), (lit "scopes_supported", .arr (o.scopesSupported.map .str))]

/-- The directory of a path: what precedes its last slash, if there is one. -/
inductive DirOf : Bytes → Bytes → Prop
  | slash (dir last) : '/' ∉ last → DirOf (dir ++ '/' :: last) dir
  | none (path) : '/' ∉ path → DirOf path []

theorem escStr_unquoted (v : Bytes) (h : Unquoted v) : escStr v = v := by
  induction v with
  | nil => rfl
  | cons c v ih =>
    obtain ⟨h1, h2, h3⟩ := h c (List.mem_cons_self ..)
    have hc : escCh c = [c] := by
      have n1 : c ≠ '\n' := by rintro rfl; revert h3; decide
      have n2 : c ≠ '\r' := by rintro rfl; revert h3; decide
      have n3 : c ≠ '\t' := by rintro rfl; revert h3; decide
      unfold escCh
      rw [if_neg h1, if_neg h2, if_neg (by omega), if_neg (by omega), if_neg n1, if_neg n2, if_neg n3, if_neg (by omega)]
    rw [escStr, hc, ih (fun x hx => h x (List.mem_cons_of_mem _ hx))]
    rfl

theorem quotedList_eq (l : List Bytes) (h : ∀ v ∈ l, Unquoted v) : quotedList l = serList (l.map (JVal.str : Bytes → JVal D)) := by
  induction l with
  | nil => rfl
  | cons v l ih =>
    have hv := escStr_unquoted v (h v (List.mem_cons_self ..))
    cases l with
    | nil => simp [quotedList, serList, ser, serStr, hv]
    | cons w l =>
      have := ih (fun x hx => h x (List.mem_cons_of_mem _ hx))
      simp only [quotedList, List.map_cons, serList, ser, serStr, hv] at this ⊢
      rw [this]
      simp

theorem metadata_ser (o : BearerOpts) (h1 : ∀ v ∈ o.authorizationServers, Unquoted v) (h2 : ∀ v ∈ o.scopesSupported, Unquoted v) :
    metadataJson o = ser (MetadataOf o : JVal D) := by
  unfold metadataJson MetadataOf
  rw [quotedList_eq (D := D) _ h1, quotedList_eq (D := D) _ h2]
  simp [ser, serFields, lit]

theorem wireList_strs (l : List Bytes) : WireList (l.map (JVal.str : Bytes → JVal D)) := by
  induction l with
  | nil => simp [WireList]
  | cons v l ih => simpa [WireList, JVal.Wire] using ih

theorem metadata_wire (o : BearerOpts) : (MetadataOf o : JVal D).Wire := by
  simp only [MetadataOf, JVal.Wire, WireFields]
  exact ⟨⟨by simp [PlainText, lit], wireList_strs _, by simp [PlainText, lit], wireList_strs _, trivial⟩, by show [lit "authorization_servers", lit "scopes_supported"].Nodup; decide⟩

theorem baseOf_dir (path dir : Bytes) (h : DirOf path dir) : baseOf path = dir := by
  unfold baseOf
  cases h with
  | slash _ last hl =>
    have : (dir ++ '/' :: last).reverse = last.reverse ++ '/' :: dir.reverse := by simp
    rw [this, splitCh_at '/' last.reverse dir.reverse (by simpa using hl)]
    simp
  | none _ hp =>
    rw [splitCh_absent '/' path.reverse (by simpa using hp)]

/-- **C85 (partial).** A GET of the well-known path, or of the well-known path followed by the directory of the path requests go to, is answered with 200 and a JSON
document of exactly the authorization servers and scopes that were set, without authentication and without running anything; other verbs
get 405. Missing: names that need escaping in JSON (below). -/
theorem C85_metadata_partial (loopback : Bytes → Bool) (o : SrvOpts) (a : AuthCfg) (now : Int) (h : Option TokenInfo → Handlers D) (s : Hs D)
    (drawn : Bytes) (req : HttpReq) (dir : Bytes) (hdir : DirOf (if o.endpointPath = [] then o.rpcPath else o.endpointPath) dir)
    (ht : req.target = lit "/.well-known/oauth-protected-resource" ∨ req.target = lit "/.well-known/oauth-protected-resource" ++ dir)
    (hl : localHeaders loopback o.address req.host req.origin = none)
    (hns : o.endpointPath ≠ [] → req.target ≠ (if o.streamPath = [] then o.endpointPath else o.streamPath))
    (h1 : ∀ v ∈ a.opts.authorizationServers, Unquoted v) (h2 : ∀ v ∈ a.opts.scopesSupported, Unquoted v) :
    let r := serve loopback o a now h s drawn req
    NoEffect r ∧
    (req.verb = .get → ∃ body, r.reply = some ⟨200, body, [], []⟩ ∧ parseJson body = .ok (MetadataOf a.opts : JVal D) []) ∧
    (req.verb ≠ .get → ∃ body, r.reply = some ⟨405, body, [], []⟩) := by
  have hstream : (if o.streamable then o.endpointPath else o.rpcPath) = if o.endpointPath = [] then o.rpcPath else o.endpointPath := by
    unfold SrvOpts.streamable
    cases o.endpointPath <;> rfl
  have hwk : req.target = wellKnown ∨ req.target = o.wellKnownBase := by
    unfold SrvOpts.wellKnownBase
    rw [hstream, baseOf_dir _ _ hdir]
    exact ht
  have hserve : serve loopback o a now h s drawn req =
      if req.verb ≠ .get then .just 405 (lit "{\"error\":\"GET required\"}") else .just 200 (metadataJson a.opts) := by
    unfold serve
    rw [if_neg (by
      rintro ⟨e1, -, e3⟩
      have : o.endpointPath ≠ [] := by
        intro e; unfold SrvOpts.streamable at e1; rw [e] at e1; cases e1
      exact hns this e3)]
    unfold makeResponse
    rw [hl]
    simp only
    rw [if_pos hwk]
  simp only
  rw [hserve]
  refine ⟨?_, fun hg => ?_, fun hg => ?_⟩
  · split <;> exact quiet_just _ _
  · rw [if_neg (by simpa using hg)]
    refine ⟨_, rfl, ?_⟩
    rw [metadata_ser (D := D) a.opts h1 h2]
    have := C02_value_roundtrip_partial (MetadataOf a.opts : JVal D) (metadata_wire _) [] (by simp [NumStop])
    rwa [List.append_nil] at this
  · rw [if_pos hg]
    exact ⟨_, rfl⟩

example : DirOf (lit "/mcp/rpc") (lit "/mcp") ∧ DirOf (lit "/mcp") [] ∧ Unquoted (lit "https://auth.example.com/tenant") :=
  ⟨.slash (lit "/mcp") (lit "rpc") (by decide), .slash [] (lit "mcp") (by decide), by
    show ∀ c ∈ lit "https://auth.example.com/tenant", c ≠ '"' ∧ c ≠ '\\' ∧ 32 ≤ c.toNat
    decide +kernel⟩

/-- **C85 does not hold** of names with a quote: they are not escaped, and one scope is read as two. -/
theorem C85_quote_counterexample :
    ∃ o : BearerOpts, o.scopesSupported = [lit "a\",\"b"] ∧
      parseJson (D := Empty) (metadataJson o) = .ok (.obj [(lit "authorization_servers", .arr []),
        (lit "scopes_supported", .arr [.str (lit "a"), .str (lit "b")])]) [] :=
  ⟨⟨[], [], [], [lit "a\",\"b"]⟩, rfl, by decide +kernel⟩

end Verif
