import Verif.Auth.DiscoveryProps
import Verif.Http.MetadataProps

/-!
# C87 and C89: what discovery reads, and that it finds what the server publishes
-/

namespace Verif
open Auth

/-! ### Documents -/

/-- The text of a JSON string between its quotes, with the escapes of RFC 8259 except `\\b`, `\\f` and `\\u`. -/
inductive Escapes : Bytes → Bytes → Prop
  | nil : Escapes [] []
  | plain (c : Char) {e t : Bytes} : c ≠ '"' → c ≠ '\\' → Escapes e t → Escapes (c :: e) (c :: t)
  | quote {e t : Bytes} : Escapes e t → Escapes ('\\' :: '"' :: e) ('"' :: t)
  | back {e t : Bytes} : Escapes e t → Escapes ('\\' :: '\\' :: e) ('\\' :: t)
  | slash {e t : Bytes} : Escapes e t → Escapes ('\\' :: '/' :: e) ('/' :: t)
  | newline {e t : Bytes} : Escapes e t → Escapes ('\\' :: 'n' :: e) ('\n' :: t)
  | ret {e t : Bytes} : Escapes e t → Escapes ('\\' :: 'r' :: e) ('\r' :: t)
  | tab {e t : Bytes} : Escapes e t → Escapes ('\\' :: 't' :: e) ('\t' :: t)

/-- The rest of an array of strings after an item, up to its bracket, and whatever follows. -/
inductive MoreItems : List Bytes → Bytes → Prop
  | nil {w : Bytes} (rest : Bytes) : JsonBlank w → MoreItems [] (w ++ ']' :: rest)
  | cons {w w' e v s : Bytes} {vs : List Bytes} : JsonBlank w → JsonBlank w' → Escapes e v → MoreItems vs s →
      MoreItems (v :: vs) (w ++ ',' :: (w' ++ '"' :: (e ++ '"' :: s)))

/-- An array of strings after its bracket. -/
inductive Items : List Bytes → Bytes → Prop
  | nil {w : Bytes} (rest : Bytes) : JsonBlank w → Items [] (w ++ ']' :: rest)
  | cons {w e v s : Bytes} {vs : List Bytes} : JsonBlank w → Escapes e v → MoreItems vs s →
      Items (v :: vs) (w ++ '"' :: (e ++ '"' :: s))

/-- The document has a string under the name, or does not have the name at all and the text is empty. -/
def SaysStr (body name t : Bytes) : Prop :=
  (∃ e more, Escapes e t ∧ JsonMember body name ('"' :: (e ++ '"' :: more))) ∨ (¬ NamesKey body name ∧ t = [])

/-- The document has an array of strings under the name, or does not have the name at all and the list is empty. -/
def SaysList (body name : Bytes) (l : List Bytes) : Prop :=
  (∃ s, Items l s ∧ JsonMember body name ('[' :: s)) ∨ (¬ NamesKey body name ∧ l = [])

/-- The document has a truth value under the name, or does not have the name at all. -/
def SaysBool (body name : Bytes) (b : Bool) : Prop :=
  (∃ more, JsonMember body name ((if b then lit "true" else lit "false") ++ more)) ∨ (¬ NamesKey body name ∧ b = false)

private theorem strValue_close (r : Bytes) : strValue ('"' :: r) = ([], some r) := by
  cases r with
  | nil => rfl
  | cons d r =>
    unfold strValue
    rw [if_neg (by decide), if_pos rfl]

private theorem strValue_plain (c : Char) (s : Bytes) (hs : s ≠ []) (h1 : c ≠ '"') (h2 : c ≠ '\\') :
    strValue (c :: s) = (c :: (strValue s).1, (strValue s).2) := by
  cases s with
  | nil => exact absurd rfl hs
  | cons d r =>
    rw [strValue, if_neg h2, if_neg h1]

private theorem strValue_esc (d : Char) (r : Bytes) : strValue ('\\' :: d :: r) = (unescCh d :: (strValue r).1, (strValue r).2) := by
  rw [strValue, if_pos rfl]

theorem strValue_text {e t : Bytes} (h : Escapes e t) (more : Bytes) : strValue (e ++ '"' :: more) = (t, some more) := by
  induction h with
  | nil => exact strValue_close more
  | plain c h1 h2 h ih => rw [List.cons_append, strValue_plain c _ (by simp) h1 h2, ih]
  | quote h ih => rw [List.cons_append, List.cons_append, strValue_esc, ih]; rfl
  | back h ih => rw [List.cons_append, List.cons_append, strValue_esc, ih]; rfl
  | slash h ih => rw [List.cons_append, List.cons_append, strValue_esc, ih]; rfl
  | newline h ih => rw [List.cons_append, List.cons_append, strValue_esc, ih]; rfl
  | ret h ih => rw [List.cons_append, List.cons_append, strValue_esc, ih]; rfl
  | tab h ih => rw [List.cons_append, List.cons_append, strValue_esc, ih]; rfl

theorem memberValue_at {body name rest : Bytes} (h : JsonMember body name rest) (hr : ∀ c ∈ rest.head?, isWs c = false) :
    memberValue body name = some rest := by
  obtain ⟨pre, w, v, rfl, hn, hw, hv⟩ := h
  unfold memberValue
  rw [quoted_first name pre _ hn]
  simp only []
  rw [skipWs_blank w _ hw (by intro c hc; simp at hc; subst hc; decide)]
  simp only []
  rw [skipWs_blank v rest hv hr]

theorem memberValue_none {body name : Bytes} (h : ¬ NamesKey body name) : memberValue body name = none := by
  unfold memberValue
  rw [quoted_none body name h]

theorem docStr_says {body name t : Bytes} (h : SaysStr body name t) : docStr body name = t := by
  unfold docStr
  rcases h with ⟨e, more, he, hm⟩ | ⟨hn, rfl⟩
  · rw [memberValue_at hm (by intro c hc; simp at hc; subst hc; decide)]
    simp only []
    rw [strValue_text he]
  · rw [memberValue_none hn]

private theorem docItems_more {vs : List Bytes} {s : Bytes} (h : MoreItems vs s) : ∀ fuel, vs.length < fuel → docItems fuel s = vs := by
  induction h with
  | nil rest hw =>
    intro fuel hf
    obtain ⟨f, rfl⟩ : ∃ f, fuel = f + 1 := ⟨fuel - 1, by omega⟩
    rw [docItems, skipWs_blank _ _ hw (by intro c hc; simp at hc; subst hc; decide)]
    rfl
  | cons hw hw' he hm ih =>
    intro fuel hf
    obtain ⟨f, rfl⟩ : ∃ f, fuel = f + 1 := ⟨fuel - 1, by omega⟩
    rw [docItems, skipWs_blank _ _ hw (by intro c hc; simp at hc; subst hc; decide)]
    simp only []
    rw [skipWs_blank _ _ hw' (by intro c hc; simp at hc; subst hc; decide)]
    simp only [strValue_text he]
    rw [ih f (by simp at hf; omega)]

private theorem more_length {vs : List Bytes} {s : Bytes} (h : MoreItems vs s) : vs.length ≤ s.length := by
  induction h with
  | nil rest hw => simp
  | cons hw hw' he hm ih => simp; omega

private theorem docItems_items {vs : List Bytes} {s : Bytes} (h : Items vs s) : docItems (s.length + 1) s = vs := by
  cases h with
  | nil rest hw =>
    rw [docItems, skipWs_blank _ _ hw (by intro c hc; simp at hc; subst hc; decide)]
    rfl
  | cons hw he hm =>
    have hl := more_length hm
    rw [docItems, skipWs_blank _ _ hw (by intro c hc; simp at hc; subst hc; decide)]
    simp only [strValue_text he]
    rw [docItems_more hm _ (by simp; omega)]

theorem docList_says {body name : Bytes} {l : List Bytes} (h : SaysList body name l) : docList body name = l := by
  unfold docList
  rcases h with ⟨s, hi, hm⟩ | ⟨hn, rfl⟩
  · rw [memberValue_at hm (by intro c hc; simp at hc; subst hc; decide)]
    exact docItems_items hi
  · rw [memberValue_none hn]

theorem docBool_says {body name : Bytes} {b : Bool} (h : SaysBool body name b) : docBool body name = b := by
  unfold docBool
  rcases h with ⟨more, hm⟩ | ⟨hn, rfl⟩
  · cases b with
    | true =>
      rw [memberValue_at hm (by intro c hc; simp [lit] at hc; subst hc; decide)]
      exact List.isPrefixOf_iff_prefix.2 (List.prefix_append _ _)
    | false =>
      rw [memberValue_at hm (by intro c hc; simp [lit] at hc; subst hc; decide)]
      rfl
  · rw [memberValue_none hn]

/-- **C87, partial.** The metadata of an authorization server is read as the document says: each member that is given
as a string, an array of strings or a truth value, in any layout and with the usual escapes, is read as it is, members
not given are empty, and the document counts iff it names a token endpoint. Missing: documents in which a quoted name
occurs before the member (`C87_nested_counterexample`), and the escapes `\\b`, `\\f` and `\\u`
(`C87_escape_counterexample`). -/
theorem C87_issuer_partial (body i a t r j : Bytes) (sc rt gt am : List Bytes) (cid : Bool)
    (h1 : SaysStr body (lit "issuer") i) (h2 : SaysStr body (lit "authorization_endpoint") a)
    (h3 : SaysStr body (lit "token_endpoint") t) (h4 : SaysStr body (lit "registration_endpoint") r)
    (h5 : SaysStr body (lit "jwks_uri") j) (h6 : SaysList body (lit "scopes_supported") sc)
    (h7 : SaysList body (lit "response_types_supported") rt) (h8 : SaysList body (lit "grant_types_supported") gt)
    (h9 : SaysList body (lit "token_endpoint_auth_methods_supported") am)
    (h10 : SaysBool body (lit "client_id_metadata_document_supported") cid) :
    (parseIssuerMeta body).2 = ⟨i, a, t, r, j, sc, rt, gt, am, cid⟩ ∧ ((parseIssuerMeta body).1 = true ↔ t ≠ []) := by
  unfold parseIssuerMeta
  simp only [docStr_says h1, docStr_says h2, docStr_says h3, docStr_says h4, docStr_says h5, docList_says h6,
    docList_says h7, docList_says h8, docList_says h9, docBool_says h10]
  exact ⟨trivial, by cases t <;> simp⟩

/-- **C87, partial**, the same for the metadata of a protected resource, which counts iff it names an authorization
server. -/
theorem C87_resource_partial (body r b d : Bytes) (as sc : List Bytes)
    (h1 : SaysStr body (lit "resource") r) (h2 : SaysList body (lit "authorization_servers") as)
    (h3 : SaysList body (lit "scopes_supported") sc) (h4 : SaysStr body (lit "bearer_methods_supported") b)
    (h5 : SaysStr body (lit "resource_documentation") d) :
    (parseResourceMeta body).2 = ⟨r, as, sc, b, d⟩ ∧ ((parseResourceMeta body).1 = true ↔ as ≠ []) := by
  unfold parseResourceMeta
  simp only [docStr_says h1, docList_says h2, docList_says h3, docStr_says h4, docStr_says h5]
  exact ⟨trivial, by cases as <;> simp⟩

/-- A document as issuers publish it. -/
def issuerDoc : Bytes :=
  lit "{\n  \"issuer\": \"https:\\/\\/a.example\",\n  \"token_endpoint\": \"https://a.example/token\",\n  \"scopes_supported\": [ \"read\", \"write\" ]\n}"

private theorem noName (s name : Bytes) (h : splitSub ('"' :: name ++ ['"']) s = none) : ¬ NamesKey s name := splitSub_eq_none h

private theorem plainEsc (t : Bytes) (h : ∀ c ∈ t, c ≠ '"' ∧ c ≠ '\\') : Escapes t t := by
  induction t with
  | nil => exact .nil
  | cons c t ih =>
    have hc := h c List.mem_cons_self
    exact .plain c hc.1 hc.2 (ih (fun x hx => h x (List.mem_cons_of_mem _ hx)))

private theorem blankOf (w : Bytes) (h : ∀ c ∈ w, c = ' ' ∨ c = '\t' ∨ c = '\r' ∨ c = '\n') : JsonBlank w := h

example : SaysStr issuerDoc (lit "issuer") (lit "https://a.example") ∧
    SaysStr issuerDoc (lit "token_endpoint") (lit "https://a.example/token") ∧
    SaysList issuerDoc (lit "scopes_supported") [lit "read", lit "write"] ∧ SaysStr issuerDoc (lit "jwks_uri") [] ∧
    SaysBool issuerDoc (lit "client_id_metadata_document_supported") false := by
  refine ⟨Or.inl ⟨lit "https:\\/\\/a.example", lit ",\n  \"token_endpoint\": \"https://a.example/token\",\n  \"scopes_supported\": [ \"read\", \"write\" ]\n}", ?_,
      lit "{\n  ", [], lit " ", by decide +kernel, noName _ _ (by decide +kernel), blankOf _ (by decide), blankOf _ (by decide)⟩,
    Or.inl ⟨lit "https://a.example/token", lit ",\n  \"scopes_supported\": [ \"read\", \"write\" ]\n}", plainEsc _ (by decide),
      lit "{\n  \"issuer\": \"https:\\/\\/a.example\",\n  ", [], lit " ", by decide +kernel, noName _ _ (by decide +kernel), blankOf _ (by decide), blankOf _ (by decide)⟩,
    Or.inl ⟨lit " \"read\", \"write\" ]\n}", ?_,
      lit "{\n  \"issuer\": \"https:\\/\\/a.example\",\n  \"token_endpoint\": \"https://a.example/token\",\n  ", [], lit " ", by decide +kernel, noName _ _ (by decide +kernel), blankOf _ (by decide), blankOf _ (by decide)⟩,
    Or.inr ⟨noName _ _ (by decide +kernel), rfl⟩, Or.inr ⟨noName _ _ (by decide +kernel), rfl⟩⟩
  · have h0 : Escapes (lit "a.example") (lit "a.example") := plainEsc _ (by decide)
    exact .plain 'h' (by decide) (by decide) (.plain 't' (by decide) (by decide) (.plain 't' (by decide) (by decide)
      (.plain 'p' (by decide) (by decide) (.plain 's' (by decide) (by decide) (.plain ':' (by decide) (by decide)
        (.slash (.slash h0)))))))
  · exact Items.cons (w := lit " ") (e := lit "read") (s := lit ", \"write\" ]\n}") (blankOf _ (by decide)) (plainEsc _ (by decide))
      (MoreItems.cons (w := []) (w' := lit " ") (e := lit "write") (s := lit " ]\n}") (blankOf _ (by decide)) (blankOf _ (by decide))
        (plainEsc _ (by decide)) (MoreItems.nil (w := lit " ") (lit "\n}") (blankOf _ (by decide))))

/-- Two documents that are read wrongly: a nested member of the same name before the member, as RFC 8705 section 5
allows, and an escape by code point. -/
def nestedDoc : Bytes :=
  lit "{\"mtls_endpoint_aliases\":{\"token_endpoint\":\"https://mtls.a.example/token\"},\"token_endpoint\":\"https://a.example/token\"}"
def escapeDoc : Bytes := lit "{\"token_endpoint\":\"https://a.example/token?a=1\\u0026b=2\"}"

/-- **C87 is false of nested names**: the JSON parser of this library reads the member of the document, discovery the
nested one. -/
theorem C87_nested_counterexample :
    parseJson (D := Empty) nestedDoc = .ok (.obj [(lit "mtls_endpoint_aliases",
        .obj [(lit "token_endpoint", .str (lit "https://mtls.a.example/token"))]),
      (lit "token_endpoint", .str (lit "https://a.example/token"))]) [] ∧
    (parseIssuerMeta nestedDoc).2.tokenEndpoint = lit "https://mtls.a.example/token" :=
  ⟨by decide +kernel, by decide +kernel⟩

/-- **C87 is false of escapes by code point**: the `u` and the digits are taken as text. -/
theorem C87_escape_counterexample :
    parseJson (D := Empty) escapeDoc = .ok (.obj [(lit "token_endpoint", .str (lit "https://a.example/token?a=1&b=2"))]) [] ∧
    (parseIssuerMeta escapeDoc).2.tokenEndpoint = lit "https://a.example/token?a=1u0026b=2" :=
  ⟨by decide +kernel, by decide +kernel⟩

/-! ### Discovery -/

private theorem probe_asked {M : Type} (parse : Bytes → Bool × M) (web : Web) (urls : List Bytes) :
    ∀ x ∈ (probe parse web urls).2, x ∈ urls := by
  induction urls with
  | nil => intro x hx; simp [probe] at hx
  | cons u urls ih =>
    intro x hx
    unfold probe at hx
    split at hx
    · simp at hx; simp [hx]
    · rcases List.mem_cons.1 hx with hx | hx
      · simp [hx]
      · exact List.mem_cons_of_mem _ (ih x hx)

/-- The document served at a URL counts. -/
def Counts {M : Type} (parse : Bytes → Bool × M) (web : Web) (x : Bytes) : Prop :=
  (web x).1 = 200 ∧ (web x).2 ≠ [] ∧ (parse (web x).2).1 = true

private theorem probe_some {M : Type} (parse : Bytes → Bool × M) (web : Web) (urls : List Bytes) (m : M)
    (h : (probe parse web urls).1 = some m) :
    ∃ before x after, urls = before ++ x :: after ∧ (∀ y ∈ before, ¬ Counts parse web y) ∧ Counts parse web x ∧ m = (parse (web x).2).2 ∧
      (probe parse web urls).2 = before ++ [x] := by
  induction urls with
  | nil => simp [probe] at h
  | cons u urls ih =>
    unfold probe at h
    split at h
    · rename_i hc
      simp at h
      exact ⟨[], u, urls, rfl, by simp, hc, h.symm, by unfold probe; rw [if_pos hc]; rfl⟩
    · rename_i hc
      obtain ⟨b, x, a, he, hb, hx, hm, ha⟩ := ih h
      refine ⟨u :: b, x, a, by rw [he]; rfl, ?_, hx, hm, by unfold probe; rw [if_neg hc]; exact congrArg (u :: ·) ha⟩
      intro y hy
      rcases List.mem_cons.1 hy with rfl | hy
      · exact hc
      · exact hb y hy

private theorem probe_none {M : Type} (parse : Bytes → Bool × M) (web : Web) (urls : List Bytes)
    (h : (probe parse web urls).1 = none) : (∀ y ∈ urls, ¬ Counts parse web y) ∧ (probe parse web urls).2 = urls := by
  induction urls with
  | nil => exact ⟨fun y hy => by simp at hy, rfl⟩
  | cons u urls ih =>
    unfold probe at h
    split at h
    · simp at h
    · rename_i hc
      refine ⟨?_, by unfold probe; rw [if_neg hc]; exact congrArg (u :: ·) (ih h).2⟩
      intro y hy
      rcases List.mem_cons.1 hy with rfl | hy
      · exact hc
      · exact (ih h).1 y hy

/-- **C89**, what is returned was published: discovery of a protected resource asks only the URL of the challenge and
URLs of the origin of the server, and what it returns is either nothing or the document of one of the URLs it asked,
which was delivered with a success status. -/
theorem C89_sound (web : Web) (rm : Bytes) (u : WebUrl) (h : u.Ok) (hs : Lower u.scheme) :
    (∀ x ∈ (discoverResource web rm u.text).2, x = rm ∨ ∃ v : WebUrl, v.Ok ∧ SameOrigin u v ∧ x = v.text) ∧
    ((discoverResource web rm u.text).1 = .empty ∨
      ∃ x ∈ (discoverResource web rm u.text).2, 200 ≤ (web x).1 ∧ (web x).1 < 300 ∧ (web x).2 ≠ [] ∧
        parseResourceMeta (web x).2 = (true, (discoverResource web rm u.text).1)) := by
  unfold discoverResource
  simp only []
  split
  · rename_i hc
    obtain ⟨hne, hb, hp⟩ := hc
    have hst : 200 ≤ (web rm).1 ∧ (web rm).1 < 300 :=
      Decidable.byContradiction fun hz => hb (by unfold getBody; rw [if_neg hz])
    have he : getBody web rm = (web rm).2 := by unfold getBody; rw [if_pos hst]
    rw [he] at hb hp
    refine ⟨fun x hx => Or.inl (by simpa using hx), Or.inr ⟨rm, by simp, hst.1, hst.2, hb, ?_⟩⟩
    rw [he, ← hp]
  · refine ⟨fun x hx => ?_, ?_⟩
    · rcases List.mem_append.1 hx with hx | hx
      · split at hx
        · exact Or.inl (by simpa using hx)
        · simp at hx
      · exact Or.inr (C51_origin_partial u h hs x (Or.inl (probe_asked _ _ _ x hx)))
    · cases hp : (probe parseResourceMeta web (resourceUrls u.text)).1 with
      | none => exact Or.inl rfl
      | some m =>
        right
        have key : ∀ (urls : List Bytes) (m : ResourceMeta), (probe parseResourceMeta web urls).1 = some m →
            ∃ x ∈ (probe parseResourceMeta web urls).2, (web x).1 = 200 ∧ (web x).2 ≠ [] ∧ parseResourceMeta (web x).2 = (true, m) := by
          intro urls
          induction urls with
          | nil => intro m h; simp [probe] at h
          | cons w urls ih =>
            intro m h
            unfold probe at h ⊢
            split at h
            · rename_i hc
              rw [if_pos hc]
              simp at h
              exact ⟨w, by simp, hc.1, hc.2.1, by rw [← h, ← hc.2.2]⟩
            · rename_i hc
              rw [if_neg hc]
              obtain ⟨x, hx, h3⟩ := ih m h
              exact ⟨x, List.mem_cons_of_mem _ hx, h3⟩
        obtain ⟨x, hx, h1, h2, h3⟩ := key _ m hp
        exact ⟨x, List.mem_append_right _ hx, by omega, by omega, h2, h3⟩

/-- **C89**, and the first document that counts is the one returned, for authorization servers: if any of the URLs of
the issuer serves a document that counts, discovery returns the one of the first such URL in the order of `C86_issuer`;
if none does, it returns nothing. It asks no URL after that first one, and all of them when none counts. -/
theorem C89_first (web : Web) (url : Bytes) :
    (∃ before x after, issuerUrls url = before ++ x :: after ∧ (∀ y ∈ before, ¬ Counts parseIssuerMeta web y) ∧
      Counts parseIssuerMeta web x ∧ (discoverIssuer web url).1 = (parseIssuerMeta (web x).2).2 ∧ (discoverIssuer web url).2 = before ++ [x]) ∨
    ((∀ y ∈ issuerUrls url, ¬ Counts parseIssuerMeta web y) ∧ (discoverIssuer web url).1 = .empty ∧ (discoverIssuer web url).2 = issuerUrls url) := by
  unfold discoverIssuer
  simp only []
  cases hp : (probe parseIssuerMeta web (issuerUrls url)).1 with
  | none => exact Or.inr ⟨(probe_none _ _ _ hp).1, rfl, (probe_none _ _ _ hp).2⟩
  | some m =>
    obtain ⟨b, x, a, he, hb, hx, hm, ha⟩ := probe_some _ _ _ _ hp
    exact Or.inl ⟨b, x, a, he, hb, hx, hm, ha⟩

/-! ### What the server publishes is found -/

open Http

variable {D : Type} [DblFmt D]

/-- The answer of the server to a GET, as a client sees it. -/
def answerOf (r : Served D) : Nat × Bytes :=
  match r.reply with
  | some a => (a.status, a.body)
  | none => (0, [])

/-- A GET with nothing but the target and the host. -/
def plainGet (host target : Bytes) : HttpReq := ⟨.get, target, host, [], [], [], [], []⟩

/-- The URLs of the origin of `u` are answered by this server, each at some time and in some state of it. -/
def AnsweredBy (web : Web) (u : WebUrl) (loopback : Bytes → Bool) (o : SrvOpts) (a : AuthCfg) (h : Option TokenInfo → Handlers D) : Prop :=
  ∀ v : WebUrl, v.Ok → SameOrigin u v → ∃ (now : Int) (s : Hs D) (drawn : Bytes),
    web v.text = answerOf (serve loopback o a now h s drawn (plainGet u.host (if v.path = [] then lit "/" else v.path)))

private theorem guarded_get (a : AuthCfg) (now : Int) (req : HttpReq) (k : Option TokenInfo → Served D)
    (hk : ∀ t, ¬ (200 ≤ (answerOf (k t)).1 ∧ (answerOf (k t)).1 < 300) ∨ (answerOf (k t)).2 = []) :
    ¬ (200 ≤ (answerOf (guarded a now req k)).1 ∧ (answerOf (guarded a now req k)).1 < 300) ∨ (answerOf (guarded a now req k)).2 = [] := by
  unfold guarded
  split
  · exact hk _
  · exact Or.inr rfl
  · left
    unfold answerOf authFailure
    simp only []
    split <;> decide
  · exact hk _

/-- A GET that is answered with success and a body was answered with the metadata. -/
theorem get_ok (loopback : Bytes → Bool) (o : SrvOpts) (a : AuthCfg) (now : Int) (h : Option TokenInfo → Handlers D) (s : Hs D)
    (drawn host target : Bytes) :
    ¬ (200 ≤ (answerOf (serve loopback o a now h s drawn (plainGet host target))).1 ∧
      (answerOf (serve loopback o a now h s drawn (plainGet host target))).1 < 300) ∨
    (answerOf (serve loopback o a now h s drawn (plainGet host target))).2 = [] ∨
    answerOf (serve loopback o a now h s drawn (plainGet host target)) = (200, metadataJson a.opts) := by
  have hverb : (plainGet host target).verb = .get := rfl
  unfold serve
  split
  · unfold openEvents
    repeat' split
    all_goals first
      | exact Or.inr (Or.inl rfl)
      | exact Or.inl (by show ¬ (200 ≤ (403 : Nat) ∧ (403 : Nat) < 300); decide)
      | exact Or.inl (by show ¬ (200 ≤ (400 : Nat) ∧ (400 : Nat) < 300); decide)
  · unfold makeResponse
    split
    · exact Or.inl (by show ¬ (200 ≤ (403 : Nat) ∧ (403 : Nat) < 300); decide)
    · split
      · rw [if_neg (by simp [hverb])]
        exact Or.inr (Or.inr rfl)
      · split
        · have := guarded_get a now (plainGet host target) (handleEndpoint h s drawn (plainGet host target)) (by
            intro t
            left
            unfold handleEndpoint
            rw [if_neg (by rw [hverb]; decide), if_pos (by rw [hverb]; decide)]
            show ¬ (200 ≤ (405 : Nat) ∧ (405 : Nat) < 300)
            decide)
          rcases this with h | h
          · exact Or.inl h
          · exact Or.inr (Or.inl h)
        · rw [if_pos (by rw [hverb]; decide)]
          exact Or.inl (by show ¬ (200 ≤ (400 : Nat) ∧ (400 : Nat) < 300); decide)

private theorem names_skip {c : Char} {s name : Bytes} (hc : c ≠ '"') (h : NamesKey (c :: s) name) : NamesKey s name := by
  rcases List.infix_cons_iff.1 h with h | h
  · obtain ⟨z, hz⟩ := h
    exact absurd (List.cons.inj hz).1.symm hc
  · exact h

private theorem names_skips {a s name : Bytes} (ha : '"' ∉ a) (h : NamesKey (a ++ s) name) : NamesKey s name := by
  induction a with
  | nil => exact h
  | cons c a ih =>
    simp only [List.mem_cons, not_or] at ha
    exact ih ha.2 (names_skip (fun e => ha.1 e.symm) h)

private theorem names_quoted {v s name : Bytes} (hv : '"' ∉ v) (hn : '"' ∉ name) (h : NamesKey ('"' :: (v ++ '"' :: s)) name) :
    v = name ∨ NamesKey ('"' :: s) name := by
  rcases List.infix_cons_iff.1 h with h | h
  · left
    obtain ⟨z, hz⟩ := h
    have hz : name ++ '"' :: z = v ++ '"' :: s := by
      have := (List.cons.inj hz).2
      simpa using this
    have h1 := splitCh_append (ch := '"') z hn
    rw [hz, splitCh_append s hv] at h1
    simp at h1
    exact h1.1
  · exact Or.inr (names_skips hv h)

private theorem names_close {c : Char} {s name : Bytes} (hc : c ≠ '"') (hn : ∀ x ∈ name.head?, x ≠ c) (hne : name ≠ [])
    (h : NamesKey ('"' :: c :: s) name) : NamesKey s name := by
  rcases List.infix_cons_iff.1 h with h | h
  · exfalso
    obtain ⟨z, hz⟩ := h
    have hz := (List.cons.inj hz).2
    cases name with
    | nil => exact hne rfl
    | cons n name => exact hn n (by simp) (List.cons.inj hz).1
  · exact names_skip hc h

private theorem names_list {l : List Bytes} {s name : Bytes} (hl : ∀ v ∈ l, Unquoted v) (hn : '"' ∉ name)
    (h1 : ∀ x ∈ name.head?, x ≠ ',' ∧ x ≠ ']') (hne : name ≠ []) (h : NamesKey (quotedList l ++ ']' :: s) name) :
    name ∈ l ∨ NamesKey s name := by
  induction l with
  | nil => exact Or.inr (names_skip (by decide) h)
  | cons v l ih =>
    have hv : '"' ∉ v := fun hm => (hl v List.mem_cons_self _ hm).1 rfl
    cases l with
    | nil =>
      have h : NamesKey ('"' :: (v ++ '"' :: (']' :: s))) name := by simpa [quotedList] using h
      rcases names_quoted hv hn h with h | h
      · exact Or.inl (by simp [h])
      · exact Or.inr (names_close (by decide) (fun x hx => (h1 x hx).2) hne h)
    | cons w l =>
      have h : NamesKey ('"' :: (v ++ '"' :: (',' :: (quotedList (w :: l) ++ ']' :: s)))) name := by simpa [quotedList] using h
      rcases names_quoted hv hn h with h | h
      · exact Or.inl (by simp [h])
      · rcases ih (fun x hx => hl x (List.mem_cons_of_mem _ hx)) (names_close (by decide) (fun x hx => (h1 x hx).1) hne h) with h | h
        · exact Or.inl (List.mem_cons_of_mem _ h)
        · exact Or.inr h

private theorem unq_escapes {v : Bytes} (h : Unquoted v) : Escapes v v := plainEsc v (fun c hc => ⟨(h c hc).1, (h c hc).2.1⟩)

private theorem blank_nil : JsonBlank [] := by intro c hc; simp at hc

private theorem more_list (l : List Bytes) (h : ∀ v ∈ l, Unquoted v) (rest : Bytes) :
    MoreItems l ((match l with | [] => [] | v :: l => ',' :: quotedList (v :: l)) ++ ']' :: rest) := by
  induction l with
  | nil => exact MoreItems.nil (w := []) rest blank_nil
  | cons v l ih =>
    have ih := ih (fun x hx => h x (List.mem_cons_of_mem _ hx))
    have := MoreItems.cons (w := []) (w' := []) blank_nil blank_nil (unq_escapes (h v List.mem_cons_self)) ih
    cases l with
    | nil => simpa [quotedList] using this
    | cons w l => simpa [quotedList] using this

private theorem items_list (l : List Bytes) (h : ∀ v ∈ l, Unquoted v) (rest : Bytes) : Items l (quotedList l ++ ']' :: rest) := by
  cases l with
  | nil => exact Items.nil (w := []) rest blank_nil
  | cons v l =>
    have := Items.cons (w := []) blank_nil (unq_escapes (h v List.mem_cons_self))
      (more_list l (fun x hx => h x (List.mem_cons_of_mem _ hx)) rest)
    cases l with
    | nil => simpa [quotedList] using this
    | cons w l => simpa [quotedList] using this

/-- The client reads in the server's document the servers and scopes that were set. -/
theorem metadata_read (o : BearerOpts) (h1 : ∀ v ∈ o.authorizationServers, Unquoted v) (h2 : ∀ v ∈ o.scopesSupported, Unquoted v)
    (h3 : lit "scopes_supported" ∉ o.authorizationServers) :
    docList (metadataJson o) (lit "authorization_servers") = o.authorizationServers ∧
    docList (metadataJson o) (lit "scopes_supported") = o.scopesSupported := by
  constructor
  · refine docList_says (Or.inl ⟨_, items_list _ h1 (lit ",\"scopes_supported\":[" ++ quotedList o.scopesSupported ++ lit "]}"), lit "{", [], [], ?_,
      noName _ _ (by decide +kernel), blank_nil, blank_nil⟩)
    unfold metadataJson
    simp [lit]
  · refine docList_says (Or.inl ⟨_, items_list _ h2 (lit "}"), lit "{\"authorization_servers\":[" ++ quotedList o.authorizationServers ++ lit "],", [], [], ?_,
      ?_, blank_nil, blank_nil⟩)
    · unfold metadataJson
      simp [lit]
    · intro h
      have e : lit "{\"authorization_servers\":[" ++ quotedList o.authorizationServers ++ lit "]," ++ '"' :: lit "scopes_supported" =
          '{' :: '"' :: (lit "authorization_servers" ++ '"' :: (':' :: '[' :: (quotedList o.authorizationServers ++ ']' :: (lit ",\"scopes_supported")))) := by
        simp [lit]
      rw [e] at h
      have h := names_skip (by decide) h
      rcases names_quoted (by decide) (by decide) h with h | h
      · exact absurd h (by decide)
      · have h := names_close (by decide) (by decide) (by decide) h
        have h := names_skip (by decide) h
        rcases names_list h1 (by decide) (by decide) (by decide) h with h | h
        · exact h3 h
        · exact noName _ _ (by decide +kernel) h

/-- **C89, partial.** A client that is given the URL of this server, with any path, and no URL in a challenge or one of
the same origin, finds exactly the authorization servers and the scopes the server was set to publish, without a
token. Missing: names that need escaping in JSON (C85), a server named like a member of the document, schemes with
capital letters (C51). -/
theorem C89_finds_partial (web : Web) (u : WebUrl) (hu : u.Ok) (hs : Lower u.scheme) (loopback : Bytes → Bool) (o : SrvOpts) (a : AuthCfg)
    (h : Option TokenInfo → Handlers D) (hweb : AnsweredBy web u loopback o a h)
    (hl : localHeaders loopback o.address u.host [] = none)
    (hns : o.endpointPath ≠ [] → lit "/.well-known/oauth-protected-resource" ≠ (if o.streamPath = [] then o.endpointPath else o.streamPath))
    (hne : a.opts.authorizationServers ≠ []) (h1 : ∀ v ∈ a.opts.authorizationServers, Unquoted v)
    (h2 : ∀ v ∈ a.opts.scopesSupported, Unquoted v) (h3 : lit "scopes_supported" ∉ a.opts.authorizationServers)
    (rm : Bytes) (hrm : rm = [] ∨ ∃ v : WebUrl, v.Ok ∧ SameOrigin u v ∧ rm = v.text) :
    (discoverResource web rm u.text).1.authorizationServers = a.opts.authorizationServers ∧
    (discoverResource web rm u.text).1.scopesSupported = a.opts.scopesSupported := by
  obtain ⟨e1, e2⟩ := metadata_read a.opts h1 h2 h3
  have hread : (parseResourceMeta (metadataJson a.opts)).2.authorizationServers = a.opts.authorizationServers ∧
      (parseResourceMeta (metadataJson a.opts)).2.scopesSupported = a.opts.scopesSupported := ⟨e1, e2⟩
  have hok : (parseResourceMeta (metadataJson a.opts)).1 = true := by
    show (!(docList (metadataJson a.opts) (lit "authorization_servers")).isEmpty) = true
    rw [e1]
    cases hh : a.opts.authorizationServers with
    | nil => exact absurd hh hne
    | cons x y => rfl
  have hsame : ∀ x, (∃ v : WebUrl, v.Ok ∧ SameOrigin u v ∧ x = v.text) →
      ¬ (200 ≤ (web x).1 ∧ (web x).1 < 300) ∨ (web x).2 = [] ∨ web x = (200, metadataJson a.opts) := by
    rintro x ⟨v, hv, hso, rfl⟩
    obtain ⟨now, s, drawn, hw⟩ := hweb v hv hso
    rw [hw]
    exact get_ok loopback o a now h s drawn u.host _
  have hroot : ∃ x ∈ resourceUrls u.text, web x = (200, metadataJson a.opts) := by
    obtain ⟨v, hv, hok', hso, ho⟩ := origin_text u hu hs
    refine ⟨getOrigin (parseUrlParts u.text) ++ lit "/.well-known/oauth-protected-resource", by unfold resourceUrls; simp, ?_⟩
    rw [ho, text_append v hv]
    obtain ⟨now, s, drawn, hw⟩ := hweb { v with path := lit "/.well-known/oauth-protected-resource" }
      ⟨hok'.scheme, hok'.host, hok'.port, Or.inr ⟨_, rfl⟩⟩ hso
    rw [hw]
    have hserve : serve loopback o a now h s drawn (plainGet u.host (lit "/.well-known/oauth-protected-resource")) =
        .just 200 (metadataJson a.opts) := by
      unfold serve
      rw [if_neg (by
        rintro ⟨x1, -, x3⟩
        have : o.endpointPath ≠ [] := by
          intro e; unfold SrvOpts.streamable at x1; rw [e] at x1; cases x1
        exact hns this x3)]
      unfold makeResponse
      rw [show localHeaders loopback o.address (plainGet u.host (lit "/.well-known/oauth-protected-resource")).host
        (plainGet u.host (lit "/.well-known/oauth-protected-resource")).origin = none from hl]
      simp only
      have hwk : (plainGet u.host (lit "/.well-known/oauth-protected-resource")).target = wellKnown ∨
          (plainGet u.host (lit "/.well-known/oauth-protected-resource")).target = o.wellKnownBase := Or.inl rfl
      rw [if_pos hwk]
      rfl
    show answerOf (serve loopback o a now h s drawn (plainGet u.host (lit "/.well-known/oauth-protected-resource"))) = _
    rw [hserve]
    rfl
  unfold discoverResource
  split
  · rename_i hc
    obtain ⟨hrne, hb, hp⟩ := hc
    have hst : 200 ≤ (web rm).1 ∧ (web rm).1 < 300 :=
      Decidable.byContradiction fun hz => hb (by unfold getBody; rw [if_neg hz])
    have he : getBody web rm = (web rm).2 := by unfold getBody; rw [if_pos hst]
    rw [he] at hb hp ⊢
    rcases hsame rm (hrm.resolve_left hrne) with h | h | h
    · exact absurd hst h
    · exact absurd h hb
    · rw [h]
      exact hread
  · simp only []
    cases hp : (probe parseResourceMeta web (resourceUrls u.text)).1 with
    | none =>
      obtain ⟨x, hx, hw⟩ := hroot
      refine absurd ⟨by rw [hw], ?_, by rw [hw]; exact hok⟩ ((probe_none _ _ _ hp).1 x hx)
      rw [hw]
      intro hz
      exact absurd hz (by simp [metadataJson, lit])
    | some m =>
      obtain ⟨b, x, c, hxs, -, hcnt, hm, -⟩ := probe_some _ _ _ _ hp
      have hx : x ∈ resourceUrls u.text := by rw [hxs]; simp
      rcases hsame x (C51_origin_partial u hu hs x (Or.inl hx)) with h | h | h
      · exact absurd ⟨by rw [hcnt.1]; decide, by rw [hcnt.1]; decide⟩ h
      · exact absurd h hcnt.2.1
      · show m.authorizationServers = _ ∧ m.scopesSupported = _
        rw [hm, h]
        exact hread

/-- A server that publishes one authorization server and two scopes, at the URL `portUrl`. -/
def pubOpts : SrvOpts := ⟨lit "0.0.0.0", lit "/mcp/rpc", lit "/mcp/notify", lit "/tenant/mcp", []⟩
def pubAuth : AuthCfg := ⟨none, ⟨[], [], [lit "https://auth.example.com"], [lit "read", lit "write"]⟩, false⟩
def pubWeb (h : Option TokenInfo → Handlers D) : Web := fun x =>
  answerOf (serve (fun _ => false) pubOpts pubAuth 0 h Hs.init [] (plainGet portUrl.host (parseUrlParts x).path))

example (h : Option TokenInfo → Handlers D) :
    AnsweredBy (pubWeb h) portUrl (fun _ => false) pubOpts pubAuth h ∧
    localHeaders (fun _ => false) pubOpts.address portUrl.host [] = none ∧
    lit "/.well-known/oauth-protected-resource" ≠ (if pubOpts.streamPath = [] then pubOpts.endpointPath else pubOpts.streamPath) ∧
    pubAuth.opts.authorizationServers ≠ [] ∧ (∀ v ∈ pubAuth.opts.authorizationServers, Unquoted v) ∧
    (∀ v ∈ pubAuth.opts.scopesSupported, Unquoted v) ∧ lit "scopes_supported" ∉ pubAuth.opts.authorizationServers := by
  refine ⟨fun v hv hso => ⟨0, Hs.init, [], ?_⟩, by decide +kernel, by decide +kernel, by decide, ?_, ?_, by decide⟩
  · unfold pubWeb
    rw [(parse_text v hv).2.1]
  · show ∀ v ∈ pubAuth.opts.authorizationServers, ∀ c ∈ v, c ≠ '"' ∧ c ≠ '\\' ∧ 32 ≤ c.toNat
    decide +kernel
  · show ∀ v ∈ pubAuth.opts.scopesSupported, ∀ c ∈ v, c ≠ '"' ∧ c ≠ '\\' ∧ 32 ≤ c.toNat
    decide +kernel

end Verif
