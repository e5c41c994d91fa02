import Verif.Auth.Discovery
import Verif.Auth.TokenProps
import Verif.Base.Lemmas

/-!
# C51 and others: where metadata is looked for, and what is read in it
-/

namespace Verif
open Auth

/-! ### URLs -/

/-- A URL of the form `scheme://host[:port][/path]`. -/
structure WebUrl where
  scheme : Bytes
  host : Bytes
  port : Option Bytes
  path : Bytes

/-- Its text. -/
def WebUrl.text (u : WebUrl) : Bytes :=
  u.scheme ++ lit "://" ++ u.host ++ (match u.port with | none => [] | some p => ':' :: p) ++ u.path

/-- A host that is a name or an IPv4 address. -/
def HostName (h : Bytes) : Prop := h ≠ [] ∧ ∀ c ∈ h, c ≠ ':' ∧ c ≠ '/'

/-- A host that is an IPv6 address in brackets. -/
def HostV6 (h : Bytes) : Prop :=
  ∃ a b, h = '[' :: a ++ ':' :: b ++ [']'] ∧ (∀ c ∈ a, c ≠ ':' ∧ c ≠ '/') ∧ ∀ c ∈ b, c ≠ '/'

/-- The shape of the parts. -/
structure WebUrl.Ok (u : WebUrl) : Prop where
  scheme : ∀ c ∈ u.scheme, c ≠ ':' ∧ isSpaceCh c = false
  host : HostName u.host ∨ HostV6 u.host
  port : ∀ p, u.port = some p → ∀ c ∈ p, isDig c = true
  path : u.path = [] ∨ ∃ r, u.path = '/' :: r

/-- The port that is meant: the one given, else the one of the scheme, whatever its letter case. -/
def WebUrl.realPort (u : WebUrl) : Bytes :=
  match u.port with
  | some p => p
  | none => if u.scheme.map lowerCh = lit "https" then lit "443" else lit "80"

/-- The same scheme, host and port. -/
def SameOrigin (u v : WebUrl) : Prop := v.scheme = u.scheme ∧ v.host = u.host ∧ v.realPort = u.realPort

theorem urlScheme_text (scheme rest : Bytes) (h : ∀ c ∈ scheme, c ≠ ':' ∧ isSpaceCh c = false) :
    urlScheme (scheme ++ lit "://" ++ rest) = (scheme, rest) := by
  have : splitSub (lit "://") (scheme ++ lit "://" ++ rest) = some (scheme, rest) := by
    refine splitSub_first (by decide) scheme rest ?_
    intro x y hxy hy hp
    cases y with
    | nil => exact hy rfl
    | cons c y =>
      have hc := (h c (by rw [hxy]; simp)).1
      obtain ⟨z, hz⟩ := hp
      have : ':' = c := (List.cons.inj hz).1
      exact hc this.symm
  unfold urlScheme
  rw [this]

theorem urlSlash_text (auth path : Bytes) (h : '/' ∉ auth) (hp : path = [] ∨ ∃ r, path = '/' :: r) :
    urlSlash (auth ++ path) = (auth, if path = [] then lit "/" else path) := by
  unfold urlSlash
  rcases hp with hp | ⟨r, hp⟩
  · subst hp
    rw [List.append_nil, splitCh_none h]
    simp
  · subst hp
    rw [splitCh_append r h]
    simp

/-- The authority part of a URL. -/
def WebUrl.auth (u : WebUrl) : Bytes := u.host ++ (match u.port with | none => [] | some p => ':' :: p)

theorem auth_noSlash (u : WebUrl) (h : u.Ok) : '/' ∉ u.auth := by
  unfold WebUrl.auth
  intro hm
  rcases List.mem_append.1 hm with hm | hm
  · rcases h.host with hn | ⟨a, b, he, ha, hb⟩
    · exact (hn.2 _ hm).2 rfl
    · rw [he] at hm
      simp only [List.cons_append, List.mem_cons, List.mem_append, List.not_mem_nil, or_false] at hm
      rcases hm with hm | (hm | hm | hm) | hm
      · exact absurd hm (by decide)
      · exact (ha _ hm).2 rfl
      · exact absurd hm (by decide)
      · exact hb _ hm rfl
      · exact absurd hm (by decide)
  · cases hp : u.port with
    | none => rw [hp] at hm; simp at hm
    | some p =>
      rw [hp] at hm
      simp only [List.mem_cons] at hm
      rcases hm with hm | hm
      · exact absurd hm (by decide)
      · have := h.port p hp _ hm
        revert this; decide

theorem parse_text (u : WebUrl) (h : u.Ok) :
    (parseUrlParts u.text).scheme = u.scheme ∧ (parseUrlParts u.text).path = (if u.path = [] then lit "/" else u.path) ∧
    (match splitCh ':' u.auth with
      | none => (parseUrlParts u.text).host = u.auth ∧
          (parseUrlParts u.text).port = (if u.scheme = lit "https" then lit "443" else lit "80")
      | some (a, p) => (parseUrlParts u.text).host = a ∧ (parseUrlParts u.text).port = p) := by
  have ht : u.text = u.scheme ++ lit "://" ++ (u.auth ++ u.path) := by simp [WebUrl.text, WebUrl.auth]
  unfold parseUrlParts
  rw [ht, urlScheme_text u.scheme _ h.scheme]
  simp only []
  rw [urlSlash_text u.auth u.path (auth_noSlash u h) h.path]
  simp only []
  cases splitCh ':' u.auth with
  | none => exact ⟨rfl, rfl, rfl, rfl⟩
  | some q => exact ⟨rfl, rfl, rfl, rfl⟩

/-- The scheme as the code compares it. -/
def Lower (scheme : Bytes) : Prop := scheme = lit "http" ∨ scheme = lit "https"

private theorem auth_default (u : WebUrl) (h : u.Ok) (a p : Bytes) (he : splitCh ':' u.auth = some (a, p)) (hp : ']' ∉ p) :
    u.host = a ∧ u.port = some p := by
  obtain ⟨e, ha⟩ := splitCh_sound he
  rcases h.host with hn | ⟨x, y, hx, hxa, hxb⟩
  · cases hq : u.port with
    | none =>
      simp only [WebUrl.auth, hq, List.append_nil] at he
      rw [splitCh_none (fun hm => (hn.2 _ hm).1 rfl)] at he
      simp at he
    | some q =>
      simp only [WebUrl.auth, hq] at he
      rw [splitCh_append q (fun hm => (hn.2 _ hm).1 rfl)] at he
      simp at he
      exact ⟨he.1, by rw [he.2]⟩
  · exfalso
    simp only [WebUrl.auth] at he
    rw [show u.host ++ (match u.port with | none => [] | some p => ':' :: p) =
        ('[' :: x) ++ ':' :: (y ++ ']' :: (match u.port with | none => [] | some p => ':' :: p)) by rw [hx]; simp,
      splitCh_append _ (by
        intro hm
        rcases List.mem_cons.1 hm with hm | hm
        · exact absurd hm (by decide)
        · exact (hxa _ hm).1 rfl)] at he
    simp at he
    exact hp (by rw [← he.2]; simp)

/-- The origin the code puts in front of its paths. -/
theorem origin_text (u : WebUrl) (h : u.Ok) (hs : Lower u.scheme) :
    ∃ v : WebUrl, v.path = [] ∧ v.Ok ∧ SameOrigin u v ∧ getOrigin (parseUrlParts u.text) = v.text := by
  obtain ⟨h1, h2, h3⟩ := parse_text u h
  have ht : ({ u with path := [] } : WebUrl).text = u.scheme ++ lit "://" ++ u.auth := by simp [WebUrl.text, WebUrl.auth]
  have hv : ({ u with path := [] } : WebUrl).Ok := ⟨h.scheme, h.host, h.port, Or.inl rfl⟩
  cases hc : splitCh ':' u.auth with
  | none =>
    rw [hc] at h3
    refine ⟨{ u with path := [] }, rfl, hv, ⟨rfl, rfl, rfl⟩, ?_⟩
    unfold getOrigin
    rw [h1, h3.1, h3.2, ht, if_neg]
    rcases hs with hs | hs <;> rw [hs] <;> decide
  | some q =>
    obtain ⟨a, p⟩ := q
    rw [hc] at h3
    obtain ⟨e, ha⟩ := splitCh_sound hc
    by_cases hd : (u.scheme = lit "https" ∧ p ≠ lit "443") ∨ (u.scheme = lit "http" ∧ p ≠ lit "80")
    · refine ⟨{ u with path := [] }, rfl, hv, ⟨rfl, rfl, rfl⟩, ?_⟩
      unfold getOrigin
      rw [h1, h3.1, h3.2, ht, if_pos hd, e]
      simp
    · have hp : (u.scheme = lit "https" ∧ p = lit "443") ∨ (u.scheme = lit "http" ∧ p = lit "80") := by
        rw [not_or] at hd
        rcases hs with hs | hs
        · right
          refine ⟨hs, Decidable.byContradiction fun hz => hd.2 ⟨hs, hz⟩⟩
        · left
          refine ⟨hs, Decidable.byContradiction fun hz => hd.1 ⟨hs, hz⟩⟩
      have hb : ']' ∉ p := by
        rcases hp with ⟨-, hp⟩ | ⟨-, hp⟩ <;> rw [hp] <;> decide
      obtain ⟨e1, e2⟩ := auth_default u h a p hc hb
      refine ⟨{ u with path := [], port := none }, rfl, ⟨h.scheme, h.host, by simp, Or.inl rfl⟩, ⟨rfl, rfl, ?_⟩, ?_⟩
      · unfold WebUrl.realPort
        rw [e2]
        simp only []
        rcases hp with ⟨hs', hp⟩ | ⟨hs', hp⟩ <;> rw [hs', hp] <;> decide
      · unfold getOrigin
        rw [h1, h3.1, h3.2, if_neg hd, ← e1]
        simp [WebUrl.text]

/-- The URL is built on the origin: the text is an origin and a path. -/
theorem text_append (v : WebUrl) (hp : v.path = []) (p : Bytes) : v.text ++ p = ({ v with path := p } : WebUrl).text := by
  simp [WebUrl.text, hp]

private theorem drop_slash (path : Bytes) (h : path = [] ∨ ∃ r, path = '/' :: r) :
    dropSlashes (if path = [] then lit "/" else path) = [] ∨ ∃ r, dropSlashes (if path = [] then lit "/" else path) = '/' :: r := by
  have key : ∀ r : Bytes, dropSlashes ('/' :: r) = [] ∨ ∃ t, dropSlashes ('/' :: r) = '/' :: t := by
    intro r
    unfold dropSlashes
    have hsuf : (('/' :: r).reverse.dropWhile (fun c => c = '/')) <:+ ('/' :: r).reverse := List.dropWhile_suffix _
    have hpre := List.reverse_prefix.2 hsuf
    rw [List.reverse_reverse] at hpre
    cases hd : (('/' :: r).reverse.dropWhile (fun c => c = '/')).reverse with
    | nil => exact Or.inl rfl
    | cons c t =>
      rw [hd] at hpre
      obtain ⟨z, hz⟩ := hpre
      right
      have := (List.cons.inj hz).1
      subst this
      exact ⟨t, rfl⟩
  rcases h with h | ⟨r, h⟩
  · subst h
    exact key []
  · subst h
    simp only [if_neg (List.cons_ne_nil _ _)]
    exact key r

/-- Every URL built is the origin and a path that starts with a slash. -/
private theorem urls_shape (u : WebUrl) (h : u.Ok) (x : Bytes) (hx : x ∈ resourceUrls u.text ∨ x ∈ issuerUrls u.text) :
    ∃ p, (∃ r, p = '/' :: r) ∧ x = getOrigin (parseUrlParts u.text) ++ p := by
  have hp := drop_slash u.path h.path
  rw [← (parse_text u h).2.1] at hp
  rcases hx with hx | hx
  · unfold resourceUrls at hx
    simp only [List.mem_append, List.mem_singleton] at hx
    rcases hx with hx | hx
    · split at hx
      · rw [List.mem_singleton] at hx
        exact ⟨lit "/.well-known/oauth-protected-resource" ++ basePathOf _, ⟨_, rfl⟩, by rw [hx, List.append_assoc]⟩
      · simp at hx
    · exact ⟨lit "/.well-known/oauth-protected-resource", ⟨_, rfl⟩, hx⟩
  · unfold issuerUrls at hx
    simp only [] at hx
    split at hx
    · rename_i hc
      simp only [List.mem_cons, List.not_mem_nil, or_false] at hx
      rcases hx with hx | hx | hx
      · exact ⟨_, ⟨_, rfl⟩, by rw [hx, List.append_assoc]; rfl⟩
      · exact ⟨_, ⟨_, rfl⟩, by rw [hx, List.append_assoc]; rfl⟩
      · rcases hp with hp | ⟨r, hp⟩
        · exact absurd hp hc.1
        · exact ⟨_, ⟨r ++ lit "/.well-known/openid-configuration", rfl⟩, by rw [hx, hp, List.append_assoc]; rfl⟩
    · simp only [List.mem_cons, List.not_mem_nil, or_false] at hx
      rcases hx with hx | hx
      · exact ⟨_, ⟨_, rfl⟩, by rw [hx]; rfl⟩
      · exact ⟨_, ⟨_, rfl⟩, by rw [hx]; rfl⟩

/-- **C51, partial.** Every URL probed for the metadata of a server or an issuer is a URL of the same scheme, host and
port. Missing: schemes not written in lower case (`C51_case_counterexample`). -/
theorem C51_origin_partial (u : WebUrl) (h : u.Ok) (hs : Lower u.scheme) :
    ∀ x, x ∈ resourceUrls u.text ∨ x ∈ issuerUrls u.text → ∃ v : WebUrl, v.Ok ∧ SameOrigin u v ∧ x = v.text := by
  intro x hx
  obtain ⟨p, hp, he⟩ := urls_shape u h x hx
  obtain ⟨v, hv, hok, hso, ho⟩ := origin_text u h hs
  refine ⟨{ v with path := p }, ⟨hok.scheme, hok.host, hok.port, Or.inr hp⟩, hso, ?_⟩
  rw [he, ho, text_append v hv]

/-- A server on its own port, and one with an IPv6 address. -/
def portUrl : WebUrl := ⟨lit "https", lit "mcp.example.com", some (lit "8443"), lit "/tenant/mcp/"⟩
def v6Url : WebUrl := ⟨lit "http", lit "[2001:db8::1]", some (lit "80"), lit "/mcp"⟩

theorem portUrl_ok : portUrl.Ok := by
  refine ⟨by decide, Or.inl ⟨by decide, by decide⟩, ?_, Or.inr ⟨_, rfl⟩⟩
  intro p hp; cases hp; decide

theorem v6Url_ok : v6Url.Ok := by
  refine ⟨by decide, Or.inr ⟨lit "2001", lit "db8::1", by decide, by decide, by decide⟩, ?_, Or.inr ⟨_, rfl⟩⟩
  intro p hp; cases hp; decide

example : portUrl.Ok ∧ Lower portUrl.scheme ∧
    resourceUrls portUrl.text = [lit "https://mcp.example.com:8443/.well-known/oauth-protected-resource/tenant",
      lit "https://mcp.example.com:8443/.well-known/oauth-protected-resource"] :=
  ⟨portUrl_ok, Or.inr rfl, by decide +kernel⟩

/-- **C51 is false of schemes with capital letters**, which are the same schemes by RFC 3986 section 3.1: the port of
the URL is dropped, whatever the port, the host and the path are. -/
theorem C51_case_counterexample (host port path : Bytes) (hh : HostName host) (hport : port ≠ [] ∧ ∀ c ∈ port, isDig c = true)
    (hpath : path = [] ∨ ∃ r, path = '/' :: r) :
    let u : WebUrl := ⟨lit "HTTPS", host, some port, path⟩
    u.Ok ∧ (lit "HTTPS://" ++ host ++ lit "/.well-known/oauth-protected-resource") ∈ resourceUrls u.text ∧
      (port ≠ lit "443" →
        ¬ ∃ v : WebUrl, v.Ok ∧ SameOrigin u v ∧ v.text = lit "HTTPS://" ++ host ++ lit "/.well-known/oauth-protected-resource") := by
  intro u
  have hok : u.Ok := by
    refine ⟨by show ∀ c ∈ lit "HTTPS", c ≠ ':' ∧ isSpaceCh c = false; decide, Or.inl hh, ?_, hpath⟩
    intro p hp; cases hp; exact hport.2
  have hsp : splitCh ':' u.auth = some (host, port) := splitCh_append port (fun hm => (hh.2 _ hm).1 rfl)
  obtain ⟨h1, -, h3⟩ := parse_text u hok
  rw [hsp] at h3
  have ho : getOrigin (parseUrlParts u.text) = lit "HTTPS://" ++ host := by
    unfold getOrigin
    rw [h1, h3.1, h3.2, if_neg (by
      show ¬ ((lit "HTTPS" = lit "https" ∧ _) ∨ (lit "HTTPS" = lit "http" ∧ _))
      rintro (⟨h, -⟩ | ⟨h, -⟩) <;> revert h <;> decide)]
    show lit "HTTPS" ++ lit "://" ++ host = _
    rfl
  refine ⟨hok, ?_, ?_⟩
  · unfold resourceUrls
    simp only [List.mem_append, List.mem_singleton, ho]
    exact Or.inr trivial
  · rintro hne ⟨v, hv, ⟨e1, e2, e3⟩, he⟩
    have hrp : v.realPort = port := e3
    have hs : v.scheme = lit "HTTPS" := e1
    have hho : v.host = host := e2
    cases hp : v.port with
    | none =>
      unfold WebUrl.realPort at hrp
      rw [hp, hs] at hrp
      exact hne (by rw [← hrp]; decide +kernel)
    | some q =>
      unfold WebUrl.text at he
      rw [hs, hho, hp] at he
      have he : lit "HTTPS://" ++ (host ++ (':' :: q ++ v.path)) =
          lit "HTTPS://" ++ (host ++ lit "/.well-known/oauth-protected-resource") := by
        rw [← List.append_assoc (lit "HTTPS://") host (lit "/.well-known/oauth-protected-resource"), ← he]
        show _ = lit "HTTPS" ++ lit "://" ++ host ++ (':' :: q) ++ v.path
        simp [lit]
      have := List.append_cancel_left (List.append_cancel_left he)
      exact absurd (List.cons.inj this).1 (by decide)

example : HostName (lit "mcp.example.com") ∧ (lit "8443" ≠ [] ∧ ∀ c ∈ lit "8443", isDig c = true) ∧ lit "8443" ≠ lit "443" :=
  ⟨⟨by decide, by decide⟩, ⟨by decide, by decide⟩, by decide⟩

/-! ### The well-known URLs of the standards -/

/-- A path without the slashes at its end. -/
def Trimmed (path p : Bytes) : Prop := (∃ n, path = p ++ List.replicate n '/') ∧ (p = [] ∨ ∃ q c, p = q ++ [c] ∧ c ≠ '/')

theorem dropSlashes_trimmed {path p : Bytes} (h : Trimmed path p) : dropSlashes path = p := by
  obtain ⟨⟨n, rfl⟩, hp⟩ := h
  unfold dropSlashes
  rw [List.reverse_append, List.reverse_replicate]
  have : (List.replicate n '/' ++ p.reverse).dropWhile (fun c => c = '/') = p.reverse := by
    rw [List.dropWhile_append_of_pos (by intro c hc; simp [(List.mem_replicate.1 hc).2])]
    rcases hp with rfl | ⟨q, c, rfl, hc⟩
    · rfl
    · simp [hc]
  rw [this, List.reverse_reverse]

private theorem trimmed_root {path p : Bytes} (h : Trimmed path p) : Trimmed (if path = [] then lit "/" else path) p := by
  by_cases hp : path = []
  · subst hp
    obtain ⟨⟨n, hn⟩, h2⟩ := h
    have : p = [] := by
      cases p with
      | nil => rfl
      | cons c p => simp at hn
    subst this
    exact ⟨⟨1, rfl⟩, Or.inl rfl⟩
  · rw [if_neg hp]
    exact h

private theorem trimmed_ne_slash {path p : Bytes} (h : Trimmed path p) : p ≠ lit "/" := by
  rintro rfl
  rcases h.2 with h | ⟨q, c, h, hc⟩
  · exact absurd h (by decide)
  · have : q ++ [c] = [] ++ ['/'] := h.symm
    have := List.append_inj_right' this rfl
    simp at this
    exact hc this

/-- **C86** for authorization servers: the URLs probed are, in this order, the one of RFC 8414 section 3.1 (the
well-known text between host and path), the same for OpenID Connect, and, when there is a path, the one of OpenID
Connect Discovery (after the path), all at the origin of the issuer. -/
theorem C86_issuer (u : WebUrl) (h : u.Ok) (hs : Lower u.scheme) (p : Bytes) (hp : Trimmed u.path p) :
    ∃ v : WebUrl, v.Ok ∧ v.path = [] ∧ SameOrigin u v ∧
      (p = [] → issuerUrls u.text = [v.text ++ lit "/.well-known/oauth-authorization-server",
        v.text ++ lit "/.well-known/openid-configuration"]) ∧
      (p ≠ [] → issuerUrls u.text = [v.text ++ lit "/.well-known/oauth-authorization-server" ++ p,
        v.text ++ lit "/.well-known/openid-configuration" ++ p, v.text ++ p ++ lit "/.well-known/openid-configuration"]) := by
  obtain ⟨v, hv, hok, hso, ho⟩ := origin_text u h hs
  have hd : dropSlashes (parseUrlParts u.text).path = p := by
    rw [(parse_text u h).2.1]
    exact dropSlashes_trimmed (trimmed_root hp)
  refine ⟨v, hok, hv, hso, fun hz => ?_, fun hz => ?_⟩
  · unfold issuerUrls
    simp only [hd, ho]
    rw [if_neg (by simp [hz])]
  · unfold issuerUrls
    simp only [hd, ho]
    rw [if_pos ⟨hz, trimmed_ne_slash hp⟩]

theorem trimmed_example : Trimmed (lit "/tenant/mcp/") (lit "/tenant/mcp") :=
  ⟨⟨1, by decide⟩, Or.inr ⟨lit "/tenant/mc", 'p', by decide, by decide⟩⟩

example : portUrl.Ok ∧ Lower portUrl.scheme ∧ Trimmed portUrl.path (lit "/tenant/mcp") := ⟨portUrl_ok, Or.inr rfl, trimmed_example⟩

/-- **C86 for protected resources, partial.** A server URL with no path or a path of one segment: the URL of RFC 9728
section 3.1 is probed first, and the one of the host itself last. Missing: longer paths, see the counterexample. -/
theorem C86_resource_partial (u : WebUrl) (h : u.Ok) (hs : Lower u.scheme) (p : Bytes) (hp : Trimmed u.path p)
    (hseg : p = [] ∨ ∃ seg, p = '/' :: seg ∧ '/' ∉ seg) :
    ∃ v : WebUrl, v.Ok ∧ v.path = [] ∧ SameOrigin u v ∧
      (p = [] → resourceUrls u.text = [v.text ++ lit "/.well-known/oauth-protected-resource"]) ∧
      (p ≠ [] → resourceUrls u.text = [v.text ++ lit "/.well-known/oauth-protected-resource" ++ p,
        v.text ++ lit "/.well-known/oauth-protected-resource"]) := by
  obtain ⟨v, hv, hok, hso, ho⟩ := origin_text u h hs
  have hd : dropSlashes (parseUrlParts u.text).path = p := by
    rw [(parse_text u h).2.1]
    exact dropSlashes_trimmed (trimmed_root hp)
  refine ⟨v, hok, hv, hso, fun hz => ?_, fun hz => ?_⟩
  · unfold resourceUrls
    simp only [hd, ho]
    rw [if_neg (by simp [hz])]
    rfl
  · unfold resourceUrls
    simp only [hd, ho]
    rw [if_pos ⟨hz, trimmed_ne_slash hp⟩]
    obtain ⟨seg, rfl, hseg⟩ := hseg.resolve_left hz
    have : basePathOf ('/' :: seg) = '/' :: seg := by
      unfold basePathOf
      rw [List.reverse_cons, splitCh_append [] (by simpa using hseg)]
      rfl
    rw [this]
    rfl

example : v6Url.Ok ∧ Lower v6Url.scheme ∧ Trimmed v6Url.path (lit "/mcp") ∧ (∃ seg, lit "/mcp" = '/' :: seg ∧ '/' ∉ seg) ∧
    resourceUrls v6Url.text = [lit "http://[2001:db8::1]:80/.well-known/oauth-protected-resource/mcp",
      lit "http://[2001:db8::1]:80/.well-known/oauth-protected-resource"] :=
  ⟨v6Url_ok, Or.inl rfl, ⟨⟨0, by decide⟩, Or.inr ⟨lit "/mc", 'p', by decide, by decide⟩⟩, ⟨lit "mcp", rfl, by decide⟩, by decide +kernel⟩

/-- **C86 is false of longer paths**: for every server URL whose path has two segments or more, the well-known text is
followed by the path without its last segment, and the URL of RFC 9728 is not among those probed. -/
theorem C86_path_counterexample (u : WebUrl) (h : u.Ok) (hs : Lower u.scheme) (d seg : Bytes) (hd : d ≠ [])
    (hseg : '/' ∉ seg) (hne : seg ≠ []) (hp : Trimmed u.path (d ++ '/' :: seg)) :
    ∃ v : WebUrl, v.Ok ∧ v.path = [] ∧ SameOrigin u v ∧
      resourceUrls u.text = [v.text ++ lit "/.well-known/oauth-protected-resource" ++ d,
        v.text ++ lit "/.well-known/oauth-protected-resource"] ∧
      v.text ++ lit "/.well-known/oauth-protected-resource" ++ (d ++ '/' :: seg) ∉ resourceUrls u.text := by
  obtain ⟨v, hv, hok, hso, ho⟩ := origin_text u h hs
  have hdr : dropSlashes (parseUrlParts u.text).path = d ++ '/' :: seg := by
    rw [(parse_text u h).2.1]
    exact dropSlashes_trimmed (trimmed_root hp)
  have hb : basePathOf (d ++ '/' :: seg) = d := by
    unfold basePathOf
    have : (d ++ '/' :: seg).reverse = seg.reverse ++ '/' :: d.reverse := by simp
    rw [this, splitCh_append _ (by simpa using hseg)]
    simp [hd]
  have hl : resourceUrls u.text = [v.text ++ lit "/.well-known/oauth-protected-resource" ++ d,
      v.text ++ lit "/.well-known/oauth-protected-resource"] := by
    unfold resourceUrls
    simp only [hdr, ho, hb]
    rw [if_pos ⟨by simp, trimmed_ne_slash hp⟩]
    rfl
  refine ⟨v, hok, hv, hso, hl, ?_⟩
  rw [hl]
  intro hm
  simp only [List.mem_cons, List.not_mem_nil, or_false] at hm
  rcases hm with hm | hm
  · have := congrArg List.length (List.append_cancel_left hm)
    simp at this
  · have := congrArg List.length hm
    simp at this

example : portUrl.Ok ∧ Lower portUrl.scheme ∧ lit "/tenant" ≠ [] ∧ '/' ∉ lit "mcp" ∧ lit "mcp" ≠ [] ∧
    Trimmed portUrl.path (lit "/tenant" ++ '/' :: lit "mcp") :=
  ⟨portUrl_ok, Or.inr rfl, by decide, by decide, by decide, trimmed_example⟩

/-! ### The connection -/

/-- **C88, partial.** A URL with the scheme `https` is fetched over TLS and the certificate is checked against the host
of the URL (or the name configured), one with `http` is not; the peer is the host and the port of the URL, and the
target is its path. Missing: schemes with capital letters and IPv6 addresses, see the counterexamples. -/
theorem C88_connection_partial (u : WebUrl) (h : u.Ok) (hs : Lower u.scheme) (hh : HostName u.host) (name : Bytes) :
    (connOf name u.text).host = u.host ∧ (connOf name u.text).port = u.realPort ∧
    (connOf name u.text).target = (if u.path = [] then lit "/" else u.path) ∧
    ((connOf name u.text).tls = true ↔ u.scheme = lit "https") ∧
    (u.scheme = lit "https" → (connOf name u.text).certName = if name = [] then u.host else name) := by
  obtain ⟨h1, h2, h3⟩ := parse_text u h
  have hhp : (parseUrlParts u.text).host = u.host ∧ (parseUrlParts u.text).port = u.realPort := by
    cases hp : u.port with
    | none =>
      have : splitCh ':' u.auth = none := by
        simp only [WebUrl.auth, hp, List.append_nil]
        exact splitCh_none (fun hm => (hh.2 _ hm).1 rfl)
      rw [this] at h3
      refine ⟨by rw [h3.1]; simp [WebUrl.auth, hp], ?_⟩
      rw [h3.2]
      unfold WebUrl.realPort
      rw [hp]
      rcases hs with hs | hs <;> rw [hs] <;> decide
    | some q =>
      have : splitCh ':' u.auth = some (u.host, q) := by
        simp only [WebUrl.auth, hp]
        exact splitCh_append q (fun hm => (hh.2 _ hm).1 rfl)
      rw [this] at h3
      refine ⟨h3.1, ?_⟩
      rw [h3.2]
      unfold WebUrl.realPort
      rw [hp]
  unfold connOf
  simp only [h1]
  by_cases ht : u.scheme = lit "https"
  · rw [if_pos ht]
    exact ⟨hhp.1, hhp.2, h2, ⟨fun _ => ht, fun _ => rfl⟩, fun _ => by rw [hhp.1]⟩
  · rw [if_neg ht]
    exact ⟨hhp.1, hhp.2, h2, ⟨fun hz => by simp at hz, fun hz => absurd hz ht⟩, fun hz => absurd hz ht⟩

example : portUrl.Ok ∧ Lower portUrl.scheme ∧ HostName portUrl.host := ⟨portUrl_ok, Or.inr rfl, ⟨by decide, by decide⟩⟩

/-- **C88 is false of schemes with capital letters**: a URL whose scheme is `https` in any other letter case, whatever
its host and path, is fetched in the clear, and on port 80 when it names no port. The token request, with the client
secret in it, is sent this way too. -/
theorem C88_clear_counterexample (u : WebUrl) (h : u.Ok) (hs : u.scheme.map lowerCh = lit "https") (hne : u.scheme ≠ lit "https")
    (hh : HostName u.host) (name : Bytes) :
    (connOf name u.text).tls = false ∧ (connOf name u.text).host = u.host ∧
    (u.port = none → (connOf name u.text).port = lit "80" ∧ u.realPort = lit "443") := by
  obtain ⟨h1, h2, h3⟩ := parse_text u h
  unfold connOf
  simp only [h1]
  rw [if_neg hne]
  refine ⟨rfl, ?_, fun hp => ?_⟩
  · cases hp : u.port with
    | none =>
      have : splitCh ':' u.auth = none := by
        simp only [WebUrl.auth, hp, List.append_nil]
        exact splitCh_none (fun hm => (hh.2 _ hm).1 rfl)
      rw [this] at h3
      show (parseUrlParts u.text).host = _
      rw [h3.1]; simp [WebUrl.auth, hp]
    | some q =>
      have : splitCh ':' u.auth = some (u.host, q) := by
        simp only [WebUrl.auth, hp]
        exact splitCh_append q (fun hm => (hh.2 _ hm).1 rfl)
      rw [this] at h3
      exact h3.1
  · have : splitCh ':' u.auth = none := by
      simp only [WebUrl.auth, hp, List.append_nil]
      exact splitCh_none (fun hm => (hh.2 _ hm).1 rfl)
    rw [this] at h3
    refine ⟨?_, ?_⟩
    · show (parseUrlParts u.text).port = _
      rw [h3.2, if_neg hne]
    · unfold WebUrl.realPort
      rw [hp]
      simp only []
      rw [if_pos hs]

def capsUrl : WebUrl := ⟨lit "Https", lit "auth.example.com", none, lit "/token"⟩

example : capsUrl.Ok ∧ capsUrl.scheme.map lowerCh = lit "https" ∧ capsUrl.scheme ≠ lit "https" ∧ HostName capsUrl.host :=
  ⟨⟨by decide, Or.inl ⟨by decide, by decide⟩, by simp [capsUrl], Or.inr ⟨_, rfl⟩⟩, by decide, by decide, ⟨by decide, by decide⟩⟩

/-- **C88**, without a scheme: a text with a host name, perhaps a port, and a path, but no scheme, is fetched in the clear. -/
theorem C88_bare (host portPart path : Bytes) (port : Option Bytes) (name : Bytes) (hh : HostName host)
    (hport : (port = none ∧ portPart = []) ∨ ∃ p, port = some p ∧ portPart = ':' :: p ∧ '/' ∉ p)
    (hpath : path = [] ∨ ∃ r, path = '/' :: r) (hno : ¬ lit "://" <:+: host ++ portPart ++ path) :
    let c := connOf name (host ++ portPart ++ path)
    c.tls = false ∧ c.host = host ∧ c.port = port.getD (lit "80") ∧ c.target = (if path = [] then lit "/" else path) := by
  intro c
  have hsch : urlScheme (host ++ portPart ++ path) = (lit "http", host ++ portPart ++ path) := by
    unfold urlScheme
    split
    · rename_i a b hs; exact absurd ⟨a, b, (splitSub_sound hs).symm⟩ hno
    · rfl
  have hauth : '/' ∉ host ++ portPart := by
    intro hm
    rcases List.mem_append.1 hm with h1 | h1
    · exact (hh.2 _ h1).2 rfl
    · rcases hport with ⟨-, hp⟩ | ⟨p, -, hp, hs⟩
      · rw [hp] at h1; cases h1
      · rw [hp] at h1
        rcases List.mem_cons.1 h1 with h2 | h2
        · exact absurd h2 (by decide)
        · exact hs h2
  have hsl := urlSlash_text (host ++ portPart) path hauth hpath
  have hcolon : ':' ∉ host := fun hm => (hh.2 _ hm).1 rfl
  have hparts : parseUrlParts (host ++ portPart ++ path) = ⟨lit "http", host, port.getD (lit "80"), if path = [] then lit "/" else path⟩ := by
    unfold parseUrlParts
    simp only [hsch, hsl]
    rcases hport with ⟨hp, hq⟩ | ⟨p, hp, hq, -⟩
    · rw [hq, List.append_nil, splitCh_none hcolon, hp]; rfl
    · rw [hq, splitCh_append p hcolon, hp]; rfl
  show (connOf name _).tls = false ∧ (connOf name _).host = _ ∧ (connOf name _).port = _ ∧ (connOf name _).target = _
  unfold connOf
  simp only [hparts]
  rw [if_neg (by decide)]
  exact ⟨rfl, rfl, rfl, rfl⟩

example : HostName (lit "auth.example") ∧ ¬ lit "://" <:+: lit "auth.example" ++ lit ":8080" ++ lit "/tenant" :=
  ⟨⟨by decide, by decide⟩, splitSub_eq_none (by decide +kernel)⟩

/-- **C88 is false of IPv6 addresses**: the host is cut at the first colon of the address, for every such address,
port and path. -/
theorem C88_v6_counterexample (u : WebUrl) (h : u.Ok) (hh : HostV6 u.host) (name : Bytes) : (connOf name u.text).host ≠ u.host := by
  obtain ⟨h1, h2, h3⟩ := parse_text u h
  obtain ⟨a, b, he, ha, hb⟩ := hh
  have hc : splitCh ':' u.auth = some ('[' :: a, b ++ ']' :: (match u.port with | none => [] | some p => ':' :: p)) := by
    simp only [WebUrl.auth]
    rw [show u.host ++ (match u.port with | none => [] | some p => ':' :: p) =
        ('[' :: a) ++ ':' :: (b ++ ']' :: (match u.port with | none => [] | some p => ':' :: p)) by rw [he]; simp]
    refine splitCh_append _ ?_
    intro hm
    rcases List.mem_cons.1 hm with hm | hm
    · exact absurd hm (by decide)
    · exact (ha _ hm).1 rfl
  rw [hc] at h3
  have hconn : (connOf name u.text).host = '[' :: a := by
    unfold connOf
    simp only []
    split
    · exact h3.1
    · exact h3.1
  rw [hconn, he]
  intro hz
  have := congrArg List.length hz
  simp at this

example : v6Url.Ok ∧ HostV6 v6Url.host := ⟨v6Url_ok, lit "2001", lit "db8::1", by decide, by decide, by decide⟩

end Verif
