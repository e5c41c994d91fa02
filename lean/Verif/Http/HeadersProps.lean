import Verif.Http.Headers
import Verif.Base.Lemmas

/-!
C43: which Host and Origin headers a server bound to a loopback address lets through.
-/

namespace Verif
open Http

/-! ### Specification -/

/-- The parts of an authority (RFC 3986, 3.2): a name or address without colons and white space, or a bracketed address. -/
def PlainHost (h : Bytes) : Prop := h ≠ [] ∧ (∀ c ∈ h, c ≠ ':' ∧ isSpaceCh c = false ∧ c ≠ '/') ∧ h.head? ≠ some '['
def Bracketed (h : Bytes) : Prop := h ≠ [] ∧ ∀ c ∈ h, c ≠ ']' ∧ isSpaceCh c = false ∧ c ≠ '/'
def PortText (p : Bytes) : Prop := ∀ c ∈ p, isDig c = true

/-- The texts naming a host. -/
inductive Names : Bytes → Bytes → Prop
  | plain (h) : PlainHost h → Names h h
  | plainPort (h p) : PlainHost h → PortText p → Names h (h ++ ':' :: p)
  | v6 (h) : Bracketed h → Names h ('[' :: h ++ [']'])
  | v6Port (h p) : Bracketed h → PortText p → Names h ('[' :: h ++ ']' :: ':' :: p)

/-- The host is this machine. -/
def IsLocal (loopback : Bytes → Bool) (h : Bytes) : Prop := h.map lowerCh = lit "localhost" ∨ loopback (h.map lowerCh) = true

/-- An origin of a web page: scheme, authority, possibly more after a slash. -/
inductive OriginOf : Bytes → Bytes → Prop
  | bare (scheme h a) : (∀ c ∈ scheme, c ≠ ':' ∧ isSpaceCh c = false) → scheme ≠ [] → Names h a → OriginOf h (scheme ++ lit "://" ++ a)
  | path (scheme h a r) : (∀ c ∈ scheme, c ≠ ':' ∧ isSpaceCh c = false) → scheme ≠ [] → Names h a → (∀ c ∈ r, isSpaceCh c = false) →
      OriginOf h (scheme ++ lit "://" ++ a ++ '/' :: r)

/-! ### Lemmas -/

theorem dropWhile_none (s : Bytes) (h : ∀ c, s.head? = some c → isSpaceCh c = false) : s.dropWhile isSpaceCh = s := by
  cases s with
  | nil => rfl
  | cons c s => rw [List.dropWhile_cons, h c rfl]; rfl

theorem dropWhile_nil_all {s : Bytes} (h : s.dropWhile isSpaceCh = []) : ∀ c ∈ s, isSpaceCh c = true := by
  induction s with
  | nil => intro c hc; cases hc
  | cons x s ih =>
    intro c hc
    rw [List.dropWhile_cons] at h
    by_cases hx : isSpaceCh x = true
    · rw [if_pos hx] at h
      rcases List.mem_cons.1 hc with rfl | hc
      · exact hx
      · exact ih h c hc
    · rw [if_neg hx] at h
      cases h

theorem trimText_none (s : Bytes) (h : ∀ c ∈ s, isSpaceCh c = false) : trimText s = s := by
  unfold trimText
  rw [dropWhile_none s (fun c hc => h c (List.mem_of_mem_head? hc)),
    dropWhile_none s.reverse (fun c hc => h c (by have := List.mem_of_mem_head? hc; simpa using this)), List.reverse_reverse]

theorem splitCh_absent (ch : Char) (s : Bytes) (h : ch ∉ s) : splitCh ch s = none := by
  induction s with
  | nil => rfl
  | cons c s ih =>
    have hc : ¬ c = ch := fun e => h (by simp [e])
    show (if c = ch then _ else _) = _
    rw [if_neg hc, ih (fun hx => h (by simp [hx]))]
    rfl

theorem splitCh_at (ch : Char) (a b : Bytes) (h : ch ∉ a) : splitCh ch (a ++ ch :: b) = some (a, b) := by
  induction a with
  | nil =>
    show (if ch = ch then _ else _) = _
    rw [if_pos rfl]
  | cons c a ih =>
    have hc : ¬ c = ch := fun e => h (by simp [e])
    show (if c = ch then _ else (splitCh ch (a ++ ch :: b)).map _) = _
    rw [if_neg hc, ih (fun hx => h (by simp [hx]))]
    rfl

theorem dig_plain {c : Char} (h : isDig c = true) : c ≠ ':' ∧ isSpaceCh c = false ∧ c ≠ '/' ∧ c ≠ ']' := by
  have hd : '0'.toNat ≤ c.toNat ∧ c.toNat ≤ '9'.toNat := of_decide_eq_true h
  have e0 : '0'.toNat = 48 := rfl
  have e9 : '9'.toNat = 57 := rfl
  rw [e0, e9] at hd
  have ne : ∀ x : Char, x.toNat < 48 ∨ 57 < x.toNat → c ≠ x := by
    intro x hx e
    subst e
    omega
  refine ⟨ne ':' (by decide), ?_, ne '/' (by decide), ne ']' (by decide)⟩
  unfold isSpaceCh
  simp only [Bool.or_eq_false_iff, decide_eq_false_iff_not]
  refine ⟨⟨⟨⟨⟨ne ' ' (by decide), ne '\t' (by decide)⟩, ne '\n' (by decide)⟩, ne '\r' (by decide)⟩, ?_⟩, ?_⟩ <;> omega

theorem names_chars (h a : Bytes) (hn : Names h a) : a ≠ [] ∧ ∀ c ∈ a, isSpaceCh c = false ∧ c ≠ '/' := by
  cases hn with
  | plain hp => exact ⟨hp.1, fun c hc => (hp.2.1 c hc).2⟩
  | plainPort p hp hq =>
    refine ⟨by simp, fun c hc => ?_⟩
    rcases List.mem_append.1 hc with h1 | h1
    · exact (hp.2.1 c h1).2
    · rcases List.mem_cons.1 h1 with rfl | h2
      · exact ⟨by decide, by decide⟩
      · exact ⟨(dig_plain (hq c h2)).2.1, (dig_plain (hq c h2)).2.2.1⟩
  | v6 hp =>
    refine ⟨by simp, fun c hc => ?_⟩
    simp only [List.cons_append, List.mem_cons, List.mem_append, List.not_mem_nil, or_false] at hc
    rcases hc with rfl | h1 | rfl
    · exact ⟨by decide, by decide⟩
    · exact (hp.2 c h1).2
    · exact ⟨by decide, by decide⟩
  | v6Port p hp hq =>
    refine ⟨by simp, fun c hc => ?_⟩
    simp only [List.cons_append, List.mem_cons, List.mem_append] at hc
    rcases hc with rfl | h1 | rfl | rfl | h2
    · exact ⟨by decide, by decide⟩
    · exact (hp.2 c h1).2
    · exact ⟨by decide, by decide⟩
    · exact ⟨by decide, by decide⟩
    · exact ⟨(dig_plain (hq c h2)).2.1, (dig_plain (hq c h2)).2.2.1⟩

theorem authorityHost_names (h a : Bytes) (hn : Names h a) : authorityHost a = h := by
  obtain ⟨hne, hch⟩ := names_chars h a hn
  unfold authorityHost
  simp only [trimText_none a (fun c hc => (hch c hc).1), if_neg hne]
  cases hn with
  | plain hp =>
    rw [if_neg hp.2.2, splitCh_absent ':' h (fun hx => (hp.2.1 _ hx).1 rfl)]
  | plainPort p hp hq =>
    obtain ⟨c, r, rfl⟩ := List.exists_cons_of_ne_nil hp.1
    have hb : ¬ (c :: r ++ ':' :: p).head? = some '[' := hp.2.2
    rw [if_neg hb, splitCh_at ':' (c :: r) p (fun hx => (hp.2.1 _ hx).1 rfl)]
    simp only
    rw [if_neg (fun hx => (dig_plain (hq _ hx)).1 rfl)]
  | v6 hp =>
    have hnb : ']' ∉ '[' :: h := by
      intro hx
      rcases List.mem_cons.1 hx with h1 | h1
      · exact absurd h1 (by decide)
      · exact (hp.2 _ h1).1 rfl
    have hs := splitCh_at ']' ('[' :: h) [] hnb
    rw [if_pos (by rfl), hs]
    rfl
  | v6Port p hp hq =>
    have hnb : ']' ∉ '[' :: h := by
      intro hx
      rcases List.mem_cons.1 hx with h1 | h1
      · exact absurd h1 (by decide)
      · exact (hp.2 _ h1).1 rfl
    have hs := splitCh_at ']' ('[' :: h) (':' :: p) hnb
    rw [if_pos (by rfl), hs]
    rfl

theorem names_host (h a : Bytes) (hn : Names h a) : h ≠ [] ∧ ∀ c ∈ h, isSpaceCh c = false := by
  cases hn with
  | plain hp => exact ⟨hp.1, fun c hc => (hp.2.1 c hc).2.1⟩
  | plainPort p hp _ => exact ⟨hp.1, fun c hc => (hp.2.1 c hc).2.1⟩
  | v6 hp => exact ⟨hp.1, fun c hc => (hp.2 c hc).2.1⟩
  | v6Port p hp _ => exact ⟨hp.1, fun c hc => (hp.2 c hc).2.1⟩

theorem isLocalHost_iff (loopback : Bytes → Bool) (h : Bytes) (hne : h ≠ []) (hs : ∀ c ∈ h, isSpaceCh c = false) :
    isLocalHost loopback h = true ↔ IsLocal loopback h := by
  unfold isLocalHost IsLocal lowerText
  simp only [trimText_none h hs]
  rw [if_neg (by simpa using hne)]
  by_cases hl : h.map lowerCh = lit "localhost"
  · simp [hl]
  · simp [hl]

theorem splitSub_scheme (scheme rest : Bytes) (h : ∀ c ∈ scheme, c ≠ ':' ∧ isSpaceCh c = false) :
    splitSub (lit "://") (scheme ++ lit "://" ++ rest) = some (scheme, rest) := by
  induction scheme with
  | nil => rfl
  | cons c s ih =>
    have hc := (h c (by simp)).1
    have hp : List.isPrefixOf (lit "://") (c :: (s ++ lit "://" ++ rest)) = false := by
      show (':' == c && _) = false
      have hc' : ¬ ':' = c := fun e => hc e.symm
      have : (':' == c) = false := by simp [hc']
      rw [this, Bool.false_and]
    show (if List.isPrefixOf (lit "://") (c :: (s ++ lit "://" ++ rest)) = true then _ else (splitSub (lit "://") (s ++ lit "://" ++ rest)).map _) = _
    rw [hp, ih (fun x hx => h x (by simp [hx]))]
    rfl

theorem originHost_of (h o : Bytes) (ho : OriginOf h o) : originHost o = some h := by
  unfold originHost
  cases ho with
  | bare scheme _ a hs hne hn =>
    obtain ⟨_, hch⟩ := names_chars h a hn
    have hsp : ∀ c ∈ scheme ++ lit "://" ++ a, isSpaceCh c = false := by
      intro c hc
      rcases List.mem_append.1 hc with h1 | h1
      · rcases List.mem_append.1 h1 with h2 | h2
        · exact (hs c h2).2
        · simp [lit] at h2; rcases h2 with rfl | rfl <;> decide
      · exact (hch c h1).1
    simp only [trimText_none _ hsp]
    rw [if_neg (by simp [hne]), splitSub_scheme scheme a hs]
    simp only
    rw [splitCh_absent '/' a (fun hx => (hch _ hx).2 rfl)]
    simp only
    rw [authorityHost_names h a hn]
  | path scheme _ a r hs hne hn hr =>
    obtain ⟨_, hch⟩ := names_chars h a hn
    have hsp : ∀ c ∈ scheme ++ lit "://" ++ a ++ '/' :: r, isSpaceCh c = false := by
      intro c hc
      rcases List.mem_append.1 hc with h1 | h1
      · rcases List.mem_append.1 h1 with h2 | h2
        · rcases List.mem_append.1 h2 with h3 | h3
          · exact (hs c h3).2
          · simp [lit] at h3; rcases h3 with rfl | rfl <;> decide
        · exact (hch c h2).1
      · rcases List.mem_cons.1 h1 with rfl | h2
        · decide
        · exact hr c h2
    simp only [trimText_none _ hsp]
    have e : scheme ++ lit "://" ++ a ++ '/' :: r = scheme ++ lit "://" ++ (a ++ '/' :: r) := by simp
    rw [if_neg (by simp [hne]), e, splitSub_scheme scheme (a ++ '/' :: r) hs]
    simp only
    rw [splitCh_at '/' a r (fun hx => (hch _ hx).2 rfl)]
    simp only
    rw [authorityHost_names h a hn]

/-- The two refusals. -/
def forbiddenHost : Bytes := lit "{\"error\":\"Forbidden Host header\"}"
def forbiddenOrigin : Bytes := lit "{\"error\":\"Forbidden Origin header\"}"

/-- **C43.** On a server bound to a loopback address, a request whose Host header names a host is let through exactly if the host is this
machine and so is the origin, if there is one; otherwise it is refused, for the Host header first. Missing: headers that are not of the
form of an authority or an origin, some of which are let through (see the counterexample). -/
theorem C43_headers_partial (loopback : Bytes → Bool) (address : Bytes) (ha : guardsLocal loopback address = true) (h host : Bytes)
    (hh : Names h host) :
    (¬ IsLocal loopback h → ∀ origin, localHeaders loopback address host origin = some forbiddenHost) ∧
    (IsLocal loopback h → localHeaders loopback address host [] = none) ∧
    (IsLocal loopback h → ∀ o origin, OriginOf o origin →
      (IsLocal loopback o → localHeaders loopback address host origin = none) ∧
      (¬ IsLocal loopback o → localHeaders loopback address host origin = some forbiddenOrigin)) := by
  obtain ⟨hne, hsp⟩ := names_host h host hh
  have hl := isLocalHost_iff loopback h hne hsp
  have hauth := authorityHost_names h host hh
  have ha' : ¬ (!guardsLocal loopback address) = true := by simp [ha]
  refine ⟨fun hx origin => ?_, fun hx => ?_, fun hx o origin ho => ?_⟩
  · have : isLocalHost loopback h = false := by
      cases hb : isLocalHost loopback h with
      | false => rfl
      | true => exact absurd (hl.1 hb) hx
    unfold localHeaders
    rw [if_neg ha', hauth, this]
    rfl
  · unfold localHeaders
    rw [if_neg ha', hauth, hl.2 hx]
    rfl
  · have hone : origin ≠ [] := by cases ho <;> simp [lit]
    have hon := originHost_of o origin ho
    have hol : isLocalHost loopback o = true ↔ IsLocal loopback o := by
      cases ho with
      | bare _ _ a _ _ hn => exact isLocalHost_iff loopback o (names_host o a hn).1 (names_host o a hn).2
      | path _ _ a _ _ _ hn _ => exact isLocalHost_iff loopback o (names_host o a hn).1 (names_host o a hn).2
    have base : localHeaders loopback address host origin = if isLocalHost loopback o then none else some forbiddenOrigin := by
      unfold localHeaders
      rw [if_neg ha', hauth, hl.2 hx]
      simp only [Bool.not_true, Bool.false_eq_true, if_false]
      rw [if_neg hone, hon]
      rfl
    rw [base]
    exact ⟨fun h => if_pos (hol.2 h), fun h => if_neg (fun e => h (hol.1 e))⟩

/-- **C43.** A missing Host header, and an origin without a scheme (as the `null` of opaque origins), are refused. -/
theorem C43_opaque_origin (loopback : Bytes → Bool) (address : Bytes) (ha : guardsLocal loopback address = true) :
    (∀ origin, localHeaders loopback address [] origin = some forbiddenHost) ∧
    (∀ h host origin, Names h host → IsLocal loopback h → (∃ c ∈ origin, isSpaceCh c = false) → ¬ lit "://" <:+: origin →
      localHeaders loopback address host origin = some forbiddenOrigin) := by
  have ha' : ¬ (!guardsLocal loopback address) = true := by simp [ha]
  constructor
  · intro origin
    unfold localHeaders
    rw [if_neg ha']
    rfl
  · intro h host origin hh hx hc ho
    obtain ⟨hne, hsp⟩ := names_host h host hh
    have hl := (isLocalHost_iff loopback h hne hsp).2 hx
    obtain ⟨c, hc, hcs⟩ := hc
    have hone : origin ≠ [] := by intro e; rw [e] at hc; cases hc
    have hinf : trimText origin <:+: origin := by
      unfold trimText
      have h1 : origin.dropWhile isSpaceCh <:+ origin := List.dropWhile_suffix _
      have h2 : ((origin.dropWhile isSpaceCh).reverse.dropWhile isSpaceCh).reverse <+: origin.dropWhile isSpaceCh := by
        have := List.dropWhile_suffix isSpaceCh (l := (origin.dropWhile isSpaceCh).reverse)
        have := List.reverse_prefix.2 this
        rwa [List.reverse_reverse] at this
      exact List.IsInfix.trans h2.isInfix h1.isInfix
    have htne : trimText origin ≠ [] := by
      intro e
      unfold trimText at e
      rw [List.reverse_eq_nil_iff] at e
      have h1 : ∀ c ∈ (origin.dropWhile isSpaceCh).reverse, isSpaceCh c = true := by
        intro x hx
        exact (dropWhile_nil_all e) x hx
      cases hd : origin.dropWhile isSpaceCh with
      | nil =>
        have := dropWhile_nil_all hd c hc
        rw [hcs] at this
        exact absurd this (by simp)
      | cons x r =>
        have hxs := h1 x (by rw [hd]; simp)
        have hh := List.head?_dropWhile_not isSpaceCh origin
        rw [hd] at hh
        simp [hxs] at hh
    have hnone : splitSub (lit "://") (trimText origin) = none := by
      cases hs : splitSub (lit "://") (trimText origin) with
      | none => rfl
      | some p =>
        have := splitSub_sound (a := p.1) (b := p.2) hs
        exact absurd (List.IsInfix.trans ⟨p.1, p.2, this.symm⟩ hinf) ho
    have hon : originHost origin = none := by
      unfold originHost
      simp only [if_neg htne, hnone]
    unfold localHeaders
    rw [if_neg ha', authorityHost_names h host hh, hl]
    simp only [Bool.not_true, Bool.false_eq_true, if_false]
    rw [if_neg hone, hon]
    rfl

/-- **C43, false for headers that are not authorities.** `localhost:1@evil.com` and `[localhost]evil.com` name the host evil.com to some
clients and no host to others; the server takes both for this machine, in the Host and in the Origin header, whatever `evil.com` is. -/
theorem C43_malformed_counterexample (loopback : Bytes → Bool) (address evil : Bytes) (he : ∀ c ∈ evil, c ≠ ':' ∧ isSpaceCh c = false ∧ c ≠ '/') :
    localHeaders loopback address (lit "localhost:1@" ++ evil) (lit "http://localhost:1@" ++ evil) = none ∧
    localHeaders loopback address (lit "[localhost]" ++ evil) (lit "http://[localhost]" ++ evil) = none := by
  have hs1 : ∀ c ∈ lit "localhost:1@" ++ evil, isSpaceCh c = false ∧ c ≠ '/' := by
    intro c hc
    rcases List.mem_append.1 hc with h | h
    · have : ∀ c ∈ lit "localhost:1@", isSpaceCh c = false ∧ c ≠ '/' := by decide +kernel
      exact this c h
    · exact (he c h).2
  have hs2 : ∀ c ∈ lit "[localhost]" ++ evil, isSpaceCh c = false ∧ c ≠ '/' := by
    intro c hc
    rcases List.mem_append.1 hc with h | h
    · have : ∀ c ∈ lit "[localhost]", isSpaceCh c = false ∧ c ≠ '/' := by decide +kernel
      exact this c h
    · exact (he c h).2
  have a1 : authorityHost (lit "localhost:1@" ++ evil) = lit "localhost" := by
    unfold authorityHost
    simp only [trimText_none _ (fun c hc => (hs1 c hc).1)]
    have e : lit "localhost:1@" ++ evil = lit "localhost" ++ ':' :: (lit "1@" ++ evil) := by simp [lit]
    have hh : ¬ (lit "localhost:1@" ++ evil).head? = some '[' := by simp [lit]
    rw [if_neg (by simp [lit]), if_neg hh, e, splitCh_at ':' _ _ (by decide +kernel)]
    simp only
    rw [if_neg]
    intro hx
    rcases List.mem_append.1 hx with h | h
    · exact absurd h (by decide +kernel)
    · exact (he _ h).1 rfl
  have a2 : authorityHost (lit "[localhost]" ++ evil) = lit "localhost" := by
    unfold authorityHost
    simp only [trimText_none _ (fun c hc => (hs2 c hc).1)]
    have e : lit "[localhost]" ++ evil = lit "[localhost" ++ ']' :: evil := by simp [lit]
    have hh : (lit "[localhost]" ++ evil).head? = some '[' := by simp [lit]
    rw [if_neg (by simp [lit]), if_pos hh, e, splitCh_at ']' _ _ (by decide +kernel)]
    rfl
  have hl : isLocalHost loopback (lit "localhost") = true := by
    unfold isLocalHost
    have : lowerText (trimText (lit "localhost")) = lit "localhost" := by decide +kernel
    simp only [this]
    rw [if_neg (by decide)]
    rfl
  have og : ∀ a, (∀ c ∈ a, isSpaceCh c = false ∧ c ≠ '/') → originHost (lit "http://" ++ a) = some (authorityHost a) := by
    intro a ha
    unfold originHost
    have hsp : ∀ c ∈ lit "http://" ++ a, isSpaceCh c = false := by
      intro c hc
      rcases List.mem_append.1 hc with h | h
      · have : ∀ c ∈ lit "http://", isSpaceCh c = false := by decide +kernel
        exact this c h
      · exact (ha c h).1
    simp only [trimText_none _ hsp]
    have e : lit "http://" ++ a = lit "http" ++ lit "://" ++ a := by simp [lit]
    rw [if_neg (by simp [lit]), e, splitSub_scheme (lit "http") a (by decide +kernel)]
    simp only
    rw [splitCh_absent '/' a (fun hx => (ha _ hx).2 rfl)]
  have o1 : lit "http://localhost:1@" ++ evil = lit "http://" ++ (lit "localhost:1@" ++ evil) := by simp [lit]
  have o2 : lit "http://[localhost]" ++ evil = lit "http://" ++ (lit "[localhost]" ++ evil) := by simp [lit]
  constructor
  · unfold localHeaders
    rw [a1, hl, o1, og _ hs1, a1]
    simp only [hl]
    split <;> simp
  · unfold localHeaders
    rw [a2, hl, o2, og _ hs2, a2]
    simp only [hl]
    split <;> simp

example : guardsLocal (fun a => a = lit "127.0.0.1" || a = lit "::1") (lit "127.0.0.1") = true := by decide +kernel
example : Names (lit "evil.com") (lit "evil.com:8080") :=
  .plainPort (lit "evil.com") (lit "8080") ⟨by decide, by decide +kernel, by decide⟩ (by unfold PortText; decide +kernel)
example : Names (lit "::1") (lit "[::1]:80") := .v6Port (lit "::1") (lit "80") ⟨by decide, by decide +kernel⟩ (by unfold PortText; decide +kernel)
example : IsLocal (fun a => a = lit "127.0.0.1") (lit "LocalHost") ∧ ¬ IsLocal (fun a => a = lit "127.0.0.1") (lit "evil.com") := by
  unfold IsLocal; decide +kernel
example : OriginOf (lit "evil.com") (lit "https://evil.com/x") :=
  .path (lit "https") (lit "evil.com") (lit "evil.com") (lit "x") (by decide +kernel) (by decide)
    (.plain (lit "evil.com") ⟨by decide, by decide +kernel, by decide⟩) (by decide +kernel)
example : ¬ lit "://" <:+: lit "null" := by decide +kernel

/-- **C43.** The headers are checked exactly when the server is bound to this machine, with an address written without spaces inside. -/
theorem C43_guarded_iff (loopback : Bytes → Bool) (l address r : Bytes) (hs : ∀ c ∈ address.map lowerCh, isSpaceCh c = false)
    (hl : ∀ c ∈ l.map lowerCh, isSpaceCh c = true) (hr : ∀ c ∈ r.map lowerCh, isSpaceCh c = true) (hne : address ≠ []) :
    guardsLocal loopback (l ++ address ++ r) = true ↔ IsLocal loopback address := by
  have drop : ∀ (a b : Bytes), (∀ c ∈ a, isSpaceCh c = true) → (a ++ b).dropWhile isSpaceCh = b.dropWhile isSpaceCh := by
    intro a b ha
    induction a with
    | nil => rfl
    | cons c a ih =>
      rw [List.cons_append, List.dropWhile_cons, if_pos (ha c (List.mem_cons_self ..))]
      exact ih (fun x hx => ha x (List.mem_cons_of_mem _ hx))
  have keep : ∀ (a b : Bytes), a ≠ [] → (∀ c ∈ a, isSpaceCh c = false) → (a ++ b).dropWhile isSpaceCh = a ++ b := by
    intro a b hn ha
    cases a with
    | nil => exact absurd rfl hn
    | cons c a =>
      rw [List.cons_append, List.dropWhile_cons, if_neg (by rw [ha c (List.mem_cons_self ..)]; simp)]
  have ht : trimText (lowerText (l ++ address ++ r)) = address.map lowerCh := by
    unfold trimText lowerText
    rw [List.map_append, List.map_append, List.append_assoc, drop _ _ hl, keep _ _ (by simpa using hne) hs, List.reverse_append, drop _ _ (by
      intro c hc
      rw [List.mem_reverse] at hc
      exact hr c hc)]
    have := keep (address.map lowerCh).reverse [] (by simpa using hne) (fun c hc => hs c (List.mem_reverse.1 hc))
    rw [List.append_nil] at this
    rw [this, List.reverse_reverse]
  unfold guardsLocal
  rw [ht]
  simp only
  unfold IsLocal
  by_cases he : address.map lowerCh = lit "localhost"
  · simp [he]
  · simp [he]

example : (∀ c ∈ (lit "LocalHost").map lowerCh, isSpaceCh c = false) ∧ (∀ c ∈ (lit " ").map lowerCh, isSpaceCh c = true) ∧
    IsLocal (fun _ => false) (lit "LocalHost") := ⟨by decide +kernel, by decide +kernel, .inl (by decide +kernel)⟩

/-- The version a client may name in a session of version `session`: none, that one, or, in a session of the current version, one of the three
the library knows. -/
inductive Compatible (session : Bytes) : Bytes → Prop
  | absent : Compatible session []
  | same : Compatible session session
  | known (h : Bytes) : session = lit "2025-11-25" → h ∈ [lit "2025-03-26", lit "2025-06-18", lit "2025-11-25"] → Compatible session h

/-- **C82.** The versions accepted in a session. -/
theorem C82_versions (session header : Bytes) : versionAccepted session header = true ↔ Compatible session header := by
  unfold versionAccepted currentVersion
  constructor
  · intro h
    split at h
    · rename_i h1; rw [h1]; exact .absent
    · split at h
      · rename_i h1; rw [h1]; exact .same
      · simp only [Bool.and_eq_true, decide_eq_true_eq, Bool.or_eq_true] at h
        refine .known _ h.1 ?_
        simp only [List.mem_cons, List.not_mem_nil, or_false]
        rcases h.2 with (h1 | h1) | h1
        · exact .inl h1
        · exact .inr (.inl h1)
        · exact .inr (.inr h1)
  · intro h
    cases h with
    | absent => simp
    | same => simp
    | known _ h1 h2 =>
      simp only [List.mem_cons, List.not_mem_nil, or_false] at h2
      split
      · rfl
      · split
        · rfl
        · rcases h2 with h2 | h2 | h2 <;> simp [h1, h2]

example : Compatible (lit "2025-11-25") (lit "2025-03-26") ∧ ¬ Compatible (lit "2025-03-26") (lit "2025-11-25") := by
  refine ⟨.known _ rfl (by decide), ?_⟩
  intro h
  have := (C82_versions _ _).2 h
  revert this
  decide +kernel

end Verif
