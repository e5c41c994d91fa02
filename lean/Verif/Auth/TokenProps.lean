import Verif.Auth.Token
import Verif.Json.Lemmas

/-!
# C50: the token attached to requests

The replies of the token endpoint are described by their text, as RFC 6749 section 5.1 has it: `JsonMember` says that
a body has a member of the given name, as the first place where the quoted name occurs, and what text follows its
colon.
-/

namespace Verif
open Auth

/-- JSON white space. -/
def JsonBlank (s : Bytes) : Prop := ∀ c ∈ s, c = ' ' ∨ c = '\t' ∨ c = '\r' ∨ c = '\n'

/-- The body contains the quoted name. -/
def NamesKey (body name : Bytes) : Prop := ('"' :: name ++ ['"']) <:+: body

/-- The first occurrence of the quoted name in the body is a member name, and `rest` is the text of its value and
of all that follows it. -/
def JsonMember (body name rest : Bytes) : Prop :=
  ∃ pre w v, body = pre ++ ('"' :: name ++ ['"']) ++ (w ++ ':' :: (v ++ rest)) ∧ ¬ NamesKey (pre ++ '"' :: name) name ∧
    JsonBlank w ∧ JsonBlank v

/-- A text that needs no escapes in a JSON string. -/
def NoEscape (t : Bytes) : Prop := ∀ c ∈ t, c ≠ '"' ∧ c ≠ '\\'

/-- The body has a string member. -/
def StrMember (body name t : Bytes) : Prop := NoEscape t ∧ ∃ more, JsonMember body name ('"' :: t ++ '"' :: more)

/-- The body has a member which is a natural number. -/
def NatMember (body name : Bytes) (n : Nat) : Prop :=
  ∃ more, (∀ c ∈ more.head?, isDig c = false ∧ c ≠ '-') ∧ JsonMember body name (natDec n ++ more)

theorem quoted_first (name pre rest : Bytes) (h : ¬ NamesKey (pre ++ '"' :: name) name) :
    splitSub (quotedKey name) (pre ++ ('"' :: name ++ ['"']) ++ rest) = some (pre, rest) := by
  refine splitSub_first (pat := quotedKey name) (by simp [quotedKey]) pre rest ?_
  intro x y hxy hy hp
  apply h
  have h2 : y ++ '"' :: name <+: y ++ quotedKey name ++ rest :=
    ⟨'"' :: rest, by simp [quotedKey]⟩
  have h3 : quotedKey name <+: y ++ '"' :: name := by
    refine List.prefix_of_prefix_length_le hp h2 ?_
    have : 0 < y.length := List.length_pos_iff.2 hy
    simp [quotedKey]
    omega
  obtain ⟨z, hz⟩ := h3
  exact ⟨x, z, by rw [hxy, List.append_assoc x y, ← hz]; simp [quotedKey]⟩

theorem quoted_none (body name : Bytes) (h : ¬ NamesKey body name) : splitSub (quotedKey name) body = none := by
  cases hs : splitSub (quotedKey name) body with
  | none => rfl
  | some p =>
    exact absurd ⟨p.1, p.2, (splitSub_sound (a := p.1) (b := p.2) hs).symm⟩ h

theorem blank_not {s : Bytes} (h : JsonBlank s) (c : Char) (hc : c ≠ ' ' ∧ c ≠ '\t' ∧ c ≠ '\r' ∧ c ≠ '\n') : c ∉ s := by
  intro hm
  rcases h c hm with h | h | h | h
  · exact hc.1 h
  · exact hc.2.1 h
  · exact hc.2.2.1 h
  · exact hc.2.2.2 h

theorem skipWs_blank (s t : Bytes) (h : JsonBlank s) (ht : ∀ c ∈ t.head?, isWs c = false) : skipWs (s ++ t) = t := by
  induction s with
  | nil =>
    cases t with
    | nil => rfl
    | cons c t => simp [skipWs, ht c (by simp)]
  | cons c s ih =>
    have hc : isWs c = true := by
      rcases h c List.mem_cons_self with h | h | h | h <;> subst h <;> decide
    simp only [List.cons_append, skipWs, hc, if_true]
    exact ih (fun x hx => h x (List.mem_cons_of_mem _ hx))

private theorem scan_bare (t more : Bytes) (h : NoEscape t) (prev : Char) (hp : prev ≠ '\\') :
    scanQuote prev (t ++ '"' :: more) = some t := by
  induction t generalizing prev with
  | nil => simp [scanQuote, hp]
  | cons c t ih =>
    have hc := h c List.mem_cons_self
    simp only [List.cons_append, scanQuote, hc.1, false_and, if_false]
    rw [ih (fun x hx => h x (List.mem_cons_of_mem _ hx)) c hc.2]
    rfl

theorem tokenStr_member {body name t : Bytes} (h : StrMember body name t) : tokenStr body name = some t := by
  obtain ⟨hb, more, pre, w, v, rfl, hn, hw, hv⟩ := h
  unfold tokenStr
  rw [quoted_first name pre _ hn]
  simp only []
  rw [splitCh_append _ (blank_not hw ':' (by decide))]
  simp only [List.cons_append]
  rw [splitCh_append _ (blank_not hv '"' (by decide))]
  exact scan_bare t more hb '"' (by decide)

theorem tokenStr_none {body name : Bytes} (h : ¬ NamesKey body name) : tokenStr body name = none := by
  unfold tokenStr
  rw [quoted_none body name h]

private theorem stoi_nat (n : Nat) (h : n < 2 ^ 31) : stoiRun (natDec n) = some (n : Int) := by
  have h2 := takeDigits_append (ds := natDec n) (fun c hc => natDec_isDig hc) [] (by simp)
  rw [List.append_nil] at h2
  obtain ⟨c, cs, hn⟩ : ∃ c cs, natDec n = c :: cs := by
    cases hh : natDec n with
    | nil => exact absurd hh (natDec_ne_nil n)
    | cons c cs => exact ⟨c, cs, rfl⟩
  have h1 : takeSign (natDec n) = ([], natDec n) := by
    rw [hn]; exact takeSign_dig (natDec_isDig (n := n) (by simp [hn]))
  unfold stoiRun
  rw [h1, h2, stollSigned_pos n (by unfold Int64OK; omega)]
  simp only []
  rw [if_pos (by omega)]

theorem tokenInt_member {body name : Bytes} {n : Nat} (h : NatMember body name n) (hn : n < 2 ^ 31) :
    tokenInt body name = some (n : Int) := by
  obtain ⟨more, hm, pre, w, v, rfl, hp, hw, hv⟩ := h
  unfold tokenInt
  rw [quoted_first name pre _ hp]
  simp only []
  rw [splitCh_append _ (blank_not hw ':' (by decide))]
  simp only []
  have hd : ∀ c ∈ natDec n, isDig c = true := fun c hc => natDec_isDig hc
  rw [skipWs_blank v _ hv]
  · rw [List.takeWhile_append_of_pos (by intro c hc; simp [hd c hc])]
    have : more.takeWhile (fun c => isDig c || c = '-') = [] := by
      cases more with
      | nil => rfl
      | cons c more =>
        have := hm c (by simp)
        simp [this.1, this.2]
    rw [this, List.append_nil, stoi_nat n hn]
  · intro c hc
    cases hh : natDec n with
    | nil => exact absurd hh (natDec_ne_nil n)
    | cons a as =>
      rw [hh] at hc
      simp at hc
      subst hc
      have := hd a (by simp [hh])
      cases hw : isWs a
      · rfl
      · exfalso
        simp only [isWs, Bool.or_eq_true, decide_eq_true_eq] at hw
        rcases hw with ((h | h) | h) | h <;> subst h <;> revert this <;> decide

theorem tokenInt_none {body name : Bytes} (h : ¬ NamesKey body name) : tokenInt body name = none := by
  unfold tokenInt
  rw [quoted_none body name h]

/-- How long the endpoint says the token lasts, in nanoseconds: `expires_in` seconds, one hour if it says nothing. -/
inductive Lasts (body : Bytes) : Nat → Prop
  | says (n : Nat) : NatMember body (lit "expires_in") n → 0 < n → n < 2 ^ 31 → Lasts body (n * 1000000000)
  | silent : ¬ NamesKey body (lit "expires_in") → Lasts body (3600 * 1000000000)

theorem lifetime_lasts {body : Bytes} {d : Nat} (h : Lasts body d) : lifetime body = d := by
  cases h with
  | says n h h0 h1 =>
    unfold lifetime
    rw [tokenInt_member h h1]
    simp only [second]
    rw [if_pos (by omega)]
    simp
  | silent h =>
    unfold lifetime
    rw [tokenInt_none h]
    rfl

/-- What the model records of a call that has returned. -/
private def EndOK (skew : Nat) (e : TkEnd) : Prop :=
  (e.got = none → e.token = e.wasToken ∧ e.expiry = e.wasExpiry ∧ e.token ≠ [] ∧ e.time + skew * second < e.expiry) ∧
  (∀ body, e.got = some body →
    (∀ t, body ≠ [] → tokenStr body (lit "access_token") = some t → e.token = t ∧ e.expiry = e.time + lifetime body) ∧
    (body = [] ∨ tokenStr body (lit "access_token") = none → e.token = e.wasToken ∧ e.expiry = e.wasExpiry))

/-- The history is one chain: every call found what the one that returned before it left. -/
def Chained : Bytes → Nat → List TkEnd → Bytes → Nat → Prop
  | t, x, [], t', x' => t = t' ∧ x = x'
  | t, x, e :: es, t', x' => e.wasToken = t ∧ e.wasExpiry = x ∧ Chained e.token e.expiry es t' x'

private theorem chained_snoc {t : Bytes} {x : Nat} {es : List TkEnd} {t' : Bytes} {x' : Nat} (h : Chained t x es t' x')
    (e : TkEnd) (h1 : e.wasToken = t') (h2 : e.wasExpiry = x') : Chained t x (es ++ [e]) e.token e.expiry := by
  induction es generalizing t x with
  | nil => exact ⟨h1.trans h.1.symm, h2.trans h.2.symm, rfl, rfl⟩
  | cons a es ih => exact ⟨h.1, h.2.1, ih h.2.2⟩

private structure TkInv (skew : Nat) (s : Tk) : Prop where
  ends : ∀ e ∈ s.ends, EndOK skew e
  chain : Chained [] 0 s.ends s.token s.expiry
  past : ∀ e ∈ s.ends, e.time ≤ s.now
  over : ∀ e ∈ s.ends, s.calls[e.call]? = some .over
  nodup : (s.ends.map (·.call)).Nodup
  known : ∀ c : Nat, s.calls[c]? = some .over → ∃ e ∈ s.ends, e.call = c

private theorem tkInv_finish {skew : Nat} {s : Tk} (h : TkInv skew s) (c : Nat) (calls : List TkStage) (token : Bytes) (expiry : Nat)
    (got : Option Bytes)
    (hc : s.calls[c]? ≠ some .over) (hcalls : calls[c]? = some .over)
    (hk : ∀ i : Nat, i ≠ c → (calls[i]? = some .over ↔ s.calls[i]? = some .over))
    (he : EndOK skew { call := c, time := s.now, token := token, expiry := expiry, wasToken := s.token,
                       wasExpiry := s.expiry, got := got }) :
    TkInv skew { s.finish c token expiry got with calls := calls } := by
  have hne : ∀ e ∈ s.ends, e.call ≠ c := by
    intro e hm hh
    exact hc (hh ▸ h.over e hm)
  constructor
  · intro e hm
    rcases List.mem_append.1 hm with hm | hm
    · exact h.ends e hm
    · rw [List.mem_singleton.1 hm]; exact he
  · exact chained_snoc h.chain _ rfl rfl
  · intro e hm
    rcases List.mem_append.1 hm with hm | hm
    · exact h.past e hm
    · rw [List.mem_singleton.1 hm]; exact Nat.le_refl _
  · intro e hm
    rcases List.mem_append.1 hm with hm | hm
    · exact (hk _ (hne e hm)).2 (h.over e hm)
    · rw [List.mem_singleton.1 hm]; exact hcalls
  · show ((s.ends ++ [_]).map TkEnd.call).Nodup
    rw [List.map_append, List.nodup_append]
    refine ⟨h.nodup, by simp, ?_⟩
    intro a ha b hb
    obtain ⟨e, hm, rfl⟩ := List.mem_map.1 ha
    simp at hb
    subst hb
    exact hne e hm
  · intro i hi
    by_cases hic : i = c
    · subst hic
      exact ⟨_, List.mem_append_right _ (List.mem_singleton.2 rfl), rfl⟩
    · obtain ⟨e, hm, hh⟩ := h.known i ((hk i hic).1 hi)
      exact ⟨e, List.mem_append_left _ hm, hh⟩

private theorem tkInv_step {skew : Nat} {s : Tk} (h : TkInv skew s) (op : TkOp) : TkInv skew (s.step skew op) := by
  cases op with
  | tick d =>
    exact ⟨h.ends, h.chain, fun e hm => Nat.le_trans (h.past e hm) (Nat.le_add_right _ _), h.over, h.nodup, h.known⟩
  | ensure =>
    simp only [Tk.step]
    split
    · rename_i hf
      simp only [Tk.fresh, Bool.and_eq_true, Bool.not_eq_true', decide_eq_true_eq] at hf
      refine tkInv_finish h s.calls.length (s.calls ++ [.over]) s.token s.expiry none (by simp) (by simp) ?_ ?_
      · intro i hi
        rcases Nat.lt_trichotomy i s.calls.length with hlt | heq | hgt
        · rw [List.getElem?_append_left hlt]
        · exact absurd heq hi
        · rw [List.getElem?_eq_none (by simp; omega), List.getElem?_eq_none (by omega)]
      · exact ⟨fun _ => ⟨rfl, rfl, by
          intro hz
          have hz : s.token = [] := hz
          simp [hz] at hf, hf.2⟩, fun body hb => by simp at hb⟩
    · have hover : ∀ c : Nat, (s.calls ++ [TkStage.fetching])[c]? = some .over ↔ s.calls[c]? = some .over := by
        intro c
        rcases Nat.lt_trichotomy c s.calls.length with hlt | heq | hgt
        · rw [List.getElem?_append_left hlt]
        · subst heq; simp
        · rw [List.getElem?_eq_none (by simp; omega), List.getElem?_eq_none (by omega)]
      exact ⟨h.ends, h.chain, h.past, fun e hm => (hover _).2 (h.over e hm), h.nodup, fun c hc => h.known c ((hover c).1 hc)⟩
  | reply c resp =>
    simp only [Tk.step]
    split
    · rename_i hc
      have hlt : c < s.calls.length := by
        rcases Nat.lt_or_ge c s.calls.length with h | h
        · exact h
        · rw [List.getElem?_eq_none h] at hc; simp at hc
      have hset : (s.calls.set c TkStage.over)[c]? = some .over := by simp [hlt]
      have hk : ∀ i : Nat, i ≠ c → ((s.calls.set c TkStage.over)[i]? = some .over ↔ s.calls[i]? = some .over) := by
        intro i hi
        rw [List.getElem?_set_ne (fun e => hi e.symm)]
      split
      · rename_i hr
        refine tkInv_finish h c (s.calls.set c .over) s.token s.expiry (some resp) (by rw [hc]; simp) hset hk ?_
        refine ⟨fun hg => by simp at hg, fun body hb => ?_⟩
        simp at hb
        subst hb
        exact ⟨fun t hne => absurd hr hne, fun _ => ⟨rfl, rfl⟩⟩
      · rename_i hr
        split
        · rename_i t ht
          refine tkInv_finish h c (s.calls.set c .over) t (s.now + lifetime resp) (some resp) (by rw [hc]; simp) hset hk ?_
          refine ⟨fun hg => by simp at hg, fun body hb => ?_⟩
          simp at hb
          subst hb
          refine ⟨fun t' _ h' => ?_, fun h' => ?_⟩
          · rw [ht] at h'
            cases h'
            exact ⟨rfl, rfl⟩
          · rcases h' with h' | h'
            · exact absurd h' hr
            · rw [ht] at h'; simp at h'
        · rename_i ht
          refine tkInv_finish h c (s.calls.set c .over) s.token s.expiry (some resp) (by rw [hc]; simp) hset hk ?_
          refine ⟨fun hg => by simp at hg, fun body hb => ?_⟩
          simp at hb
          subst hb
          exact ⟨fun t' _ h' => (by rw [ht] at h'; simp at h'), fun _ => ⟨rfl, rfl⟩⟩
    · exact h

private theorem tkInv_run (skew t₀ : Nat) (ops : List TkOp) : TkInv skew ((Tk.init t₀).run skew ops) := by
  have key : ∀ (ops : List TkOp) (s : Tk), TkInv skew s → TkInv skew (s.run skew ops) := by
    intro ops
    induction ops with
    | nil => intro s h; exact h
    | cons op ops ih => intro s h; exact ih _ (tkInv_step h op)
  refine key ops _ ⟨?_, ⟨rfl, rfl⟩, ?_, ?_, List.nodup_nil, ?_⟩
  · intro e hm; simp [Tk.init] at hm
  · intro e hm; simp [Tk.init] at hm
  · intro e hm; simp [Tk.init] at hm
  · intro c hc; simp [Tk.init] at hc

/-- **C50, partial.** In every timed history of calls of `ensureReady` and replies of the token endpoint, overlapping
in any way, every call that has returned
* made no fetch, and then left the token as it was, with more than the skew to go before its expiry; or
* made a fetch whose reply is a token response: the token is the one of the reply, and its expiry is the lifetime the
  reply states (one hour when it states none) after the arrival of the reply; or
* made a fetch whose reply is empty or does not name `access_token`: token and expiry are what they were.
Missing: replies in which the quoted name occurs other than as the name of a string member (see
`C50_null_counterexample`), tokens with escapes, and what the first sentence of the property says of a failed fetch
(`C50_stale_counterexample`). -/
theorem C50_after_partial (skew t₀ : Nat) (ops : List TkOp) :
    ∀ e ∈ ((Tk.init t₀).run skew ops).ends,
      (e.got = none → e.token = e.wasToken ∧ e.expiry = e.wasExpiry ∧ e.token ≠ [] ∧ e.time + skew * 1000000000 < e.expiry) ∧
      (∀ body t d, e.got = some body → StrMember body (lit "access_token") t → Lasts body d →
        e.token = t ∧ e.expiry = e.time + d) ∧
      (∀ body, e.got = some body → ¬ NamesKey body (lit "access_token") → e.token = e.wasToken ∧ e.expiry = e.wasExpiry) := by
  intro e hm
  have h := (tkInv_run skew t₀ ops).ends e hm
  refine ⟨h.1, fun body t d hg ht hd => ?_, fun body hg hn => ?_⟩
  · have hne : body ≠ [] := by
      rintro rfl
      obtain ⟨_, _, _, _, _, hb, _⟩ := ht
      simp at hb
    have := (h.2 body hg).1 t hne (tokenStr_member ht)
    rw [lifetime_lasts hd] at this
    exact this
  · exact (h.2 body hg).2 (Or.inr (tokenStr_none hn))

/-- A reply as authorization servers send it. -/
def tokenReply : Bytes := lit "{\"access_token\":\"abc\", \"token_type\":\"Bearer\", \"expires_in\":120}"

theorem tokenReply_member : StrMember tokenReply (lit "access_token") (lit "abc") := by
  refine ⟨?_, lit ", \"token_type\":\"Bearer\", \"expires_in\":120}", lit "{", [], [], ?_, ?_, ?_, ?_⟩
  · show ∀ c ∈ lit "abc", c ≠ '"' ∧ c ≠ '\\'
    decide
  · decide +kernel
  · intro h
    have h2 : splitSub ('"' :: lit "access_token" ++ ['"']) (lit "{" ++ '"' :: lit "access_token") = none := by decide +kernel
    exact splitSub_eq_none h2 h
  · intro c hc; simp at hc
  · intro c hc; simp at hc

theorem tokenReply_lasts : Lasts tokenReply (120 * 1000000000) := by
  refine .says 120 ⟨lit "}", ?_, lit "{\"access_token\":\"abc\", \"token_type\":\"Bearer\", ", [], [], ?_, ?_, ?_, ?_⟩ (by decide) (by decide)
  · show ∀ c ∈ some '}', isDig c = false ∧ c ≠ '-'
    intro c hc; simp at hc; subst hc; decide
  · decide +kernel
  · intro h
    have h2 : splitSub ('"' :: lit "expires_in" ++ ['"'])
        (lit "{\"access_token\":\"abc\", \"token_type\":\"Bearer\", " ++ '"' :: lit "expires_in") = none := by decide +kernel
    exact splitSub_eq_none h2 h
  · intro c hc; simp at hc
  · intro c hc; simp at hc

/-- A fetch, a call served from the cache, and, later, a fetch that fails. -/
def tokenOps : List TkOp :=
  [.ensure, .tick 5, .reply 0 tokenReply, .tick 1000000000, .ensure, .tick 100000000000, .ensure, .tick 7, .reply 2 []]

example : ((Tk.init 50).run 60 tokenOps).ends.map (fun e => (e.call, e.token, e.got)) =
    [(0, lit "abc", some tokenReply), (1, lit "abc", none), (2, lit "abc", some [])] ∧
    StrMember tokenReply (lit "access_token") (lit "abc") ∧ Lasts tokenReply (120 * 1000000000) ∧
    ¬ NamesKey [] (lit "access_token") :=
  ⟨by decide +kernel, tokenReply_member, tokenReply_lasts, by rintro ⟨a, b, h⟩; simp at h⟩

/-- **C50**, the history is one chain: the token a call found is the token the previous one left, the object starts
with none, and it holds now what the last call left. Nothing but the end of a call changes token or expiry. -/
theorem C50_chain (skew t₀ : Nat) (ops : List TkOp) :
    Chained [] 0 ((Tk.init t₀).run skew ops).ends ((Tk.init t₀).run skew ops).token ((Tk.init t₀).run skew ops).expiry :=
  (tkInv_run skew t₀ ops).chain

/-- **C50**, no call returns twice, and none returns before it was made. -/
theorem C50_once (skew t₀ : Nat) (ops : List TkOp) :
    (((Tk.init t₀).run skew ops).ends.map (·.call)).Nodup ∧
      ∀ e ∈ ((Tk.init t₀).run skew ops).ends, e.call < ((Tk.init t₀).run skew ops).calls.length := by
  have h := tkInv_run skew t₀ ops
  refine ⟨h.nodup, fun e hm => ?_⟩
  have := h.over e hm
  rcases Nat.lt_or_ge e.call ((Tk.init t₀).run skew ops).calls.length with hl | hl
  · exact hl
  · rw [List.getElem?_eq_none hl] at this; simp at this

example : ((Tk.init 50).run 60 tokenOps).ends.length = 3 := by decide +kernel

/-- **C50**, the token attached to requests was received: whenever a token is held, some call got a reply with it, and
the expiry counts from the arrival of that reply. (The token is the text the code's search finds in the reply;
`C50_after_partial` says what that is for token responses.) -/
theorem C50_received (skew t₀ : Nat) (ops : List TkOp) (h : ((Tk.init t₀).run skew ops).token ≠ []) :
    ∃ e ∈ ((Tk.init t₀).run skew ops).ends, ∃ body, e.got = some body ∧
      tokenStr body (lit "access_token") = some ((Tk.init t₀).run skew ops).token ∧
      ((Tk.init t₀).run skew ops).expiry = e.time + lifetime body := by
  have hi := tkInv_run skew t₀ ops
  generalize ((Tk.init t₀).run skew ops) = s at h hi ⊢
  have key : ∀ (es : List TkEnd) (t : Bytes) (x : Nat) (t' : Bytes) (x' : Nat), (∀ e ∈ es, EndOK skew e) → Chained t x es t' x' →
      (t' = t ∧ x' = x) ∨ ∃ e ∈ es, ∃ body, e.got = some body ∧ tokenStr body (lit "access_token") = some t' ∧
        x' = e.time + lifetime body := by
    intro es
    induction es with
    | nil => intro t x t' x' _ hc; exact Or.inl ⟨hc.1.symm, hc.2.symm⟩
    | cons e es ih =>
      intro t x t' x' he hc
      rcases ih _ _ _ _ (fun e' hm => he e' (List.mem_cons_of_mem _ hm)) hc.2.2 with h1 | ⟨e', hm, h1⟩
      · have ho := he e List.mem_cons_self
        cases hg : e.got with
        | none =>
          have := ho.1 hg
          exact Or.inl ⟨by rw [h1.1, this.1, hc.1], by rw [h1.2, this.2.1, hc.2.1]⟩
        | some body =>
          by_cases hb : body = [] ∨ tokenStr body (lit "access_token") = none
          · have := (ho.2 body hg).2 hb
            exact Or.inl ⟨by rw [h1.1, this.1, hc.1], by rw [h1.2, this.2, hc.2.1]⟩
          · rw [not_or] at hb
            cases ht : tokenStr body (lit "access_token") with
            | none => exact absurd ht hb.2
            | some tok =>
              have := (ho.2 body hg).1 tok hb.1 ht
              exact Or.inr ⟨e, List.mem_cons_self, body, hg, by rw [ht, h1.1, this.1], by rw [h1.2, this.2]⟩
      · exact Or.inr ⟨e', List.mem_cons_of_mem _ hm, h1⟩
  rcases key s.ends [] 0 s.token s.expiry hi.ends hi.chain with h1 | h1
  · exact absurd h1.1 h
  · exact h1

example : ((Tk.init 50).run 60 tokenOps).token ≠ [] := by decide +kernel

/-- The steps that are only calls and time passing, and the time they take. -/
def OnlyCalls : List TkOp → Nat → Prop
  | [], d => d = 0
  | .tick a :: ops, d => ∃ b, d = a + b ∧ OnlyCalls ops b
  | .ensure :: ops, d => OnlyCalls ops d
  | .reply _ _ :: _, _ => False

/-- **C50**, a token is used as long as it is good: while the expiry of the token held stays more than the skew away,
and no earlier fetch answers, every call returns at once without a fetch and the token stays the same. -/
theorem C50_reused (skew : Nat) (s : Tk) (ops : List TkOp) (d : Nat) (hq : OnlyCalls ops d) (ht : s.token ≠ [])
    (hx : s.now + d + skew * 1000000000 < s.expiry) :
    (s.run skew ops).token = s.token ∧ (s.run skew ops).expiry = s.expiry ∧
      ∃ m, (s.run skew ops).calls = s.calls ++ List.replicate m .over ∧
        (s.run skew ops).headers = [(lit "Authorization", lit "Bearer " ++ s.token)] := by
  induction ops generalizing s d with
  | nil => exact ⟨rfl, rfl, 0, by simp [Tk.run], by simp [Tk.run, Tk.headers, ht]⟩
  | cons op ops ih =>
    cases op with
    | tick a =>
      obtain ⟨b, rfl, hq⟩ := hq
      exact ih { s with now := s.now + a } b hq ht (by show s.now + a + b + skew * 1000000000 < s.expiry; omega)
    | ensure =>
      have hf : s.fresh skew = true := by
        simp only [Tk.fresh, Bool.and_eq_true, Bool.not_eq_true', decide_eq_true_eq]
        exact ⟨by cases h : s.token with
                  | nil => exact absurd h ht
                  | cons a b => rfl, by unfold second; omega⟩
      have hs : s.step skew .ensure = { s.finish s.calls.length s.token s.expiry none with calls := s.calls ++ [.over] } := by
        simp only [Tk.step, hf, if_true]
      obtain ⟨h1, h2, m, h3, h4⟩ := ih (s.step skew .ensure) d hq (by rw [hs]; exact ht) (by rw [hs]; exact hx)
      refine ⟨by rw [show (s.run skew (.ensure :: ops)).token = _ from h1, hs]; rfl,
        by rw [show (s.run skew (.ensure :: ops)).expiry = _ from h2, hs]; rfl, m + 1, ?_, ?_⟩
      · rw [show (s.run skew (.ensure :: ops)).calls = _ from h3, hs]
        show (s.calls ++ [TkStage.over]) ++ List.replicate m .over = s.calls ++ List.replicate (m + 1) .over
        rw [List.replicate_succ, List.append_assoc]
        rfl
      · rw [show (s.run skew (.ensure :: ops)).headers = _ from h4, hs]; rfl
    | reply c r => exact absurd hq (by simp [OnlyCalls])

example : OnlyCalls [.ensure, .tick 5, .ensure] 5 ∧
    ((Tk.init 0).run 60 [.ensure, .reply 0 tokenReply]).token ≠ [] ∧
    ((Tk.init 0).run 60 [.ensure, .reply 0 tokenReply]).now + 5 + 60 * 1000000000 <
      ((Tk.init 0).run 60 [.ensure, .reply 0 tokenReply]).expiry :=
  ⟨⟨0, rfl, rfl⟩, by decide +kernel, by decide +kernel⟩

/-- **C50**, and it is renewed: a call made when no token is held, or when the expiry is not more than the skew away,
starts a fetch. -/
theorem C50_renewed (skew : Nat) (s : Tk) (h : s.token = [] ∨ s.expiry ≤ s.now + skew * 1000000000) :
    (s.step skew .ensure).calls = s.calls ++ [.fetching] ∧ (s.step skew .ensure).ends = s.ends ∧
      (s.step skew .ensure).token = s.token ∧ (s.step skew .ensure).expiry = s.expiry := by
  have hf : s.fresh skew = false := by
    unfold Tk.fresh second
    rcases h with h | h
    · simp [h]
    · have : ¬ (s.now + skew * 1000000000 < s.expiry) := by omega
      simp [this]
  simp [Tk.step, hf]

example : ((Tk.init 50).run 60 tokenOps).expiry ≤ ((Tk.init 50).run 60 tokenOps).now + 60 * 1000000000 := by decide +kernel

/-- **C50 is false of failed fetches**: once the token has expired and the fetch of a call fails, the call returns with
the expired token still held, and `headers` attaches it. For every lifetime the first reply may state and every skew
there is such a history. -/
theorem C50_stale_counterexample (skew : Nat) (body t : Bytes) (d : Nat) (hm : StrMember body (lit "access_token") t)
    (hd : Lasts body d) (ht : t ≠ []) :
    ∃ ops, ∃ e ∈ ((Tk.init 0).run skew ops).ends, e.got = some [] ∧ e.token ≠ [] ∧ e.expiry ≤ e.time ∧
      ((Tk.init 0).run skew ops).headers = [(lit "Authorization", lit "Bearer " ++ t)] := by
  have hne : body ≠ [] := by
    rintro rfl
    obtain ⟨_, _, _, _, _, hb, _⟩ := hm
    simp at hb
  refine ⟨[.ensure, .reply 0 body, .tick d, .ensure, .reply 1 []], ?_⟩
  have hr : (Tk.init 0).run skew [.ensure, .reply 0 body, .tick d, .ensure, .reply 1 []] =
      { now := d, token := t, expiry := d, calls := [.over, .over],
        ends := [{ call := 0, time := 0, token := t, expiry := d, wasToken := [], wasExpiry := 0, got := some body },
          { call := 1, time := d, token := t, expiry := d, wasToken := t, wasExpiry := d, got := some [] }] } := by
    have hx : ¬ (d + skew * second < d) := by omega
    simp [Tk.run, Tk.step, Tk.init, Tk.fresh, Tk.finish, hne, hx, tokenStr_member hm, lifetime_lasts hd]
  rw [hr]
  exact ⟨_, List.mem_cons_of_mem _ List.mem_cons_self, rfl, ht, Nat.le_refl _, by simp [Tk.headers, ht]⟩

example : StrMember tokenReply (lit "access_token") (lit "abc") ∧ Lasts tokenReply (120 * 1000000000) ∧ lit "abc" ≠ [] :=
  ⟨tokenReply_member, tokenReply_lasts, by decide⟩

/-- Two refusals that are read as tokens: a null token, and an error that mentions the name. -/
def nullReply : Bytes := lit "{\"access_token\":null,\"token_type\":\"Bearer\"}"
def errorReply : Bytes := lit "{\"error\":\"access_token\",\"error_description\":\"denied\"}"

/-- **C50 is false of some failed fetches**: a reply whose `access_token` is null replaces the token by the name of
the next member, an error reply with the quoted name as a value replaces it by the description that follows, and an
empty token replaces a good one by nothing. This is so whatever was held and whatever the clock says. -/
theorem C50_null_counterexample (skew : Nat) (s : Tk) (c : Nat) (h : s.calls[c]? = some .fetching) :
    (s.step skew (.reply c nullReply)).token = lit "token_type" ∧
    (s.step skew (.reply c errorReply)).token = lit "denied" ∧
    (s.step skew (.reply c (lit "{\"access_token\":\"\"}"))).token = [] := by
  have h1 : tokenStr nullReply (lit "access_token") = some (lit "token_type") := by decide +kernel
  have h2 : tokenStr errorReply (lit "access_token") = some (lit "denied") := by decide +kernel
  have h3 : tokenStr (lit "{\"access_token\":\"\"}") (lit "access_token") = some [] := by decide +kernel
  refine ⟨?_, ?_, ?_⟩
  · simp only [Tk.step, h, if_true, h1]
    rw [if_neg (by decide +kernel)]
    rfl
  · simp only [Tk.step, h, if_true, h2]
    rw [if_neg (by decide +kernel)]
    rfl
  · simp only [Tk.step, h, if_true, h3]
    rw [if_neg (by decide +kernel)]
    rfl

example : ((Tk.init 0).run 60 [.ensure, .reply 0 tokenReply, .tick 120000000000, .ensure]).calls[1]? = some .fetching := by
  decide +kernel

/-! ### Tokens with escapes, and tokens that are over -/

/-- The body has a string member whose text has one escaped character: before it `t`, after it `u`. -/
def EscMember (body name t : Bytes) (c : Char) (u : Bytes) : Prop :=
  NoEscape t ∧ NoEscape u ∧ ∃ more, JsonMember body name ('"' :: (t ++ '\\' :: c :: u) ++ '"' :: more)

private theorem scan_esc (t u more : Bytes) (c : Char) (hc : c ≠ '\\') (h : NoEscape t) (hu : NoEscape u) (prev : Char) (hp : prev ≠ '\\') :
    scanQuote prev ((t ++ '\\' :: c :: u) ++ '"' :: more) = some (t ++ '\\' :: c :: u) := by
  induction t generalizing prev with
  | nil =>
    simp only [List.nil_append, List.cons_append, scanQuote]
    rw [if_neg (by simp), if_neg (by simp), scan_bare u more hu c hc]
    rfl
  | cons x t ih =>
    have hx := h x List.mem_cons_self
    simp only [List.cons_append, scanQuote, hx.1, false_and, if_false]
    have := ih (fun y hy => h y (List.mem_cons_of_mem _ hy)) x hx.2
    simp only [List.append_assoc, List.cons_append] at this ⊢
    rw [this]
    rfl

theorem tokenStr_esc {body name t u : Bytes} {c : Char} (hc : c ≠ '\\') (h : EscMember body name t c u) :
    tokenStr body name = some (t ++ '\\' :: c :: u) := by
  obtain ⟨hb, hu, more, pre, w, v, rfl, hn, hw, hv⟩ := h
  unfold tokenStr
  rw [quoted_first name pre _ hn]
  simp only []
  rw [splitCh_append _ (blank_not hw ':' (by decide))]
  simp only [List.cons_append]
  rw [splitCh_append _ (blank_not hv '"' (by decide))]
  exact scan_esc t u more c hc hb hu '"' (by decide)

/-- **C50 is false of tokens written with an escape**, such as `\/`, which some servers write for every slash: the token attached to requests
has the backslash in it, and so is not the token the endpoint issued. -/
theorem C50_escape_counterexample (skew : Nat) (s : Tk) (call : Nat) (h : s.calls[call]? = some .fetching) (body t u : Bytes) (c : Char)
    (hc : c = '/' ∨ c = '"') (hm : EscMember body (lit "access_token") t c u) :
    (s.step skew (.reply call body)).token = t ++ '\\' :: c :: u ∧ (s.step skew (.reply call body)).token ≠ t ++ c :: u := by
  have hc' : c ≠ '\\' := by rcases hc with rfl | rfl <;> decide
  have hne : body ≠ [] := by
    rintro rfl
    obtain ⟨_, _, _, _, _, _, hb, _⟩ := hm
    simp at hb
  have ht : (s.step skew (.reply call body)).token = t ++ '\\' :: c :: u := by
    simp only [Tk.step, h, if_true, tokenStr_esc hc' hm]
    rw [if_neg hne]
    rfl
  refine ⟨ht, ?_⟩
  rw [ht]
  intro e
  have := congrArg List.length (List.append_cancel_left e)
  simp at this

example : EscMember (lit "{\"access_token\":\"ab\\/cd\"}") (lit "access_token") (lit "ab") '/' (lit "cd") := by
  refine ⟨?_, ?_, lit "}", lit "{", [], [], ?_, ?_, ?_, ?_⟩
  · show ∀ c ∈ lit "ab", c ≠ '"' ∧ c ≠ '\\'
    decide
  · show ∀ c ∈ lit "cd", c ≠ '"' ∧ c ≠ '\\'
    decide
  · decide +kernel
  · intro h
    have h2 : splitSub ('"' :: lit "access_token" ++ ['"']) (lit "{" ++ '"' :: lit "access_token") = none := by decide +kernel
    exact splitSub_eq_none h2 h
  · intro c hc; cases hc
  · intro c hc; cases hc

/-- **C50 is false of tokens that last for no time**: a token which the endpoint says lasts 0 seconds is kept and attached for an hour. -/
theorem C50_zero_counterexample (skew : Nat) (s : Tk) (call : Nat) (h : s.calls[call]? = some .fetching) (body t : Bytes)
    (hm : StrMember body (lit "access_token") t) (hz : NatMember body (lit "expires_in") 0) :
    (s.step skew (.reply call body)).token = t ∧ (s.step skew (.reply call body)).expiry = s.now + 3600 * 1000000000 := by
  have hne : body ≠ [] := by
    rintro rfl
    obtain ⟨_, _, _, _, _, hb, _⟩ := hm
    simp at hb
  have hl : lifetime body = 3600 * 1000000000 := by
    unfold lifetime
    rw [tokenInt_member hz (by decide)]
    rfl
  simp only [Tk.step, h, if_true, tokenStr_member hm, hl]
  rw [if_neg hne]
  exact ⟨rfl, rfl⟩

example : let body := lit "{\"access_token\":\"abc\",\"expires_in\":0}"
    StrMember body (lit "access_token") (lit "abc") ∧ NatMember body (lit "expires_in") 0 := by
  refine ⟨⟨?_, lit ",\"expires_in\":0}", lit "{", [], [], ?_, ?_, ?_, ?_⟩, lit "}", ?_, lit "{\"access_token\":\"abc\",", [], [], ?_, ?_, ?_, ?_⟩
  · show ∀ c ∈ lit "abc", c ≠ '"' ∧ c ≠ '\\'
    decide
  · decide +kernel
  · intro h
    have h2 : splitSub ('"' :: lit "access_token" ++ ['"']) (lit "{" ++ '"' :: lit "access_token") = none := by decide +kernel
    exact splitSub_eq_none h2 h
  · intro c hc; cases hc
  · intro c hc; cases hc
  · intro c hc; simp [lit] at hc; subst hc; decide
  · decide +kernel
  · intro h
    have h2 : splitSub ('"' :: lit "expires_in" ++ ['"']) (lit "{\"access_token\":\"abc\"," ++ '"' :: lit "expires_in") = none := by decide +kernel
    exact splitSub_eq_none h2 h
  · intro c hc; cases hc
  · intro c hc; cases hc

end Verif
