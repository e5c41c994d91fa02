import Verif.Http.Auth

/-!
C42, first half: which tokens pass.
-/

namespace Verif
open Http

/-- The header carries this token: the word Bearer in any letter case, a space, white space, the token. -/
def Bearing (header token : Bytes) : Prop :=
  ∃ word space, header = word ++ space ++ token ∧ word.map lowerCh = lit "bearer " ∧ (∀ c ∈ space, isSpaceCh c = true) ∧
    ∃ c r, token = c :: r ∧ isSpaceCh c = false

/-- A token that opens the server at a time. -/
structure Admits (verify : Bytes → Verdict) (required : List Bytes) (now : Int) (token : Bytes) (info : TokenInfo) : Prop where
  verified : verify token = .good info
  scopes : ∀ s ∈ required, s ∈ info.scopes
  expires : info.expiration ≠ 0
  valid : now < info.expiration

theorem dropWhile_space (space token : Bytes) (hs : ∀ c ∈ space, isSpaceCh c = true) (c : Char) (r : Bytes) (ht : token = c :: r)
    (hc : isSpaceCh c = false) : (space ++ token).dropWhile isSpaceCh = token := by
  induction space with
  | nil => subst ht; simp [List.dropWhile_cons, hc]
  | cons x s ih =>
    rw [List.cons_append, List.dropWhile_cons, hs x (by simp)]
    exact ih (fun y hy => hs y (by simp [hy]))

theorem lowered_length {w : Bytes} (h : w.map lowerCh = lit "bearer ") : w.length = 7 := by
  have := congrArg List.length h
  simpa [lit] using this

theorem bearing_iff (header token : Bytes) :
    Bearing header token ↔ header ≠ [] ∧ startsWithBearer header = true ∧ tokenOf header = token ∧ token ≠ [] := by
  have hl : (lit "Bearer ").map lowerCh = lit "bearer " := by decide +kernel
  constructor
  · rintro ⟨word, space, rfl, hw, hs, c, r, ht, hc⟩
    have hlen := lowered_length hw
    refine ⟨?_, ?_, ?_, ?_⟩
    · intro e
      have := congrArg List.length e
      simp [hlen] at this
    · unfold startsWithBearer
      rw [if_neg (by simp [hlen]), hl]
      rw [List.append_assoc, List.take_append_of_le_length (by omega), List.take_of_length_le (by omega)]
      simp [hw]
    · unfold tokenOf
      rw [List.append_assoc, ← hlen, List.drop_left]
      exact dropWhile_space space token hs c r ht hc
    · rw [ht]; simp
  · rintro ⟨_, hb, ht, hne⟩
    unfold startsWithBearer at hb
    by_cases h7 : header.length < 7
    · rw [if_pos h7] at hb; exact absurd hb (by simp)
    rw [if_neg h7, hl] at hb
    refine ⟨header.take 7, (header.drop 7).takeWhile isSpaceCh, ?_, of_decide_eq_true hb, ?_, ?_⟩
    · rw [← ht, List.append_assoc]
      unfold tokenOf
      rw [List.takeWhile_append_dropWhile, List.take_append_drop]
    · intro c hc
      have := List.all_takeWhile (l := header.drop 7) (p := isSpaceCh)
      exact List.all_eq_true.1 this c hc
    · cases htk : token with
      | nil => exact absurd htk hne
      | cons c r =>
        refine ⟨c, r, rfl, ?_⟩
        have hd := List.head?_dropWhile_not isSpaceCh (header.drop 7)
        have e : (header.drop 7).dropWhile isSpaceCh = c :: r := by rw [← htk, ← ht]; rfl
        rw [e] at hd
        simpa using hd

theorem containsAll_iff (h n : List Bytes) : containsAllScopes h n = true ↔ ∀ s ∈ n, s ∈ h := by
  unfold containsAllScopes
  rw [List.all_eq_true]
  constructor
  · intro hx s hs
    obtain ⟨a, ha, e⟩ := List.any_eq_true.1 (hx s hs)
    rw [← of_decide_eq_true e]
    exact ha
  · intro hx s hs
    exact List.any_eq_true.2 ⟨s, hx s hs, by simp⟩

theorem scopesFail_iff (o : BearerOpts) (info : TokenInfo) :
    (!o.requiredScopes.isEmpty && !containsAllScopes info.scopes o.requiredScopes) = true ↔ ¬ ∀ s ∈ o.requiredScopes, s ∈ info.scopes := by
  rw [← containsAll_iff]
  cases hr : o.requiredScopes with
  | nil => simp [containsAllScopes]
  | cons a l => simp

theorem checkInfo_passed (o : BearerOpts) (now : Int) (info out : TokenInfo) :
    checkInfo o now info = .passed out ↔ out = info ∧ (∀ s ∈ o.requiredScopes, s ∈ info.scopes) ∧ info.expiration ≠ 0 ∧ now < info.expiration := by
  unfold checkInfo
  by_cases h1 : ∀ s ∈ o.requiredScopes, s ∈ info.scopes
  · have hf : ¬ (!o.requiredScopes.isEmpty && !containsAllScopes info.scopes o.requiredScopes) = true := fun h => (scopesFail_iff o info).1 h h1
    rw [if_neg hf]
    by_cases h2 : info.expiration = 0
    · rw [if_pos h2]; simp [h2]
    · rw [if_neg h2]
      by_cases h3 : info.expiration ≤ now
      · rw [if_pos h3]
        constructor
        · intro h; cases h
        · rintro ⟨_, _, _, h⟩; omega
      · rw [if_neg h3]
        constructor
        · intro h; cases h; exact ⟨rfl, h1, h2, by omega⟩
        · rintro ⟨rfl, _⟩; rfl
  · rw [if_pos ((scopesFail_iff o info).2 h1)]
    constructor
    · intro h; cases h
    · rintro ⟨_, h, _⟩; exact absurd h h1

/-- **C42.** The check passes with an info exactly if the header carries a token the verifier accepts with that info, with every required
scope, and not expired at the time (an expiration must be set). -/
theorem C42_passes_iff (verify : Bytes → Verdict) (o : BearerOpts) (now : Int) (header : Bytes) (info : TokenInfo) :
    checkBearer verify o now header = .passed info ↔ ∃ token, Bearing header token ∧ Admits verify o.requiredScopes now token info := by
  constructor
  · intro h
    unfold checkBearer at h
    split at h
    · cases h
    · next h1 =>
      split at h
      · cases h
      · next h2 =>
        split at h
        · cases h
        · next h3 =>
          split at h
          · cases h
          · cases h
          · next i hv =>
            obtain ⟨rfl, hs, he, hn⟩ := (checkInfo_passed o now i info).1 h
            exact ⟨tokenOf header, (bearing_iff header _).2 ⟨h1, by simpa using h2, rfl, h3⟩, ⟨hv, hs, he, hn⟩⟩
  · rintro ⟨token, hb, ha⟩
    obtain ⟨h1, h2, h3, h4⟩ := (bearing_iff header token).1 hb
    subst h3
    unfold checkBearer
    rw [if_neg h1, if_neg (by simp [h2]), if_neg h4, ha.verified]
    exact (checkInfo_passed o now info info).2 ⟨rfl, ha.scopes, ha.expires, ha.valid⟩

/-- Why a request is refused: with 403 if the token is good but lacks a scope, with 401 otherwise. -/
inductive Refusal (verify : Bytes → Verdict) (required : List Bytes) (now : Int) (header : Bytes) : Nat → Bytes → Prop
  | noToken : (∀ token, ¬ Bearing header token) → Refusal verify required now header 401 (lit "no bearer token")
  | invalid (token) : Bearing header token → verify token = .refused [] → Refusal verify required now header 401 (lit "invalid token")
  | message (token m) : Bearing header token → verify token = .refused m → m ≠ [] → Refusal verify required now header 401 m
  | scope (token info s) : Bearing header token → verify token = .good info → s ∈ required → s ∉ info.scopes →
      Refusal verify required now header 403 (lit "insufficient scope")
  | noExpiry (token info) : Bearing header token → verify token = .good info → (∀ s ∈ required, s ∈ info.scopes) → info.expiration = 0 →
      Refusal verify required now header 401 (lit "token missing expiration")
  | expired (token info) : Bearing header token → verify token = .good info → (∀ s ∈ required, s ∈ info.scopes) → info.expiration ≠ 0 →
      info.expiration ≤ now → Refusal verify required now header 401 (lit "token expired")

theorem bearing_unique {header t t' : Bytes} (h : Bearing header t) (h' : Bearing header t') : t = t' := by
  rw [← ((bearing_iff header t).1 h).2.2.1, ← ((bearing_iff header t').1 h').2.2.1]

/-- **C42.** The status and the message of every refusal: 403 exactly for a good token that lacks a required scope, else 401. -/
theorem C42_refusal_iff (verify : Bytes → Verdict) (o : BearerOpts) (now : Int) (header : Bytes) (status : Nat) (message : Bytes) :
    checkBearer verify o now header = .refused status message ↔ Refusal verify o.requiredScopes now header status message := by
  have hno : (header = [] ∨ startsWithBearer header = false ∨ tokenOf header = []) → ∀ t, ¬ Bearing header t := by
    intro h t hb
    obtain ⟨h1, h2, h3, h4⟩ := (bearing_iff header t).1 hb
    rcases h with h | h | h
    · exact h1 h
    · rw [h] at h2; exact absurd h2 (by simp)
    · exact h4 (by rw [← h3, h])
  by_cases hb : ∃ t, Bearing header t
  · obtain ⟨t, hb⟩ := hb
    obtain ⟨h1, h2, h3, h4⟩ := (bearing_iff header t).1 hb
    have hc : checkBearer verify o now header = match verify t with
        | .threw => .threw
        | .refused err => .refused 401 (if err = [] then lit "invalid token" else err)
        | .good info => checkInfo o now info := by
      subst h3
      unfold checkBearer
      rw [if_neg h1, if_neg (by simp [h2]), if_neg h4]
      cases verify (tokenOf header) <;> rfl
    rw [hc]
    have same : ∀ t', Bearing header t' → t' = t := fun t' h' => bearing_unique h' hb
    cases hv : verify t with
    | threw =>
      constructor
      · intro h; cases h
      · intro h
        cases h with
        | noToken h => exact absurd hb (h t)
        | invalid t' ht hr => rw [same t' ht, hv] at hr; cases hr
        | message t' m ht hr => rw [same t' ht, hv] at hr; cases hr
        | scope t' i s ht hr => rw [same t' ht, hv] at hr; cases hr
        | noExpiry t' i ht hr => rw [same t' ht, hv] at hr; cases hr
        | expired t' i ht hr => rw [same t' ht, hv] at hr; cases hr
    | refused m =>
      constructor
      · intro h
        by_cases hm : m = []
        · rw [hm] at h
          cases h
          exact .invalid t hb (by rw [hv, hm])
        · simp only [if_neg hm] at h
          cases h
          exact .message t _ hb hv hm
      · intro h
        cases h with
        | noToken h => exact absurd hb (h t)
        | invalid t' ht hr => rw [same t' ht, hv] at hr; cases hr; rfl
        | message t' m' ht hr hm => rw [same t' ht, hv] at hr; cases hr; simp [hm]
        | scope t' i s ht hr => rw [same t' ht, hv] at hr; cases hr
        | noExpiry t' i ht hr => rw [same t' ht, hv] at hr; cases hr
        | expired t' i ht hr => rw [same t' ht, hv] at hr; cases hr
    | good i =>
      show checkInfo o now i = _ ↔ _
      unfold checkInfo
      by_cases hs : ∀ s ∈ o.requiredScopes, s ∈ i.scopes
      · rw [if_neg (fun h => (scopesFail_iff o i).1 h hs)]
        by_cases he : i.expiration = 0
        · rw [if_pos he]
          constructor
          · intro h; cases h; exact .noExpiry t i hb hv hs he
          · intro h
            cases h with
            | noToken h => exact absurd hb (h t)
            | invalid t' ht hr => rw [same t' ht, hv] at hr; cases hr
            | message t' m' ht hr hm => rw [same t' ht, hv] at hr; cases hr
            | scope t' i' s ht hr h1 h2 => rw [same t' ht, hv] at hr; cases hr; exact absurd (hs s h1) h2
            | noExpiry t' i' ht hr => rfl
            | expired t' i' ht hr _ h1 => rw [same t' ht, hv] at hr; cases hr; exact absurd he h1
        · rw [if_neg he]
          by_cases hn : i.expiration ≤ now
          · rw [if_pos hn]
            constructor
            · intro h; cases h; exact .expired t i hb hv hs he hn
            · intro h
              cases h with
              | noToken h => exact absurd hb (h t)
              | invalid t' ht hr => rw [same t' ht, hv] at hr; cases hr
              | message t' m' ht hr hm => rw [same t' ht, hv] at hr; cases hr
              | scope t' i' s ht hr h1 h2 => rw [same t' ht, hv] at hr; cases hr; exact absurd (hs s h1) h2
              | noExpiry t' i' ht hr _ h1 => rw [same t' ht, hv] at hr; cases hr; exact absurd h1 he
              | expired t' i' ht hr => rfl
          · rw [if_neg hn]
            constructor
            · intro h; cases h
            · intro h
              cases h with
              | noToken h => exact absurd hb (h t)
              | invalid t' ht hr => rw [same t' ht, hv] at hr; cases hr
              | message t' m' ht hr hm => rw [same t' ht, hv] at hr; cases hr
              | scope t' i' s ht hr h1 h2 => rw [same t' ht, hv] at hr; cases hr; exact absurd (hs s h1) h2
              | noExpiry t' i' ht hr _ h1 => rw [same t' ht, hv] at hr; cases hr; exact absurd h1 he
              | expired t' i' ht hr _ _ h1 => rw [same t' ht, hv] at hr; cases hr; exact absurd h1 hn
      · rw [if_pos ((scopesFail_iff o i).2 hs)]
        constructor
        · intro h
          cases h
          obtain ⟨s, hx⟩ := Classical.not_forall.1 hs
          obtain ⟨h1, h2⟩ := Classical.not_imp.1 hx
          exact .scope t i s hb hv h1 h2
        · intro h
          cases h with
          | noToken h => exact absurd hb (h t)
          | invalid t' ht hr => rw [same t' ht, hv] at hr; cases hr
          | message t' m' ht hr hm => rw [same t' ht, hv] at hr; cases hr
          | scope t' i' s ht hr h1 h2 => rfl
          | noExpiry t' i' ht hr h1 => rw [same t' ht, hv] at hr; cases hr; exact absurd h1 hs
          | expired t' i' ht hr h1 => rw [same t' ht, hv] at hr; cases hr; exact absurd h1 hs
  · have hall : ∀ t, ¬ Bearing header t := fun t h => hb ⟨t, h⟩
    have hc : checkBearer verify o now header = .refused 401 (lit "no bearer token") := by
      unfold checkBearer
      by_cases h1 : header = []
      · rw [if_pos h1]
      · rw [if_neg h1]
        by_cases h2 : startsWithBearer header = true
        · rw [if_neg (by simp [h2])]
          by_cases h3 : tokenOf header = []
          · rw [if_pos h3]
          · exact absurd ((bearing_iff header _).2 ⟨h1, h2, rfl, h3⟩) (hall _)
        · rw [if_pos (by simpa using h2)]
    rw [hc]
    constructor
    · intro h; cases h; exact .noToken hall
    · intro h
      cases h with
      | noToken h => rfl
      | invalid t' ht => exact absurd ht (hall t')
      | message t' m' ht => exact absurd ht (hall t')
      | scope t' i' s ht => exact absurd ht (hall t')
      | noExpiry t' i' ht => exact absurd ht (hall t')
      | expired t' i' ht => exact absurd ht (hall t')

example : Bearing (lit "bEARER  \tabc") (lit "abc") :=
  ⟨lit "bEARER ", lit " \t", by decide +kernel, by decide +kernel, by decide +kernel, 'a', lit "bc", rfl, by decide⟩
example : Admits (fun t => if t = lit "abc" then .good ⟨[lit "read", lit "write"], 100, []⟩ else .refused []) [lit "read"] 99 (lit "abc")
    ⟨[lit "read", lit "write"], 100, []⟩ :=
  ⟨by decide +kernel, by decide +kernel, by decide, by decide⟩
example : Refusal (fun _ => .good ⟨[lit "read"], 100, []⟩) [lit "write"] 99 (lit "Bearer x") 403 (lit "insufficient scope") :=
  .scope (lit "x") ⟨[lit "read"], 100, []⟩ (lit "write")
    ⟨lit "Bearer ", [], by decide +kernel, by decide +kernel, by decide, 'x', [], rfl, by decide⟩ rfl (by decide) (by decide +kernel)

/-! ### What the setters do to the requirement -/

inductive AuthOp where
  | metadata (o : BearerOpts)
  | bearer (v : Bytes → Verdict) (o : BearerOpts)

def AuthCfg.apply (a : AuthCfg) : AuthOp → AuthCfg
  | .metadata o => a.setMetadata o
  | .bearer v o => a.setBearer v o

/-- **C80.** Once bearer authentication has been switched on it stays on, with the verifier given last, whatever is configured afterwards:
the check of every request is made with that verifier. Missing: the scopes, see the counterexample. -/
theorem C80_stays_on_partial (a : AuthCfg) (pre post : List AuthOp) (v : Bytes → Verdict) (o : BearerOpts)
    (hpost : ∀ v' o', AuthOp.bearer v' o' ∉ post) (now : Int) (header : Bytes) :
    ∃ o', ((pre ++ .bearer v o :: post).foldl AuthCfg.apply a).check now header = some (checkBearer v o' now header) ∧
      (post = [] → o' = o) := by
  rw [List.foldl_append, List.foldl_cons]
  generalize List.foldl AuthCfg.apply a pre = b
  have key : ∀ (post : List AuthOp) (c : AuthCfg), (∀ v' o', AuthOp.bearer v' o' ∉ post) → c.enabled = true → c.verifier = some v →
      (post.foldl AuthCfg.apply c).enabled = true ∧ (post.foldl AuthCfg.apply c).verifier = some v := by
    intro post
    induction post with
    | nil => intro c _ h1 h2; exact ⟨h1, h2⟩
    | cons x post ih =>
      intro c hn h1 h2
      rw [List.foldl_cons]
      cases x with
      | metadata o'' => exact ih _ (fun v' o' h => hn v' o' (by simp [h])) h1 h2
      | bearer v' o' => exact absurd (by simp) (hn v' o')
  obtain ⟨h1, h2⟩ := key post (AuthCfg.apply b (.bearer v o)) hpost rfl rfl
  refine ⟨(List.foldl AuthCfg.apply (AuthCfg.apply b (.bearer v o)) post).opts, ?_, ?_⟩
  · unfold AuthCfg.check
    rw [h1, h2]
    rfl
  · rintro rfl
    rfl

/-- **C80, false of the scopes.** Publishing metadata with no required scopes after switching authentication on (its name speaks of
metadata only) opens the server to every verified token: for all scopes required, a token without any of them is let in. -/
theorem C80_scopes_dropped_counterexample (v : Bytes → Verdict) (o meta_ : BearerOpts) (info : TokenInfo) (now : Int) (header token : Bytes)
    (hr : o.requiredScopes ≠ []) (hm : meta_.requiredScopes = []) (hb : Bearing header token) (hv : v token = .good info)
    (hs : info.scopes = []) (he : info.expiration ≠ 0) (hn : now < info.expiration) :
    (AuthCfg.init.setBearer v o).check now header = some (.refused 403 (lit "insufficient scope")) ∧
      ((AuthCfg.init.setBearer v o).setMetadata meta_).check now header = some (.passed info) := by
  constructor
  · show some (checkBearer v o now header) = _
    rw [(C42_refusal_iff v o now header 403 (lit "insufficient scope")).2]
    obtain ⟨s, l, h⟩ := List.exists_cons_of_ne_nil hr
    exact .scope token info s hb hv (by rw [h]; simp) (by rw [hs]; simp)
  · show some (checkBearer v ⟨meta_.resourceMetadataUrl, meta_.requiredScopes, meta_.authorizationServers, meta_.scopesSupported⟩ now header) = _
    rw [(C42_passes_iff v _ now header info).2]
    exact ⟨token, hb, hv, by show ∀ s ∈ meta_.requiredScopes, _; rw [hm]; simp, he, hn⟩

end Verif
