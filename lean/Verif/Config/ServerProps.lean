import Verif.Config.Lemmas

/-!
C98: the address an HTTP server listens on and the channel two shared memory endpoints meet on are the ones in the configuration text.
C99: the ports the HTTP server accepts.
-/

namespace Verif
open Config

/-! ### Ports -/

/-- C99. The HTTP server goes on to use a port exactly when it is written in decimal digits and is at most 65535 (leading zeros do not
matter, however many); otherwise it reports an error, which names the text it was given. -/
theorem C99_port_accepted (port : Bytes) :
    (portError port = none ↔ ∃ n, Decimal port n ∧ n ≤ 65535) ∧
    (∀ e, portError port = some e → (lit "HTTPServer invalid port").isPrefixOf e ∧ ∃ a, e = a ++ port) := by
  constructor
  · unfold portError
    by_cases h0 : port = []
    · rw [if_pos h0]
      constructor
      · intro h; cases h
      · rintro ⟨n, hd, _⟩
        exact absurd h0 (decimal_iff.1 hd).1
    · rw [if_neg h0]
      by_cases h1 : port.all isDig = false
      · rw [if_pos h1]
        constructor
        · intro h; cases h
        · rintro ⟨n, hd, _⟩
          have := List.all_eq_true.2 (decimal_iff.1 hd).2.1
          rw [h1] at this; cases this
      · rw [if_neg h1]
        have hall : ∀ c ∈ port, isDig c = true := List.all_eq_true.1 (by simpa using h1)
        have hd : Decimal port (digitsVal port) := decimal_iff.2 ⟨h0, hall, rfl⟩
        rw [stoull_decimal hd]
        have uniq : ∀ n, Decimal port n → n = digitsVal port := fun n hn => (decimal_iff.1 hn).2.2.symm
        by_cases h2 : digitsVal port > Framer.sizeMax
        · rw [if_pos h2]
          constructor
          · intro h; cases h
          · rintro ⟨n, hn, hle⟩
            have e := uniq n hn
            have hs : Framer.sizeMax = 18446744073709551615 := rfl
            omega
        · rw [if_neg h2]
          dsimp only
          by_cases h3 : digitsVal port > 65535
          · rw [if_pos h3]
            constructor
            · intro h; cases h
            · rintro ⟨n, hn, hle⟩
              have := uniq n hn
              omega
          · rw [if_neg h3]
            exact ⟨fun _ => ⟨_, hd, by omega⟩, fun _ => rfl⟩
  · intro e he
    unfold portError at he
    split at he
    · rename_i h0
      cases he
      exact ⟨by decide +kernel, _, by rw [h0, List.append_nil]⟩
    · have fin : ∀ s : String, (lit "HTTPServer invalid port").isPrefixOf (lit s) = true →
          (lit "HTTPServer invalid port").isPrefixOf (lit s ++ port) = true := by
        intro s hs
        rw [List.isPrefixOf_iff_prefix] at hs ⊢
        exact hs.trans (List.prefix_append _ _)
      split at he
      · cases he; exact ⟨fin _ (by decide +kernel), _, rfl⟩
      · split at he
        · cases he; exact ⟨fin _ (by decide +kernel), _, rfl⟩
        · split at he
          · cases he; exact ⟨fin _ (by decide +kernel), _, rfl⟩
          · cases he

example : portError (lit "9443") = none := by decide +kernel
example : portError (lit "000000000000000000000000065535") = none := by decide +kernel
example : portError (lit "65536") = some (lit "HTTPServer invalid port (out of range): 65536") := by decide +kernel
example : Decimal (lit "9443") 9443 :=
  decimal_iff.2 ⟨by decide, by decide, by decide +kernel⟩

/-! ### Shared memory -/

/-- C98. Two shared memory endpoints made from the two documented texts, `shm://NAME?create=true&maxSize=S&maxCount=C` and `NAME`, meet:
they have the same channel name, exactly NAME, one creates and the other opens, and the queues have the sizes asked for. For every
NAME that is not empty, holds no `?` and does not begin with `shm://`. -/
theorem C98_shm_pair_partial (name s c : Bytes) (size count : Nat) (h0 : name ≠ []) (h1 : '?' ∉ name)
    (h2 : ¬ lit "shm://" <+: name) (hs : Decimal s size) (hsz : size < 2 ^ 64) (hc : Decimal c count) (hct : count < 2 ^ 32) :
    createShm (lit "shm://" ++ name ++ lit "?create=true&maxSize=" ++ s ++ lit "&maxCount=" ++ c) = ⟨name, true, size, count⟩ ∧
    createShm name = ⟨name, false, 1048576, 256⟩ := by
  have ns : ∀ {s : Bytes} {n : Nat}, Decimal s n → '&' ∉ s := by
    intro s n h hm
    have := (decimal_iff.1 h).2.1 _ hm
    exact absurd this (by decide)
  have st : ∀ {s : Bytes} {n : Nat}, Decimal s n → n < 2 ^ 64 → Framer.stoull s = some n := by
    intro s n h hn
    rw [stoull_decimal h, if_neg]
    show ¬ n > 18446744073709551615
    omega
  constructor
  · have e1 : lit "shm://" ++ name ++ lit "?create=true&maxSize=" ++ s ++ lit "&maxCount=" ++ c =
        lit "shm://" ++ (name ++ '?' :: (['&'].intercalate [lit "create=true", lit "maxSize" ++ '=' :: s, lit "maxCount" ++ '=' :: c])) := by
      simp [lit, List.intercalate, List.intersperse]
    unfold createShm
    have hne : lit "shm://" ++ (name ++ '?' :: (['&'].intercalate [lit "create=true", lit "maxSize" ++ '=' :: s, lit "maxCount" ++ '=' :: c])) ≠ [] := by
      simp [lit]
    have hpre : (lit "shm://").isPrefixOf (lit "shm://" ++
        (name ++ '?' :: (['&'].intercalate [lit "create=true", lit "maxSize" ++ '=' :: s, lit "maxCount" ++ '=' :: c]))) = true := by
      rw [List.isPrefixOf_iff_prefix]; exact List.prefix_append _ _
    rw [e1]
    rw [if_neg hne, if_pos hpre]
    have hdrop : ∀ r : Bytes, (lit "shm://" ++ r).drop 6 = r := fun r => rfl
    rw [hdrop]
    unfold ShmCfg.read
    rw [splitCh_append _ h1]
    dsimp only
    rw [pieces_intercalate _ (by simp) (by
      intro p hp
      simp only [List.mem_cons, List.not_mem_nil, or_false] at hp
      rcases hp with rfl | rfl | rfl
      · decide
      · simp only [List.mem_append, List.mem_cons, not_or]
        exact ⟨by decide, by decide, ns hs⟩
      · simp only [List.mem_append, List.mem_cons, not_or]
        exact ⟨by decide, by decide, ns hc⟩)]
    simp only [List.foldl_cons, List.foldl_nil]
    have p1 : ShmCfg.param { channelName := name } (lit "create=true") = { channelName := name, create := true } := by
      unfold ShmCfg.param
      have : splitCh '=' (lit "create=true") = some (lit "create", lit "true") := by decide +kernel
      rw [this]
      unfold ShmCfg.set
      dsimp only
      rw [if_pos rfl]
      have : parseBool (lit "true") = true := by decide +kernel
      rw [this]
    rw [p1]
    have p2 : ShmCfg.param { channelName := name, create := true } (lit "maxSize" ++ '=' :: s) =
        { channelName := name, create := true, maxMessageSize := size } := by
      unfold ShmCfg.param
      rw [splitCh_append _ (by decide)]
      unfold ShmCfg.set
      dsimp only
      rw [if_neg (by decide), if_pos rfl, st hs hsz]
      rfl
    rw [p2]
    have p3 : ShmCfg.param { channelName := name, create := true, maxMessageSize := size } (lit "maxCount" ++ '=' :: c) =
        { channelName := name, create := true, maxMessageSize := size, maxMessageCount := count } := by
      unfold ShmCfg.param
      rw [splitCh_append _ (by decide)]
      unfold ShmCfg.set uintOr
      dsimp only
      rw [if_neg (by decide), if_neg (by decide), if_pos rfl, st hc (by omega)]
      dsimp only
      rw [Nat.mod_eq_of_lt hct]
    rw [p3, ShmCfg.named, if_neg h0]
  · unfold createShm
    have hp : (lit "shm://").isPrefixOf name = false := by
      cases hh : (lit "shm://").isPrefixOf name with
      | false => rfl
      | true => exact absurd (List.isPrefixOf_iff_prefix.1 hh) h2
    rw [if_neg h0, if_neg (by rw [hp]; decide)]
    unfold ShmCfg.read
    rw [splitCh_none h1]
    dsimp only
    rw [ShmCfg.named, if_neg h0]

example : createShm (lit "shm://mcp-shm?create=true&maxSize=65536&maxCount=64") = ⟨lit "mcp-shm", true, 65536, 64⟩ := by decide +kernel

/-- C98. Names that differ after a `?` are one channel, and a name that is empty is the channel `mcp-shm`: programs that mean to have
channels of their own meet on the same queues. -/
theorem C98_shm_name_counterexample (name x y : Bytes) (h0 : name ≠ []) (h1 : '?' ∉ name) (h2 : ¬ lit "shm://" <+: name) :
    (createShm (name ++ '?' :: x)).channelName = name ∧ (createShm (name ++ '?' :: y)).channelName = name ∧
    (createShm []).channelName = (createShm (lit "mcp-shm")).channelName := by
  have keep : ∀ (l : List Bytes) (o : ShmCfg), (l.foldl ShmCfg.param o).channelName = o.channelName := by
    intro l
    induction l with
    | nil => intro o; rfl
    | cons q l ih =>
      intro o
      show (l.foldl ShmCfg.param (o.param q)).channelName = _
      rw [ih]
      unfold ShmCfg.param ShmCfg.set
      repeat' split
      all_goals rfl
  have one : ∀ z : Bytes, (createShm (name ++ '?' :: z)).channelName = name := by
    intro z
    have hp : (lit "shm://").isPrefixOf (name ++ '?' :: z) = false := by
      cases hh : (lit "shm://").isPrefixOf (name ++ '?' :: z) with
      | false => rfl
      | true =>
        exfalso
        have hpre := List.isPrefixOf_iff_prefix.1 hh
        by_cases hl : (lit "shm://").length ≤ name.length
        · exact h2 (List.prefix_of_prefix_length_le hpre (List.prefix_append _ _) hl)
        · have hl2 : (name ++ ['?']).length ≤ (lit "shm://").length := by simp only [List.length_append, List.length_singleton]; omega
          have h3 : name ++ ['?'] <+: name ++ '?' :: z := ⟨z, by simp⟩
          have h4 := List.prefix_of_prefix_length_le h3 hpre hl2
          have : '?' ∈ lit "shm://" := h4.subset (by simp)
          exact absurd this (by decide)
    have hr : (ShmCfg.read (name ++ '?' :: z)).channelName = name := by
      unfold ShmCfg.read
      rw [splitCh_append _ h1]
      dsimp only
      rw [keep]
    unfold createShm
    rw [if_neg (show name ++ '?' :: z ≠ [] by simp), if_neg (by rw [hp]; decide), ShmCfg.named, if_neg (by rw [hr]; exact h0), hr]
  exact ⟨one x, one y, by decide +kernel⟩

/-- C98. A channel asked for with `create=on` is not created, and one of 2^32 messages has room for none. -/
theorem C98_shm_values_counterexample :
    (createShm (lit "shm://a?create=on")).create = false ∧ (createShm (lit "shm://a?create=true&maxCount=4294967296")).maxMessageCount = 0 := by
  decide +kernel

/-! ### The HTTP server -/

/-- Host and port as written, the host and the port meant. -/
inductive HostPort : Bytes → Bytes → Bytes → Prop
  | name {h : Bytes} : h ≠ [] → (∀ c ∈ h, c ≠ ':' ∧ c ≠ '[' ∧ c ≠ '/' ∧ c ≠ '?' ∧ isSpaceCh c = false) → HostPort h h (lit "9443")
  | namePort {h p : Bytes} {n : Nat} : h ≠ [] → (∀ c ∈ h, c ≠ ':' ∧ c ≠ '[' ∧ c ≠ '/' ∧ c ≠ '?' ∧ isSpaceCh c = false) → Decimal p n →
      HostPort (h ++ ':' :: p) h p
  | v6 {h : Bytes} : (∀ c ∈ h, c ≠ ']' ∧ c ≠ '/' ∧ c ≠ '?' ∧ isSpaceCh c = false) → HostPort ('[' :: h ++ [']']) h (lit "9443")
  | v6Port {h p : Bytes} {n : Nat} : (∀ c ∈ h, c ≠ ']' ∧ c ≠ '/' ∧ c ≠ '?' ∧ isSpaceCh c = false) → Decimal p n →
      HostPort ('[' :: h ++ ']' :: ':' :: p) h p

theorem decimal_chars {p : Bytes} {n : Nat} (h : Decimal p n) : ∀ c ∈ p, c ≠ ':' ∧ c ≠ '[' ∧ c ≠ ']' ∧ c ≠ '/' ∧ c ≠ '?' ∧ isSpaceCh c = false := by
  intro c hc
  have hd := (decimal_iff.1 h).2.1 c hc
  refine ⟨?_, ?_, ?_, ?_, ?_, ?_⟩
  · rintro rfl; exact absurd hd (by decide)
  · rintro rfl; exact absurd hd (by decide)
  · rintro rfl; exact absurd hd (by decide)
  · rintro rfl; exact absurd hd (by decide)
  · rintro rfl; exact absurd hd (by decide)
  · simp only [isDig, decide_eq_true_eq] at hd
    have h0 : '0'.toNat = 48 := rfl
    have h9 : '9'.toNat = 57 := rfl
    rw [h0, h9] at hd
    have ne : ∀ x : Char, x.toNat < 48 → c ≠ x := by
      rintro x hx rfl; omega
    simp [isSpaceCh, ne ' ' (by decide), ne '\t' (by decide), ne '\n' (by decide), ne '\r' (by decide)]
    omega

theorem tight_of {p : Char → Bool} {s : Bytes} (h : ∀ c ∈ s, p c = false) : Tight p s := by
  intro c hc
  rcases hc with hc | hc
  · exact h c (List.mem_of_head? hc)
  · exact h c (List.mem_of_getLast? hc)

theorem hostPort_chars {t h p : Bytes} (hp : HostPort t h p) : t ≠ [] ∧ ∀ c ∈ t, c ≠ '/' ∧ c ≠ '?' ∧ isSpaceCh c = false := by
  cases hp with
  | name h0 hc => exact ⟨h0, fun c h => ⟨(hc c h).2.2.1, (hc c h).2.2.2.1, (hc c h).2.2.2.2⟩⟩
  | namePort h0 hc hd =>
    refine ⟨by simp, fun c h => ?_⟩
    rcases List.mem_append.1 h with h | h
    · exact ⟨(hc c h).2.2.1, (hc c h).2.2.2.1, (hc c h).2.2.2.2⟩
    · rcases List.mem_cons.1 h with rfl | h
      · decide
      · have := decimal_chars hd c h
        exact ⟨this.2.2.2.1, this.2.2.2.2.1, this.2.2.2.2.2⟩
  | v6 hc =>
    refine ⟨by simp, fun c h => ?_⟩
    rcases List.mem_append.1 h with h | h
    · rcases List.mem_cons.1 h with rfl | h
      · decide
      · exact ⟨(hc c h).2.1, (hc c h).2.2.1, (hc c h).2.2.2⟩
    · simp at h; subst h; decide
  | v6Port hc hd =>
    refine ⟨by simp, fun c h => ?_⟩
    rcases List.mem_append.1 h with h | h
    · rcases List.mem_cons.1 h with rfl | h
      · decide
      · exact ⟨(hc c h).2.1, (hc c h).2.2.1, (hc c h).2.2.2⟩
    · rcases List.mem_cons.1 h with rfl | h
      · decide
      · rcases List.mem_cons.1 h with rfl | h
        · decide
        · have := decimal_chars hd c h
          exact ⟨this.2.2.2.1, this.2.2.2.2.1, this.2.2.2.2.2⟩

theorem rsplit_append {ch : Char} {a b : Bytes} (h : ch ∉ b) : rsplitCh ch (a ++ ch :: b) = some (a, b) := by
  unfold rsplitCh
  have e : (a ++ ch :: b).reverse = b.reverse ++ ch :: a.reverse := by simp
  rw [e, splitCh_append _ (by simpa using h)]
  simp

theorem rsplit_none {ch : Char} {a : Bytes} (h : ch ∉ a) : rsplitCh ch a = none := by
  unfold rsplitCh
  rw [splitCh_none (by simpa using h)]

/-- A written host and port are read as meant. -/
theorem hostPort_read {t h p : Bytes} (hp : HostPort t h p) (sc : Bytes) :
    SrvCfg.hostPort { scheme := sc } t = { scheme := sc, address := h, port := p } := by
  have ht := (hostPort_chars hp).1
  unfold SrvCfg.hostPort
  rw [if_neg ht]
  have t9 : trim isSpaceCh (lit "9443") = lit "9443" := by decide +kernel
  cases hp with
  | name h0 hc =>
    have hh : t.head? ≠ some '[' := fun e => (hc _ (List.mem_of_head? e)).2.1 rfl
    have hn : ':' ∉ t := fun e => (hc _ e).1 rfl
    have tr : trim isSpaceCh t = t := trim_tight (tight_of fun c x => (hc c x).2.2.2.2)
    simp only [if_neg hh, rsplit_none hn, tr, t9]
    rfl
  | @namePort _ _ n h0 hc hd =>
    have hh : (h ++ ':' :: p).head? ≠ some '[' := by
      cases h with
      | nil => exact absurd rfl h0
      | cons x h => intro e; simp at e; exact (hc x (by simp)).2.1 e
    have hn : ':' ∉ p := fun e => (decimal_chars hd _ e).1 rfl
    have tr : trim isSpaceCh h = h := trim_tight (tight_of fun c x => (hc c x).2.2.2.2)
    have tp : trim isSpaceCh p = p := trim_tight (tight_of fun c x => (decimal_chars hd c x).2.2.2.2.2)
    simp only [if_neg hh, rsplit_append hn, tr, tp, if_neg (decimal_iff.1 hd).1]
  | v6 hc =>
    have hn : ']' ∉ '[' :: h := by
      intro e
      rcases List.mem_cons.1 e with e | e
      · exact absurd e (by decide)
      · exact (hc _ e).1 rfl
    have tr : trim isSpaceCh h = h := trim_tight (tight_of fun c x => (hc c x).2.2.2)
    have hh : ('[' :: h ++ [']']).head? = some '[' := rfl
    have hs : splitCh ']' ('[' :: h ++ [']']) = some ('[' :: h, []) := splitCh_append [] hn
    simp only [if_pos hh, hs, List.drop_succ_cons, List.drop_zero]
    simp only [List.head?_nil, reduceCtorEq, if_false, tr, t9]
    rfl
  | @v6Port _ _ n hc hd =>
    have hn : ']' ∉ '[' :: h := by
      intro e
      rcases List.mem_cons.1 e with e | e
      · exact absurd e (by decide)
      · exact (hc _ e).1 rfl
    have tr : trim isSpaceCh h = h := trim_tight (tight_of fun c x => (hc c x).2.2.2)
    have tp : trim isSpaceCh p = p := trim_tight (tight_of fun c x => (decimal_chars hd c x).2.2.2.2.2)
    have hh : ('[' :: h ++ ']' :: ':' :: p).head? = some '[' := rfl
    have hs : splitCh ']' ('[' :: h ++ ']' :: ':' :: p) = some ('[' :: h, ':' :: p) := splitCh_append _ hn
    simp only [if_pos hh, hs, List.drop_succ_cons, List.drop_zero, List.head?_cons, if_true, tr, tp, if_neg (decimal_iff.1 hd).1]

/-- The parameters: nothing, or `?` and settings with `&` between them. -/
inductive QueryText : List (Bytes × Bytes) → Bytes → Prop
  | none : QueryText [] []
  | some {p : Bytes × Bytes} {ps : List (Bytes × Bytes)} : (∀ q ∈ p :: ps, '=' ∉ q.1 ∧ '&' ∉ q.1 ∧ '&' ∉ q.2) →
      QueryText (p :: ps) ('?' :: ['&'].intercalate ((p :: ps).map pairText))

theorem srv_fold {params : List (Bytes × Bytes)} (o : SrvCfg) (h : ∀ q ∈ params, '=' ∉ q.1) :
    (params.map pairText).foldl SrvCfg.param o = params.foldl (fun o p => o.set p.1 p.2) o := by
  induction params generalizing o with
  | nil => rfl
  | cons p l ih =>
    show (l.map pairText).foldl SrvCfg.param (o.param (pairText p)) = l.foldl _ (o.set p.1 p.2)
    have : o.param (pairText p) = o.set p.1 p.2 := by
      unfold SrvCfg.param pairText
      rw [splitCh_append _ (h p (by simp))]
    rw [this]
    exact ih _ (fun q hq => h q (List.mem_cons_of_mem _ hq))

/-- A server text: white space, scheme, host and port, perhaps a path, perhaps parameters, white space. -/
structure ServerText (text scheme host port : Bytes) (params : List (Bytes × Bytes)) : Prop where
  parts : ∃ w1 w2 hp path query, text = w1 ++ (scheme ++ lit "://" ++ hp ++ path ++ query) ++ w2 ∧
    (∀ c ∈ w1 ++ w2, isSpaceCh c = true) ∧ Tight isSpaceCh (scheme ++ lit "://" ++ hp ++ path ++ query) ∧
    (scheme = lit "http" ∨ scheme = lit "https") ∧ HostPort hp host port ∧
    (path = [] ∨ path.head? = some '/') ∧ '?' ∉ path ∧ QueryText params query

/-- The options of the server set by parameters. -/
def srvStrings : List ((SrvCfg → Bytes) × List String × String) :=
  [(SrvCfg.certFile, ["cert"], ""), (SrvCfg.keyFile, ["key"], ""), (SrvCfg.endpointPath, ["endpointPath", "endpoint"], ""),
   (SrvCfg.streamPath, ["streamPath", "stream"], ""), (SrvCfg.rpcPath, ["rpcPath", "rpc"], "/mcp/rpc"),
   (SrvCfg.notifyPath, ["notifyPath", "notify"], "/mcp/notify")]

theorem srv_set : ∀ e ∈ srvStrings, ∀ (o : SrvCfg) (p : Bytes × Bytes),
    e.1 (o.set p.1 p.2) = if p.1 ∈ e.2.1.map lit then (some p.2).getD (e.1 o) else e.1 o := by
  intro e he o p
  obtain ⟨k, v⟩ := p
  simp only [srvStrings, List.mem_cons, List.not_mem_nil, or_false] at he
  rcases he with rfl | rfl | rfl | rfl | rfl | rfl
  all_goals
    simp only [List.map_cons, List.map_nil, List.mem_cons, List.not_mem_nil, or_false]
    split
    · rename_i hk
      first
      | (subst hk
         unfold SrvCfg.set
         repeat rw [if_neg (by decide)]
         rw [if_pos (by decide)]; rfl)
      | (rcases hk with hk | hk <;>
           (subst hk
            unfold SrvCfg.set
            repeat rw [if_neg (by decide)]
            rw [if_pos (by decide)]; rfl))
    · unfold SrvCfg.set
      repeat' split
      all_goals first | rfl | contradiction

theorem srv_set_keeps (o : SrvCfg) (k v : Bytes) :
    (o.set k v).address = o.address ∧ (o.set k v).port = o.port ∧ (o.set k v).scheme = o.scheme := by
  unfold SrvCfg.set
  repeat' split
  all_goals exact ⟨rfl, rfl, rfl⟩

/-- What a server text is read as. -/
theorem createServer_eq {text scheme host port : Bytes} {params : List (Bytes × Bytes)} (h : ServerText text scheme host port params) :
    createServer text = params.foldl (fun o p => o.set p.1 p.2) { scheme := scheme, address := host, port := port } := by
  obtain ⟨w1, w2, hp, path, query, rfl, hw, ht, hs, hhp, hpath, hq, hquery⟩ := h.parts
  have hw1 : ∀ c ∈ w1, isSpaceCh c = true := fun c hc => hw c (by simp [hc])
  have hw2 : ∀ c ∈ w2, isSpaceCh c = true := fun c hc => hw c (by simp [hc])
  unfold createServer
  rw [trim_pad hw1 hw2 ht]
  have sch : splitScheme (scheme ++ lit "://" ++ hp ++ path ++ query) = (scheme, hp ++ path ++ query) := by
    unfold splitScheme
    rcases hs with rfl | rfl
    · have e : lit "http" ++ lit "://" ++ hp ++ path ++ query = lit "http://" ++ (hp ++ path ++ query) := by simp [lit]
      rw [e, if_pos (List.isPrefixOf_iff_prefix.2 (List.prefix_append _ _))]
      rfl
    · have e : lit "https" ++ lit "://" ++ hp ++ path ++ query = lit "https://" ++ (hp ++ path ++ query) := by simp [lit]
      rw [e, if_neg, if_pos (List.isPrefixOf_iff_prefix.2 (List.prefix_append _ _))]
      · rfl
      · simp [lit, List.isPrefixOf]
  simp only [sch]
  have hch := hostPort_chars hhp
  have nq : '?' ∉ hp ++ path := by
    intro e
    rcases List.mem_append.1 e with e | e
    · exact (hch.2 _ e).2.1 rfl
    · exact hq e
  have spl : ((splitCh '/' (hp ++ path)).getD (hp ++ path, [])).1 = hp := by
    have ns : '/' ∉ hp := fun e => (hch.2 _ e).1 rfl
    rcases hpath with rfl | hpath
    · rw [List.append_nil, splitCh_none ns]; rfl
    · cases path with
      | nil => cases hpath
      | cons x r =>
        simp at hpath
        subst hpath
        rw [splitCh_append _ ns]; rfl
  have thp : trim isSpaceCh hp = hp := trim_tight (tight_of fun c hc => (hch.2 c hc).2.2)
  cases hquery with
  | none =>
    rw [List.append_nil, splitCh_none nq]
    simp only [Option.getD_none, spl, thp, hostPort_read hhp]
    rfl
  | @some p ps hps =>
    rw [splitCh_append _ nq]
    simp only [Option.getD_some, spl, thp, hostPort_read hhp]
    have hne : ['&'].intercalate ((p :: ps).map pairText) ≠ [] := by
      intro e
      have hpt : pairText p ≠ [] := by simp [pairText]
      cases ps with
      | nil => simp [List.intercalate, List.intersperse] at e; exact hpt e
      | cons q qs => simp [List.intercalate, List.intersperse] at e
    rw [if_neg hne, pieces_intercalate _ (by simp) (by
      intro q hq'
      obtain ⟨r, hr, rfl⟩ := List.mem_map.1 hq'
      have := hps r hr
      simp only [pairText, List.mem_append, List.mem_cons, not_or]
      exact ⟨this.2.1, by decide, this.2.2⟩)]
    exact srv_fold _ (fun q hq' => (hps q hq').1)

/-- C98. An HTTP server made from a text `scheme://host:port/path?parameters`, with `http` or `https`, a name or a bracketed address,
with or without port, path and parameters, and white space around it: it listens on exactly that host and port (9443 when there is
none), it uses TLS exactly when the scheme is `https`, and every file and path is the value given last for one of its keys, or its
default. -/
theorem C98_server_text_partial (text scheme host port : Bytes) (params : List (Bytes × Bytes))
    (h : ServerText text scheme host port params) :
    (createServer text).address = host ∧ (createServer text).port = port ∧
    ((createServer text).tls = true ↔ scheme = lit "https") ∧
    (∀ e ∈ srvStrings, e.1 (createServer text) = (lastFor (e.2.1.map lit) params).getD (lit e.2.2)) := by
  rw [createServer_eq h]
  have keep : ∀ (l : List (Bytes × Bytes)) (o : SrvCfg), (l.foldl (fun o p => o.set p.1 p.2) o).address = o.address ∧
      (l.foldl (fun o p => o.set p.1 p.2) o).port = o.port ∧ (l.foldl (fun o p => o.set p.1 p.2) o).scheme = o.scheme := by
    intro l
    induction l with
    | nil => intro o; exact ⟨rfl, rfl, rfl⟩
    | cons p l ih =>
      intro o
      have h1 := ih (o.set p.1 p.2)
      have h2 := srv_set_keeps o p.1 p.2
      exact ⟨h1.1.trans h2.1, h1.2.1.trans h2.2.1, h1.2.2.trans h2.2.2⟩
  have k := keep params { scheme := scheme, address := host, port := port }
  refine ⟨k.1, k.2.1, ?_, ?_⟩
  · unfold SrvCfg.tls
    rw [k.2.2]
    exact beq_iff_eq
  · intro e he
    have f := fold_last e.1 (fun o p => o.set p.1 p.2) _ some (srv_set e he) params { scheme := scheme, address := host, port := port }
    have hd : e.1 { scheme := scheme, address := host, port := port } = lit e.2.2 := by
      simp only [srvStrings, List.mem_cons, List.not_mem_nil, or_false] at he
      rcases he with rfl | rfl | rfl | rfl | rfl | rfl <;> rfl
    cases hl : lastFor (e.2.1.map lit) params with
    | none => rw [f.1 hl, hd]; rfl
    | some v => exact f.2 v v hl rfl

example : createServer (lit " https://[::1]:8443/x?cert=/c.pem&key=/k.pem&rpc=/r ") =
    { address := lit "::1", port := lit "8443", scheme := lit "https", certFile := lit "/c.pem", keyFile := lit "/k.pem",
      rpcPath := lit "/r" } := by decide +kernel

example : ServerText (lit "http://127.0.0.1:9443") (lit "http") (lit "127.0.0.1") (lit "9443") [] :=
  ⟨[], [], lit "127.0.0.1:9443", [], [], by decide +kernel, by simp, tight_of (by decide +kernel), Or.inl rfl,
    HostPort.namePort (h := lit "127.0.0.1") (p := lit "9443") (n := 9443) (by decide) (by decide +kernel)
      (decimal_iff.2 ⟨by decide, by decide, by decide +kernel⟩), Or.inl rfl, by simp, .none⟩

/-- C98. The server uses TLS only for texts that begin (after white space) with `https://` in small letters: `HTTPS://` and every other
way to write it gives a server without TLS. -/
theorem C98_tls_only_small_letters (text : Bytes) : (createServer text).tls = true ↔ lit "https://" <+: trim isSpaceCh text := by
  have keep : ∀ (l : List Bytes) (o : SrvCfg), (l.foldl SrvCfg.param o).scheme = o.scheme := by
    intro l
    induction l with
    | nil => intro o; rfl
    | cons q l ih =>
      intro o
      show (l.foldl SrvCfg.param (o.param q)).scheme = _
      rw [ih]
      unfold SrvCfg.param
      split
      · exact (srv_set_keeps o _ _).2.2
      · exact (srv_set_keeps o _ _).2.2
  have hpk : ∀ (o : SrvCfg) (t : Bytes), (o.hostPort t).scheme = o.scheme := by
    intro o t
    unfold SrvCfg.hostPort
    dsimp only
    repeat' split
    all_goals rfl
  have hsc : (createServer text).scheme = (splitScheme (trim isSpaceCh text)).1 := by
    unfold createServer
    dsimp only
    split
    · rw [hpk]
    · rw [keep, hpk]
  unfold SrvCfg.tls
  rw [hsc, beq_iff_eq]
  unfold splitScheme
  constructor
  · intro h
    have ne : lit "http" ≠ lit "https" := by decide
    split at h
    · exact absurd h ne
    · split at h
      · rename_i h2; exact List.isPrefixOf_iff_prefix.1 h2
      · exact absurd h ne
  · intro h
    rw [if_neg, if_pos (List.isPrefixOf_iff_prefix.2 h)]
    obtain ⟨r, hr⟩ := h
    rw [← hr]
    simp [lit, List.isPrefixOf]

example : (createServer (lit "HTTPS://0.0.0.0:9443?cert=c&key=k")).tls = false := by decide +kernel

/-- C98. A text whose address cannot be read is not refused: whatever stands after an opening bracket that is not closed, the server
takes every interface of the machine and port 9443. -/
theorem C98_open_bracket_counterexample (rest : Bytes) (h : ∀ c ∈ rest, c ≠ ']' ∧ c ≠ '/' ∧ c ≠ '?' ∧ isSpaceCh c = false) :
    (createServer (lit "http://[" ++ rest)).address = lit "0.0.0.0" ∧ (createServer (lit "http://[" ++ rest)).port = lit "9443" := by
  have hall : ∀ c ∈ lit "http://[" ++ rest, isSpaceCh c = false := by
    intro c hc
    rcases List.mem_append.1 hc with hc | hc
    · exact (by decide +kernel : ∀ c ∈ lit "http://[", isSpaceCh c = false) c hc
    · exact (h c hc).2.2.2
  have e : lit "http://[" ++ rest = lit "http://" ++ ('[' :: rest) := by simp [lit]
  have sch : splitScheme (lit "http://" ++ ('[' :: rest)) = (lit "http", '[' :: rest) := by
    unfold splitScheme
    rw [if_pos (List.isPrefixOf_iff_prefix.2 (List.prefix_append _ _))]
    rfl
  have nb : ∀ ch, ch ≠ '[' → (∀ c ∈ rest, c ≠ ch) → ch ∉ '[' :: rest := by
    intro ch h1 h2 hm
    rcases List.mem_cons.1 hm with rfl | hm
    · exact h1 rfl
    · exact h2 ch hm rfl
  have thp : trim isSpaceCh ('[' :: rest) = '[' :: rest := trim_tight (tight_of (by
    intro c hc
    rcases List.mem_cons.1 hc with rfl | hc
    · decide
    · exact (h c hc).2.2.2))
  have eq : createServer (lit "http://[" ++ rest) = { scheme := lit "http" } := by
    unfold createServer
    rw [trim_tight (tight_of hall), e]
    simp only [sch, splitCh_none (nb '?' (by decide) fun c hc => (h c hc).2.2.1), Option.getD_none,
      splitCh_none (nb '/' (by decide) fun c hc => (h c hc).2.1), thp]
    unfold SrvCfg.hostPort
    rw [if_pos trivial, if_neg (List.cons_ne_nil _ _)]
    simp only [List.head?_cons, if_true, splitCh_none (nb ']' (by decide) fun c hc => (h c hc).1)]
    decide +kernel
  rw [eq]
  exact ⟨rfl, rfl⟩

example : (createServer (lit "http://[::1:8080")).address = lit "0.0.0.0" := by decide +kernel

/-- C98. An IPv6 address without brackets is taken apart at its last colon. -/
theorem C98_bare_v6_counterexample :
    (createServer (lit "http://::1")).address = lit ":" ∧ (createServer (lit "http://::1")).port = lit "1" := by decide +kernel

end Verif
