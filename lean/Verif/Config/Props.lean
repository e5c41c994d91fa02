import Verif.Config.Lemmas
import Verif.Stdio.PendingProps

/-!
C97: configuration strings of the stdio and HTTP client transports. C98: addresses of the HTTP server, channel names of shared
memory. C99: the ports the HTTP server accepts.
-/

namespace Verif
open Config

/-- Settings a stdio text may hold: a key without `=`, and no separator in key or value. -/
def StdioItems (items : List (Bytes × Bytes)) : Prop := ∀ p ∈ items, '=' ∉ p.1 ∧ ∀ c ∈ p.1 ++ p.2, ¬ (c = ';' ∨ c = ' ' ∨ c = '\t')

/-- How the number of a setting is used. -/
def numVal {α : Type} (f : Nat → α) (v : Bytes) : Option α := (Framer.stoull v).map f

theorem set_timeout (s : StdioCfg) (p : Bytes × Bytes) : (s.set p.1 p.2).requestTimeout =
    if p.1 ∈ [lit "timeout_ms"] then (numVal (fun v => if v = 0 then msMax else toMs v) p.2).getD s.requestTimeout
    else s.requestTimeout := by
  by_cases h : p.1 = lit "timeout_ms"
  · rw [if_pos (by simp [h])]; unfold StdioCfg.set; rw [if_pos h]
    unfold numVal; cases Framer.stoull p.2 <;> rfl
  · rw [if_neg (by simp [h])]; unfold StdioCfg.set; rw [if_neg h]
    repeat' split
    all_goals rfl

theorem set_idle (s : StdioCfg) (p : Bytes × Bytes) : (s.set p.1 p.2).idleRead =
    if p.1 ∈ [lit "idle_read_timeout_ms"] then (numVal (fun v => if v = 0 then 0 else toMs v) p.2).getD s.idleRead
    else s.idleRead := by
  by_cases h : p.1 = lit "idle_read_timeout_ms"
  · rw [if_pos (by simp [h])]; unfold StdioCfg.set; rw [h, if_neg (by decide), if_pos rfl]
    unfold numVal; cases Framer.stoull p.2 <;> rfl
  · rw [if_neg (by simp [h])]; unfold StdioCfg.set; rw [if_neg h]
    repeat' split
    all_goals rfl

theorem set_write (s : StdioCfg) (p : Bytes × Bytes) : (s.set p.1 p.2).writeTimeout =
    if p.1 ∈ [lit "write_timeout_ms"] then (numVal (fun v => if v = 0 then 0 else toMs v) p.2).getD s.writeTimeout
    else s.writeTimeout := by
  by_cases h : p.1 = lit "write_timeout_ms"
  · rw [if_pos (by simp [h])]; unfold StdioCfg.set; rw [h, if_neg (by decide), if_neg (by decide), if_pos rfl]
    unfold numVal; cases Framer.stoull p.2 <;> rfl
  · rw [if_neg (by simp [h])]; unfold StdioCfg.set; rw [if_neg h]
    repeat' split
    all_goals rfl

theorem set_queue (s : StdioCfg) (p : Bytes × Bytes) : (s.set p.1 p.2).queueMax =
    if p.1 ∈ [lit "write_queue_max_bytes"] then (numVal (fun v => if v = 0 then 1 else v) p.2).getD s.queueMax
    else s.queueMax := by
  by_cases h : p.1 = lit "write_queue_max_bytes"
  · rw [if_pos (by simp [h])]; unfold StdioCfg.set
    rw [h, if_neg (by decide), if_neg (by decide), if_neg (by decide), if_pos rfl]
    unfold numVal; cases Framer.stoull p.2 <;> rfl
  · rw [if_neg (by simp [h])]; unfold StdioCfg.set; rw [if_neg h]
    repeat' split
    all_goals rfl

theorem set_content (s : StdioCfg) (p : Bytes × Bytes) : (s.set p.1 p.2).maxContent =
    if p.1 ∈ [lit "max_content_length"] then (numVal (fun v => if v = 0 then 1 else v) p.2).getD s.maxContent
    else s.maxContent := by
  by_cases h : p.1 = lit "max_content_length"
  · rw [if_pos (by simp [h])]; unfold StdioCfg.set
    rw [h, if_neg (by decide), if_neg (by decide), if_neg (by decide), if_neg (by decide), if_pos rfl]
    unfold numVal; cases Framer.stoull p.2 <;> rfl
  · rw [if_neg (by simp [h])]; unfold StdioCfg.set; rw [if_neg h]
    repeat' split
    all_goals rfl

/-- What a key says in a list of settings: a number, or nothing. -/
def SaysNat (items : List (Bytes × Bytes)) (key : String) (n : Nat) : Prop := ∃ v, lastFor [lit key] items = some v ∧ Decimal v n

def Silent (items : List (Bytes × Bytes)) (key : String) : Prop := lastFor [lit key] items = none

theorem says_stoull {v : Bytes} {n : Nat} (h : Decimal v n) (hn : n < 2 ^ 64) : Framer.stoull v = some n := by
  rw [stoull_decimal h, if_neg]
  show ¬ n > 18446744073709551615
  omega

/-- C97. A stdio configuration text, whatever settings it holds, in whatever order and with whatever separators (`;`, blanks, tabs)
around them: each time limit below 2^63 ms and each size below 2^64 the text gives in decimal digits is the one the transport gets,
the last one given for a key counts, keys the text does not give keep their defaults, and unknown keys change nothing. (A limit of 0
is said below; sizes of 0 become 1.) -/
theorem C97_stdio_settings_partial (env : Bytes) (items : List (Bytes × Bytes)) (text : Bytes)
    (ht : Spaced (fun c => c = ';' ∨ c = ' ' ∨ c = '\t') (items.map pairText) text) (hi : StdioItems items) :
    (∀ n : Nat, 0 < n → n < 2 ^ 63 → SaysNat items "timeout_ms" n → (createStdio env text).requestTimeout = n) ∧
    (∀ n : Nat, n < 2 ^ 63 → SaysNat items "idle_read_timeout_ms" n → (createStdio env text).idleRead = n) ∧
    (∀ n : Nat, n < 2 ^ 63 → SaysNat items "write_timeout_ms" n → (createStdio env text).writeTimeout = n) ∧
    (∀ n : Nat, n < 2 ^ 64 → SaysNat items "write_queue_max_bytes" n → (createStdio env text).queueMax = max 1 n) ∧
    (∀ n : Nat, n < 2 ^ 64 → SaysNat items "max_content_length" n → (createStdio env text).maxContent = max 1 n) ∧
    (Silent items "timeout_ms" → env = [] → (createStdio env text).requestTimeout = 30000) ∧
    (Silent items "idle_read_timeout_ms" → (createStdio env text).idleRead = 0) ∧
    (Silent items "write_timeout_ms" → (createStdio env text).writeTimeout = 0) ∧
    (Silent items "write_queue_max_bytes" → (createStdio env text).queueMax = 2097152) ∧
    (Silent items "max_content_length" → (createStdio env text).maxContent = 1048576) := by
  rw [createStdio_eq ht hi]
  have f1 := fold_last (fun c : StdioCfg => c.requestTimeout) (fun c p => c.set p.1 p.2) _ (numVal _) set_timeout items (StdioCfg.fresh env)
  have f2 := fold_last (fun c : StdioCfg => c.idleRead) (fun c p => c.set p.1 p.2) _ (numVal _) set_idle items (StdioCfg.fresh env)
  have f3 := fold_last (fun c : StdioCfg => c.writeTimeout) (fun c p => c.set p.1 p.2) _ (numVal _) set_write items (StdioCfg.fresh env)
  have f4 := fold_last (fun c : StdioCfg => c.queueMax) (fun c p => c.set p.1 p.2) _ (numVal _) set_queue items (StdioCfg.fresh env)
  have f5 := fold_last (fun c : StdioCfg => c.maxContent) (fun c p => c.set p.1 p.2) _ (numVal _) set_content items (StdioCfg.fresh env)
  refine ⟨?_, ?_, ?_, ?_, ?_, ?_, ?_, ?_, ?_, ?_⟩
  · rintro n h0 hn ⟨v, hv, hd⟩
    refine f1.2 v n hv ?_
    rw [numVal, says_stoull hd (by omega)]
    simp [toMs, hn, Nat.ne_of_gt h0]
  · rintro n hn ⟨v, hv, hd⟩
    refine f2.2 v n hv ?_
    rw [numVal, says_stoull hd (by omega)]
    simp only [Option.map_some, Option.some.injEq, toMs, if_pos hn]
    split
    · omega
    · rfl
  · rintro n hn ⟨v, hv, hd⟩
    refine f3.2 v n hv ?_
    rw [numVal, says_stoull hd (by omega)]
    simp only [Option.map_some, Option.some.injEq, toMs, if_pos hn]
    split
    · omega
    · rfl
  · rintro n hn ⟨v, hv, hd⟩
    refine f4.2 v _ hv ?_
    rw [numVal, says_stoull hd hn]
    simp only [Option.map_some, Option.some.injEq]
    split <;> omega
  · rintro n hn ⟨v, hv, hd⟩
    refine f5.2 v _ hv ?_
    rw [numVal, says_stoull hd hn]
    simp only [Option.map_some, Option.some.injEq]
    split <;> omega
  · intro h he
    rw [f1.1 h, he]; rfl
  · intro h; rw [f2.1 h]; rfl
  · intro h; rw [f3.1 h]; rfl
  · intro h; rw [f4.1 h]; rfl
  · intro h; rw [f5.1 h]; rfl

/-- The text of the documentation. -/
example :
    createStdio [] (lit "timeout_ms=30000; idle_read_timeout_ms=200; write_timeout_ms=2000; write_queue_max_bytes=1048576") =
      ⟨30000, 200, 2000, 1048576, 1048576⟩ := by decide +kernel

example : Spaced (fun c => c = ';' ∨ c = ' ' ∨ c = '\t') ([(lit "timeout_ms", lit "5"), (lit "x", lit "y")].map pairText)
    (lit " " ++ lit "timeout_ms=5" ++ ';' :: (lit " " ++ lit "x=y")) :=
  Spaced.item (by simp [lit]) (Or.inl rfl) (Spaced.last (by simp [lit]))

/-- C97. The documented way to switch the limit off, `timeout_ms=0`, given last and however the rest reads, makes the first request
sent overflow its deadline (C57): there is no time of the clock at which it gets a deadline. -/
theorem C97_no_timeout_counterexample (env : Bytes) (items : List (Bytes × Bytes)) (text : Bytes)
    (ht : Spaced (fun c => c = ';' ∨ c = ' ' ∨ c = '\t') (items.map pairText) text) (hi : StdioItems items)
    (h0 : SaysNat items "timeout_ms" 0) :
    (createStdio env text).requestTimeout = 2 ^ 63 - 1 ∧ ∀ nowNs, Stdio.deadlineNs 0 nowNs = none := by
  rw [createStdio_eq ht hi]
  obtain ⟨v, hv, hd⟩ := h0
  refine ⟨?_, C57_disable_counterexample⟩
  exact (fold_last (fun c : StdioCfg => c.requestTimeout) (fun c p => c.set p.1 p.2) _ (numVal _) set_timeout items (StdioCfg.fresh env)).2 v _ hv
    (by rw [numVal, says_stoull hd (by omega)]; rfl)

/-- C97. The environment variable disagrees with the setting of the same name: there `0` is no time at all, so that a request is
given up the moment it is sent. -/
theorem C97_env_zero_counterexample (text : Bytes) (items : List (Bytes × Bytes))
    (ht : Spaced (fun c => c = ';' ∨ c = ' ' ∨ c = '\t') (items.map pairText) text) (hi : StdioItems items)
    (hs : Silent items "timeout_ms") : (createStdio (lit "0") text).requestTimeout = 0 := by
  rw [createStdio_eq ht hi]
  rw [(fold_last (fun c : StdioCfg => c.requestTimeout) (fun c p => c.set p.1 p.2) _ (numVal _) set_timeout items _).1 hs]
  decide

/-- C97. Settings separated by line ends, which the documentation allows ("whitespace"), are lost without a word: of two settings on
two lines, the second counts for nothing, whatever it is. -/
theorem C97_lines_counterexample (rest : Bytes) (h : ∀ c ∈ rest, isSep c = false) :
    createStdio [] (lit "timeout_ms=100\n" ++ rest) = createStdio [] (lit "timeout_ms=100") := by
  have e : tokens [] (lit "timeout_ms=100\n" ++ rest) = [lit "timeout_ms=100\n" ++ rest] := by
    have := tokens_run (w := lit "timeout_ms=100\n" ++ rest) [] (by
      intro c hc
      rcases List.mem_append.1 hc with hc | hc
      · exact (by decide +kernel : ∀ c ∈ lit "timeout_ms=100\n", isSep c = false) c hc
      · exact h c hc) []
    rw [List.append_nil] at this
    rw [this, tokens, if_neg (by simp [lit])]
    rfl
  have e1 : tokens [] (lit "timeout_ms=100") = [lit "timeout_ms=100"] := by decide +kernel
  unfold createStdio
  rw [e, e1]
  simp only [List.foldl_cons, List.foldl_nil]
  have e2 : lit "timeout_ms=100\n" ++ rest = lit "timeout_ms" ++ '=' :: (lit "100" ++ '\n' :: rest) := by simp [lit]
  unfold StdioCfg.token
  rw [e2, splitCh_append _ (by decide)]
  show StdioCfg.set _ _ _ = _
  unfold StdioCfg.set
  rw [if_pos rfl, Framer.stoull_digits (by decide) (by decide) (by simp [isDig])]
  decide +kernel

example : createStdio [] (lit "timeout_ms=100\nidle_read_timeout_ms=5") = ⟨100, 0, 0, 2097152, 1048576⟩ := by decide +kernel

/-- C97. A value which is no number is not refused: a sign turns it round modulo 2^64 and text after the digits is dropped, so that
a size of `-1` is no limit at all and `10MB` is ten bytes. -/
theorem C97_not_a_number_counterexample :
    (createStdio [] (lit "write_queue_max_bytes=-1")).queueMax = 2 ^ 64 - 1 ∧
    (createStdio [] (lit "write_queue_max_bytes=10MB")).queueMax = 10 ∧
    (createStdio [] (lit "idle_read_timeout_ms=-1")).idleRead = -1 := by decide +kernel

/-! ### HTTP client -/

/-- The string options and the keys that set them. -/
def httpStrings : List ((HttpCfg → Bytes) × List String × String) :=
  [(HttpCfg.scheme, ["scheme"], "https"), (HttpCfg.host, ["host"], "localhost"), (HttpCfg.port, ["port"], "9443"),
   (HttpCfg.endpointPath, ["endpointPath"], ""), (HttpCfg.streamPath, ["streamPath"], ""),
   (HttpCfg.rpcPath, ["rpcPath"], "/mcp/rpc"), (HttpCfg.notifyPath, ["notifyPath"], "/mcp/notify"),
   (HttpCfg.serverName, ["serverName"], ""), (HttpCfg.caFile, ["caFile"], ""), (HttpCfg.caPath, ["caPath"], ""),
   (HttpCfg.auth, ["auth"], "none"), (HttpCfg.bearerToken, ["token", "bearerToken"], ""),
   (HttpCfg.oauthTokenUrl, ["oauthUrl", "oauthTokenUrl"], ""), (HttpCfg.clientId, ["clientId"], ""),
   (HttpCfg.clientSecret, ["clientSecret"], ""), (HttpCfg.scope, ["scope"], "")]

/-- The numeric options. -/
def httpNumbers : List ((HttpCfg → Nat) × List String × Nat) :=
  [(HttpCfg.connectTimeoutMs, ["connectTimeoutMs"], 10000), (HttpCfg.readTimeoutMs, ["readTimeoutMs"], 30000),
   (HttpCfg.sseReconnectDelayMs, ["sseReconnectDelayMs"], 250),
   (HttpCfg.tokenRefreshSkewSeconds, ["tokenRefreshSkewSeconds", "tokenSkew"], 60)]

/-- The switches. -/
def httpFlags : List ((HttpCfg → Bool) × List String) :=
  [(HttpCfg.enableGetStream, ["enableGetStream"]), (HttpCfg.enableDeleteOnClose, ["enableDeleteOnClose"])]


theorem ite_proj {α β : Type} (g : α → β) {c : Prop} [Decidable c] {a b : α} {x : β} (h1 : c → g a = x) (h2 : ¬ c → g b = x) :
    g (if c then a else b) = x := by
  by_cases h : c
  · rw [if_pos h]; exact h1 h
  · rw [if_neg h]; exact h2 h

/-- A key that sets an option sets that one, any other key leaves it as it is. -/
local macro "one_option" g:term : tactic => `(tactic|
  (intro o p
   simp only [List.map_cons, List.map_nil, List.mem_cons, List.not_mem_nil, or_false]
   obtain ⟨k, v⟩ := p
   dsimp only
   split
   · rename_i hk
     first
     | (subst hk
        unfold HttpCfg.set
        repeat (refine ite_proj $g (fun c => absurd c (by decide)) (fun _ => ?_))
        exact ite_proj $g (fun _ => rfl) (fun c => absurd (by decide) c))
     | (rcases hk with hk | hk
        all_goals
          subst hk
          unfold HttpCfg.set
          repeat (refine ite_proj $g (fun c => absurd c (by decide)) (fun _ => ?_))
          exact ite_proj $g (fun _ => rfl) (fun c => absurd (by decide) c))
   · unfold HttpCfg.set
     repeat' (refine ite_proj $g (fun c => ?_) (fun c => ?_))
     all_goals first | rfl | contradiction))

theorem http_strings_set : ∀ e ∈ httpStrings, ∀ (o : HttpCfg) (p : Bytes × Bytes),
    e.1 (o.set p.1 p.2) = if p.1 ∈ e.2.1.map lit then (some p.2).getD (e.1 o) else e.1 o := by
  intro e he
  simp only [httpStrings, List.mem_cons, List.not_mem_nil, or_false] at he
  rcases he with rfl | rfl | rfl | rfl | rfl | rfl | rfl | rfl | rfl | rfl | rfl | rfl | rfl | rfl | rfl | rfl
  · one_option HttpCfg.scheme
  · one_option HttpCfg.host
  · one_option HttpCfg.port
  · one_option HttpCfg.endpointPath
  · one_option HttpCfg.streamPath
  · one_option HttpCfg.rpcPath
  · one_option HttpCfg.notifyPath
  · one_option HttpCfg.serverName
  · one_option HttpCfg.caFile
  · one_option HttpCfg.caPath
  · one_option HttpCfg.auth
  · one_option HttpCfg.bearerToken
  · one_option HttpCfg.oauthTokenUrl
  · one_option HttpCfg.clientId
  · one_option HttpCfg.clientSecret
  · one_option HttpCfg.scope

theorem http_numbers_set : ∀ e ∈ httpNumbers, ∀ (o : HttpCfg) (p : Bytes × Bytes),
    e.1 (o.set p.1 p.2) = if p.1 ∈ e.2.1.map lit then (numVal (· % 2 ^ 32) p.2).getD (e.1 o) else e.1 o := by
  have u : ∀ (a : Nat) (v : Bytes), (numVal (· % 2 ^ 32) v).getD a = uintOr a v := by
    intro a v
    unfold numVal uintOr
    cases Framer.stoull v <;> rfl
  intro e he
  simp only [u]
  simp only [httpNumbers, List.mem_cons, List.not_mem_nil, or_false] at he
  rcases he with rfl | rfl | rfl | rfl
  · one_option HttpCfg.connectTimeoutMs
  · one_option HttpCfg.readTimeoutMs
  · one_option HttpCfg.sseReconnectDelayMs
  · one_option HttpCfg.tokenRefreshSkewSeconds

theorem http_flags_set : ∀ e ∈ httpFlags, ∀ (o : HttpCfg) (p : Bytes × Bytes),
    e.1 (o.set p.1 p.2) = if p.1 ∈ e.2.map lit then (some (flagOf p.2)).getD (e.1 o) else e.1 o := by
  intro e he
  simp only [httpFlags, List.mem_cons, List.not_mem_nil, or_false] at he
  rcases he with rfl | rfl
  · one_option HttpCfg.enableGetStream
  · one_option HttpCfg.enableDeleteOnClose

/-- C97. An HTTP client configuration text, whatever settings it holds, in whatever order, with blanks wherever they may stand: every
string option is exactly the value given last for one of its keys (which may hold blanks inside and `=`), or its default; every number
below 2^32 given in decimal digits is the one the transport gets; a switch is off exactly when its last value is `0`, `false` or
`False`; other keys change nothing. -/
theorem C97_http_settings_partial (items : List (Bytes × Bytes)) (ps : List Bytes) (h : HttpPieces items ps) :
    (∀ e ∈ httpStrings, e.1 (createHttp ([';'].intercalate ps)) = (lastFor (e.2.1.map lit) items).getD (lit e.2.2)) ∧
    (∀ e ∈ httpNumbers,
      (∀ v n, lastFor (e.2.1.map lit) items = some v → Decimal v n → n < 2 ^ 32 → e.1 (createHttp ([';'].intercalate ps)) = n) ∧
      (lastFor (e.2.1.map lit) items = none → e.1 (createHttp ([';'].intercalate ps)) = e.2.2)) ∧
    (∀ e ∈ httpFlags, e.1 (createHttp ([';'].intercalate ps)) = false ↔
      ∃ v ∈ [lit "0", lit "false", lit "False"], lastFor (e.2.map lit) items = some v) := by
  rw [createHttp_eq h]
  refine ⟨?_, ?_, ?_⟩
  · intro e he
    have f := fold_last e.1 (fun o p => o.set p.1 p.2) _ some (http_strings_set e he) items {}
    have hd : e.1 {} = lit e.2.2 := by
      simp only [httpStrings, List.mem_cons, List.not_mem_nil, or_false] at he
      rcases he with rfl | rfl | rfl | rfl | rfl | rfl | rfl | rfl | rfl | rfl | rfl | rfl | rfl | rfl | rfl | rfl <;> rfl
    cases hl : lastFor (e.2.1.map lit) items with
    | none => rw [f.1 hl, hd]; rfl
    | some v => exact f.2 v v hl rfl
  · intro e he
    have f := fold_last e.1 (fun o p => o.set p.1 p.2) _ (numVal _) (http_numbers_set e he) items {}
    refine ⟨?_, ?_⟩
    · intro v n hv hd hn
      refine f.2 v n hv ?_
      rw [numVal, says_stoull hd (by omega)]
      simp [Nat.mod_eq_of_lt hn]
    · intro hl
      rw [f.1 hl]
      simp only [httpNumbers, List.mem_cons, List.not_mem_nil, or_false] at he
      rcases he with rfl | rfl | rfl | rfl <;> rfl
  · intro e he
    have f := fold_last e.1 (fun o p => o.set p.1 p.2) _ (fun v => some (flagOf v)) (http_flags_set e he) items {}
    have hd : e.1 {} = true := by
      simp only [httpFlags, List.mem_cons, List.not_mem_nil, or_false] at he
      rcases he with rfl | rfl <;> rfl
    cases hl : lastFor (e.2.map lit) items with
    | none =>
      rw [f.1 hl, hd]
      constructor
      · intro x; cases x
      · rintro ⟨v, _, hv⟩; cases hv
    | some v =>
      rw [f.2 v _ hl rfl]
      constructor
      · intro hf
        refine ⟨v, ?_, rfl⟩
        simp only [flagOf, Bool.not_eq_false', Bool.or_eq_true, beq_iff_eq] at hf
        simp only [List.mem_cons, List.not_mem_nil, or_false]
        rcases hf with (h | h) | h
        · exact Or.inl h
        · exact Or.inr (Or.inl h)
        · exact Or.inr (Or.inr h)
      · rintro ⟨w, hw, hv⟩
        cases hv
        simp only [List.mem_cons, List.not_mem_nil, or_false] at hw
        rcases hw with rfl | rfl | rfl <;> decide

/-- The second text of the documentation. -/
example :
    createHttp (lit "scheme=https; host=api.example.com; port=443; auth=oauth2; clientSecret=a=b==; scope=a b c; tokenSkew=60") =
      { scheme := lit "https", host := lit "api.example.com", port := lit "443", auth := lit "oauth2", clientSecret := lit "a=b==",
        scope := lit "a b c", tokenRefreshSkewSeconds := 60 } := by decide +kernel

example : HttpPieces [(lit "scope", lit "a b"), (lit "token", lit "x==")] [lit " scope = a b", [], lit "token=x== "] :=
  HttpPieces.setting (b1 := [' ']) (b2 := [' ']) (b3 := [' ']) (b4 := []) (by simp) (by intro c hc; simp [lit] at hc; rcases hc with rfl | rfl <;> decide)
    (by intro c hc; simp [lit] at hc; rcases hc with rfl | rfl <;> decide) (by decide) (by decide) (by decide)
    (.blank (by simp) (HttpPieces.setting (b1 := []) (b2 := []) (b3 := []) (b4 := [' ']) (by simp)
      (by intro c hc; simp [lit] at hc; rcases hc with rfl | rfl <;> decide)
      (by intro c hc; simp [lit] at hc; rcases hc with rfl | rfl <;> decide) (by decide) (by decide) (by decide) .nil))

theorem trim_subset {p : Char → Bool} {s : Bytes} {c : Char} (h : c ∈ trim p s) : c ∈ s := by
  unfold trim at h
  have h1 := (List.dropWhile_sublist p).subset (List.mem_reverse.1 h)
  exact (List.dropWhile_sublist p).subset (List.mem_reverse.1 h1)

theorem pieces_free {ch : Char} : ∀ (s cur : Bytes), ch ∉ cur → ∀ p ∈ pieces ch cur s, ch ∉ p := by
  intro s
  induction s with
  | nil =>
    intro cur hc p hp
    simp [pieces] at hp
    rw [hp]; exact hc
  | cons c r ih =>
    intro cur hc p hp
    rw [pieces] at hp
    split at hp
    · rcases List.mem_cons.1 hp with rfl | hp
      · exact hc
      · exact ih [] (by simp) p hp
    · rename_i hne
      refine ih (cur ++ [c]) ?_ p hp
      intro hm
      rcases List.mem_append.1 hm with h | h
      · exact hc h
      · simp at h; exact hne h.symm

/-- C97. What cannot be said: no text gives a string option a value with a `;` in it, there is no way to write one. A secret or a
token that holds one is cut there, and what follows is read as a setting of its own. -/
theorem C97_semicolon_counterexample (config : Bytes) : ∀ e ∈ httpStrings, ';' ∉ e.1 (createHttp config) := by
  intro e he
  unfold createHttp
  have hp := pieces_free config [] (ch := ';') (by simp)
  have hd : ';' ∉ e.1 {} := by
    simp only [httpStrings, List.mem_cons, List.not_mem_nil, or_false] at he
    rcases he with rfl | rfl | rfl | rfl | rfl | rfl | rfl | rfl | rfl | rfl | rfl | rfl | rfl | rfl | rfl | rfl <;> decide
  revert hp hd
  generalize pieces ';' [] config = l
  generalize ({} : HttpCfg) = o
  intro hp hd
  induction l generalizing o with
  | nil => exact hd
  | cons q l ih =>
    refine ih (o.piece q) (fun p hp' => hp p (List.mem_cons_of_mem _ hp')) ?_
    unfold HttpCfg.piece
    split
    · rename_i k v hs
      rw [http_strings_set e he o (trim isBlank k, trim isBlank v)]
      split
      · intro hm
        have h1 : ';' ∈ v := trim_subset hm
        have h2 := (splitCh_sound hs).1
        exact hp q (by simp) (trim_subset (by rw [h2]; simp [h1]))
      · exact hd
    · exact hd

example : (createHttp (lit "clientSecret=se;cret; host=h")).clientSecret = lit "se" := by decide +kernel
example : (createHttp (lit "clientSecret=pw;scheme=http; host=h")).tls = false := by decide +kernel

/-- C97. The scheme is compared as it stands: any text whose last `scheme` is not exactly `https`, such as `HTTPS`, makes a transport
that sends everything, a bearer token included, without TLS and without a word about it. -/
theorem C97_scheme_case_counterexample (items : List (Bytes × Bytes)) (ps : List Bytes) (h : HttpPieces items ps) (v : Bytes)
    (hv : lastFor [lit "scheme"] items = some v) : (createHttp ([';'].intercalate ps)).tls = true ↔ v = lit "https" := by
  have := (C97_http_settings_partial items ps h).1 (HttpCfg.scheme, ["scheme"], "https") (by simp [httpStrings])
  have hs : (createHttp ([';'].intercalate ps)).scheme = v := by
    have e : lastFor (["scheme"].map lit) items = some v := hv
    rw [e] at this; exact this
  unfold HttpCfg.tls
  rw [hs]
  exact beq_iff_eq

example : (createHttp (lit "scheme=HTTPS; host=api.example.com; auth=bearer; token=secret")).tls = false := by decide +kernel

/-- C97. A time limit of 2^32 milliseconds or more is cut to its low 32 bits: asked to wait for 2^32 ms (fifty days) to connect, the
transport does not wait at all. -/
theorem C97_http_number_cut_counterexample (items : List (Bytes × Bytes)) (ps : List Bytes) (h : HttpPieces items ps) (v : Bytes) (n : Nat)
    (hv : lastFor [lit "connectTimeoutMs"] items = some v) (hd : Decimal v n) (hn : n < 2 ^ 64) :
    (createHttp ([';'].intercalate ps)).connectTimeoutMs = n % 2 ^ 32 := by
  rw [createHttp_eq h]
  refine (fold_last HttpCfg.connectTimeoutMs (fun o p => o.set p.1 p.2) _ (numVal (· % 2 ^ 32))
    (http_numbers_set (HttpCfg.connectTimeoutMs, ["connectTimeoutMs"], 10000) (by simp [httpNumbers])) items {}).2 v _ hv ?_
  rw [numVal, says_stoull hd hn]; rfl

example : (createHttp (lit "connectTimeoutMs=4294967296")).connectTimeoutMs = 0 := by decide +kernel
example : (createHttp (lit "enableGetStream=no; enableDeleteOnClose=FALSE")).enableGetStream = true := by decide +kernel

end Verif
