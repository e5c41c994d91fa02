import Verif.Log.Props

/-!
C100, log text inside a message. C101: which entries are written, and where.
-/

namespace Verif
open Framer Stdio Log

namespace Log

theorem encode_length (p : Bytes) : (encode p).length = (lit "Content-Length: " ++ natDec p.length ++ sep).length + p.length := by
  rw [encode, List.length_append]

/-- What comes before the body of a message. -/
def header (p : Bytes) : Bytes := lit "Content-Length: " ++ natDec p.length ++ sep

theorem encode_header (p : Bytes) : encode p = header p ++ p := rfl

theorem header_pos (p : Bytes) : 0 < (header p).length := by
  unfold header
  simp only [List.length_append, show sep.length = 4 from rfl]
  omega

/-- The writer has been given one message and has written `j + 1` bytes of it. -/
theorem w_half {p : Bytes} {j : Nat} (hj : j + 1 < (encode p).length) (hcap : (encode p).length ≤ 2 * 1024 * 1024) :
    ((W.init.step (.enqueue p)).step .dequeue).step (.write j) =
      { queue := [], queuedBytes := (encode p).length, maxBytes := 2 * 1024 * 1024, connected := true, cur := some (encode p, j + 1),
        out := (encode p).take (j + 1), overflowErrors := 0, writeErrors := 0, accepted := [p] } := by
  have h1 : W.init.step (.enqueue p) =
      { queue := [encode p], queuedBytes := (encode p).length, maxBytes := 2 * 1024 * 1024, connected := true, cur := none,
        out := [], overflowErrors := 0, writeErrors := 0, accepted := [p] } := by
    have h0 : ¬ (W.init.queuedBytes + (encode p).length > W.init.maxBytes) := by
      simp only [W.init]; omega
    simp only [W.step, W.enqueue, if_neg h0]
    simp [W.init]
  rw [h1]
  simp only [W.step, W.dequeue, W.write]
  rw [if_pos ⟨trivial, by omega⟩]
  have : min (j + 1) ((encode p).length - 0) = j + 1 := by omega
  rw [this]
  simp

end Log

/-- C100 is false without `MCP_STDIO_MODE`, in another way: text passed on while the writer is in the middle of a message becomes part
of the message. Whatever the message and the entry, and wherever in the body the writer has stopped (a full pipe): the
other side is handed a text with the entry in it and without its end. -/
theorem C100_inside_counterexample (e : Env) (a b file msg : Bytes) (no max : Nat) (stay : List Bytes → Bool) (he : e.toErr = false)
    (hb : b ≠ []) (hcap : (encode (a ++ b)).length ≤ 2 * 1024 * 1024) (hmax : (a ++ b).length ≤ max) :
    let x := line e .info file no msg
    let p := (Proc.init e).run [.io (.enqueue (a ++ b)), .io .dequeue, .io (.write ((header (a ++ b) ++ a).length - 1)),
      .log .info file no msg, .flush x.length, .io (.write b.length)]
    p.w.accepted = [a ++ b] ∧ p.w.out = encode (a ++ b) ∧ p.wire = header (a ++ b) ++ a ++ x ++ b ∧
      (∃ more, (feedAll max stay [p.wire]).delivered = (a ++ x ++ b).take (a ++ b).length :: more) ∧
      (b.head? ≠ some '[' → (a ++ x ++ b).take (a ++ b).length ≠ a ++ b) := by
  intro x p
  have hlen : (encode (a ++ b)).length = (header (a ++ b) ++ a).length + b.length := by
    rw [encode_header]; simp only [List.length_append]; omega
  have hbpos : 0 < b.length := List.length_pos_iff.2 hb
  have hpos : 0 < (header (a ++ b) ++ a).length := by
    have := header_pos (a ++ b)
    rw [List.length_append]; omega
  have hj : (header (a ++ b) ++ a).length - 1 + 1 = (header (a ++ b) ++ a).length := by omega
  have hhalf := w_half (p := a ++ b) (j := (header (a ++ b) ++ a).length - 1) (by omega) hcap
  rw [hj] at hhalf
  have htake : (encode (a ++ b)).take (header (a ++ b) ++ a).length = header (a ++ b) ++ a := by
    rw [encode_header, ← List.append_assoc, List.take_left]
  have hdrop : (encode (a ++ b)).drop (header (a ++ b) ++ a).length = b := by
    rw [encode_header, ← List.append_assoc, List.drop_left]
  rw [htake] at hhalf
  -- the execution
  have hp1 : (Proc.init e).run [.io (.enqueue (a ++ b)), .io .dequeue, .io (.write ((header (a ++ b) ++ a).length - 1))] =
      { Proc.init e with w := ((W.init.step (.enqueue (a ++ b))).step .dequeue).step (.write ((header (a ++ b) ++ a).length - 1)),
                         wire := header (a ++ b) ++ a } := by
    have hout : (W.init.step (.enqueue (a ++ b))).out = [] ∧ ((W.init.step (.enqueue (a ++ b))).step .dequeue).out = [] := by
      constructor
      · simp only [W.step, W.enqueue]; split <;> rfl
      · simp only [W.step, W.enqueue, W.dequeue]
        split <;> split <;> rfl
    have h1 : (Proc.init e).exited = false := rfl
    have h2 : (Proc.init e).w = W.init := rfl
    have h3 : (Proc.init e).wire = [] := rfl
    have h4 : W.init.out = [] := rfl
    simp only [Proc.run, List.foldl_cons, List.foldl_nil, Proc.step, h1, h2, h3, h4, hout.1, hout.2, hhalf, Bool.false_eq_true, if_false,
      List.length_nil, List.drop_zero, List.append_nil, List.nil_append]
  have hp : p = { Proc.init e with
      w := { queue := [], queuedBytes := (encode (a ++ b)).length, maxBytes := 2 * 1024 * 1024, connected := true,
             cur := some (encode (a ++ b), (header (a ++ b) ++ a).length + b.length),
             out := encode (a ++ b), overflowErrors := 0, writeErrors := 0, accepted := [a ++ b] },
      wire := header (a ++ b) ++ a ++ x ++ b, cout := [] } := by
    show (Proc.init e).run ([.io (.enqueue (a ++ b)), .io .dequeue, .io (.write ((header (a ++ b) ++ a).length - 1))] ++
      [.log .info file no msg, .flush x.length, .io (.write b.length)]) = _
    rw [run_append, hp1, hhalf]
    have hlog : ∀ q : Proc, q.env = e → q.level = .info → q.cout = [] → q.file = none → q.log .info file no msg = { q with cout := x } := by
      intro q h1 h2 h3 h4
      unfold Proc.log Proc.put
      rw [if_neg (by decide), if_pos (by rw [h2]; decide)]
      simp only [h1, he, h3, h4]
      cases q
      simp_all [x]
    simp only [Proc.run, List.foldl_cons, List.foldl_nil]
    rw [show ∀ q : Proc, q.exited = false → q.step (.log .info file no msg) = q.log .info file no msg from
      fun q hq => by unfold Proc.step; rw [if_neg (by simp [hq])]]
    · rw [hlog _ rfl rfl rfl rfl]
      simp only [Proc.step, Proc.init, Bool.false_eq_true, if_false, W.step, W.write]
      rw [if_pos ⟨trivial, by omega⟩]
      have : min (b.length + 1) ((encode (a ++ b)).length - (header (a ++ b) ++ a).length) = b.length := by omega
      simp only [this, hdrop, List.drop_left, List.take_length, List.drop_length]
      simp only [encode_header, List.append_assoc]
    · rfl
  rw [hp]
  refine ⟨rfl, rfl, rfl, ?_, ?_⟩
  · have hall := feedAll_flatten (max := max) (stay := stay) [header (a ++ b) ++ a ++ x ++ b]
    simp only [List.flatten_cons, List.flatten_nil, List.append_nil] at hall
    have hbody : ((a ++ x ++ b).take (a ++ b).length).length = (a ++ b).length := by
      simp only [List.length_take, List.length_append]; omega
    have hsplit : header (a ++ b) ++ a ++ x ++ b =
        encode ((a ++ x ++ b).take (a ++ b).length) ++ (a ++ x ++ b).drop (a ++ b).length := by
      have h1 : header (List.take (a ++ b).length (a ++ x ++ b)) = header (a ++ b) := by unfold header; rw [hbody]
      rw [encode_header, h1, List.append_assoc _ (List.take _ _), List.take_append_drop]
      simp only [List.append_assoc]
    have hd := decode_encode (max := max) (p := (a ++ x ++ b).take (a ++ b).length) (by omega)
      (by
        have h1 : (encode ((a ++ x ++ b).take (a ++ b).length)).length = (encode (a ++ b)).length := by
          rw [encode_length, encode_length, hbody]
        rw [h1]
        unfold sizeMax
        omega)
      ((a ++ x ++ b).drop (a ++ b).length)
    show ∃ more, (feedAll max stay [header (a ++ b) ++ a ++ x ++ b]).delivered = _
    rw [hall.1, feed, if_pos (show Reader.init.connected = true from rfl), drainAll_step, if_neg (by simp [Reader.init])]
    simp only
    rw [show Reader.init.buf ++ (header (a ++ b) ++ a ++ x ++ b) = header (a ++ b) ++ a ++ x ++ b from rfl, hsplit, hd]
    simp only
    have := drainAll_delivered (max := max) (stay := stay) _
      { buf := (encode ((a ++ x ++ b).take (a ++ b).length) ++ (a ++ x ++ b).drop (a ++ b).length).drop
          (encode ((a ++ x ++ b).take (a ++ b).length)).length,
        delivered := Reader.init.delivered ++ [(a ++ x ++ b).take (a ++ b).length],
        connected := stay (Reader.init.delivered ++ [(a ++ x ++ b).take (a ++ b).length]), errors := 0 } (Nat.lt_succ_self _)
    obtain ⟨more, hm⟩ := this
    exact ⟨more, hm.symm⟩
  · intro hne heq
    obtain ⟨r, hr⟩ := line_head e .info file msg no
    have h2 : (a ++ x ++ b).take (a ++ b).length = a ++ (x ++ b).take b.length := by
      rw [List.append_assoc, List.length_append, List.take_append, List.take_of_length_le (by omega)]
      simp
    rw [h2] at heq
    have h3 := List.append_cancel_left heq
    apply hne
    cases b with
    | nil => exact absurd rfl hb
    | cons c b =>
      have : x = '[' :: r := hr
      rw [this] at h3
      simp only [List.cons_append, List.length_cons, List.take_succ_cons, List.cons.injEq] at h3
      rw [← h3.1]; rfl

example : Env.toErr ⟨none, none⟩ = false ∧ (encode (lit "{\"a\":" ++ lit "1}")).length ≤ 2 * 1024 * 1024 := by decide +kernel

/-! ### Levels -/

/-- The names of the levels, least severe first: the position is the severity. -/
def levelNames : List Bytes := [lit "DEBUG", lit "INFO", lit "WARN", lit "ERROR", lit "FATAL"]

/-- C101. A name of a level, in any mixture of capital and small letters, sets that level (`WARNING` is `WARN`); everything else sets
`INFO`. -/
theorem C101_level_read (s : Bytes) :
    (∀ i, levelNames[i]? = some (s.map upperCh) → (parseLevel s).rank = i) ∧
      (s.map upperCh = lit "WARNING" → (parseLevel s).rank = 2) ∧
      (s.map upperCh ∉ levelNames → s.map upperCh ≠ lit "WARNING" → (parseLevel s).rank = 1) := by
  refine ⟨?_, ?_, ?_⟩
  · intro i hi
    rcases i with _ | _ | _ | _ | _ | i
    all_goals simp only [levelNames, List.getElem?_cons_zero, List.getElem?_cons_succ, Option.some.injEq, List.getElem?_nil, reduceCtorEq] at hi
    all_goals (unfold parseLevel; simp only; rw [← hi]; decide)
  · intro h
    unfold parseLevel; simp only; rw [h]; decide
  · intro h1 h2
    simp only [levelNames, List.mem_cons, List.not_mem_nil, or_false, not_or] at h1
    obtain ⟨a1, a2, a3, a4, a5⟩ := h1
    unfold parseLevel
    simp only
    rw [if_neg a1, if_neg a2, if_neg a3, if_neg a4, if_neg a5, if_neg h2]
    rfl

example : levelNames[3]? = some ((lit "eRRor").map upperCh) ∧ (lit "warning").map upperCh = lit "WARNING" := by decide

/-- C101 is false of texts that are no level of the logger, the names of the protocol and plain ways of asking for silence among them:
whoever asks for emergencies only, or for nothing, is sent everything from `INFO` on. -/
theorem C101_unknown_counterexample (s : Bytes) (p : Proc) (file msg : Bytes) (no : Nat) (hx : p.exited = false)
    (hto : p.env.toErr = true)
    (hs : s.map upperCh ∈ [lit "EMERGENCY", lit "ALERT", lit "CRITICAL", lit "NOTICE", lit "OFF", lit "NONE", lit "ERR", lit "4", []]) :
    (p.run [.setLevel s, .log .info file no msg]).err = p.err ++ line p.env .info file no msg := by
  have h1 : parseLevel s = .info := by
    unfold parseLevel
    simp only
    simp only [List.mem_cons, List.not_mem_nil, or_false] at hs
    rcases hs with h | h | h | h | h | h | h | h | h <;> rw [h] <;> decide
  show ((p.step (.setLevel s)).step (.log .info file no msg)).err = _
  simp only [Proc.step, hx, Bool.false_eq_true, if_false, h1, Proc.log, Proc.put, Lvl.rank]
  rw [if_neg (by decide), if_pos (Nat.le_refl _)]
  simp only [hto, if_true]

example : ((Proc.init ⟨some (lit "1"), some (lit "0")⟩).run [.setLevel (lit "off"), .log .info (lit "a") 1 (lit "hi")]).err =
    lit "[INFO] a:1: hi\n" := by decide +kernel

/-- What a history of calls is to write, from the calls alone: an entry is written when its level is not below the last one set
(at first `INFO`), or when it is fatal, and then it is the last. -/
def written (e : Env) : Nat → List POp → List Bytes
  | _, [] => []
  | lv, .log l f n m :: r =>
    if l = .fatal then [line e l f n m]
    else if lv ≤ l.rank then line e l f n m :: written e lv r
    else written e lv r
  | _, .setLevel s :: r => written e (parseLevel s).rank r
  | lv, .io _ :: r => written e lv r
  | lv, .flush _ :: r => written e lv r
  | lv, .openLog _ _ :: r => written e lv r

/-- The texts of `std::cout` passed on by an execution, in order. -/
def passed (p : Proc) : List POp → Bytes
  | [] => []
  | .flush k :: r => (if p.exited then [] else p.cout.take k) ++ passed (p.step (.flush k)) r
  | op :: r => passed (p.step op) r

namespace Log

theorem step_log_fatal {p : Proc} (hx : p.exited = false) (f m : Bytes) (n : Nat) :
    p.step (.log .fatal f n m) = { p.put (line p.env .fatal f n m) with exited := true } := by
  unfold Proc.step Proc.log
  simp [hx]

theorem step_log_pass {p : Proc} {l : Lvl} (hx : p.exited = false) (hl : l ≠ .fatal) (h : p.level.rank ≤ l.rank) (f m : Bytes) (n : Nat) :
    p.step (.log l f n m) = p.put (line p.env l f n m) := by
  unfold Proc.step Proc.log
  simp [hx, hl, h]

theorem step_log_skip {p : Proc} {l : Lvl} (hx : p.exited = false) (hl : l ≠ .fatal) (h : ¬ p.level.rank ≤ l.rank) (f m : Bytes) (n : Nat) :
    p.step (.log l f n m) = p := by
  unfold Proc.step Proc.log
  simp [hx, hl, h]

theorem put_fields (p : Proc) (t : Bytes) : (p.put t).env = p.env ∧ (p.put t).level = p.level ∧ (p.put t).exited = p.exited ∧
    (p.env.toErr = true → (p.put t).err = p.err ++ t ∧ (p.put t).cout = p.cout) ∧
    (p.env.toErr = false → (p.put t).err = p.err ∧ (p.put t).cout = p.cout ++ t) ∧ (p.put t).file = p.file.map (· ++ t) := by
  unfold Proc.put
  cases h : p.env.toErr <;> simp

end Log

/-- C101. In every execution each entry whose level is not below the one set at the time is written whole, once and in order, and no
other: on standard error with `MCP_STDIO_MODE` on, and otherwise by way of the buffer of `std::cout`, what has been passed on
followed by what has not. -/
theorem C101_written (e : Env) (ops : List POp) :
    (e.toErr = true → ((Proc.init e).run ops).err = (written e 1 ops).flatten ∧ passed (Proc.init e) ops = []) ∧
      (e.toErr = false → ((Proc.init e).run ops).err = [] ∧
        passed (Proc.init e) ops ++ ((Proc.init e).run ops).cout = (written e 1 ops).flatten) := by
  have dead : ∀ (ops : List POp) (p : Proc), p.exited = true → passed p ops = [] := by
    intro ops
    induction ops with
    | nil => intros; rfl
    | cons op ops ih =>
      intro p hx
      have hs : p.step op = p := by unfold Proc.step; rw [if_pos hx]
      cases op <;> simp only [passed, hs, hx, if_true, List.nil_append] <;> exact ih p hx
  have key : ∀ (ops : List POp) (p : Proc), p.env = e → p.exited = false →
      (e.toErr = true → p.cout = [] → (p.run ops).err = p.err ++ (written e p.level.rank ops).flatten ∧ passed p ops = []) ∧
        (e.toErr = false → (p.run ops).err = p.err ∧
          passed p ops ++ (p.run ops).cout = p.cout ++ (written e p.level.rank ops).flatten) := by
    intro ops
    induction ops with
    | nil => intro p _ _; simp [Proc.run, written, passed]
    | cons op ops ih =>
      intro p he hx
      show (_ → _ → ((p.step op).run ops).err = _ ∧ _) ∧ (_ → ((p.step op).run ops).err = _ ∧ _ ++ ((p.step op).run ops).cout = _)
      cases op with
      | io w =>
        have h : (p.step (.io w)).env = e ∧ (p.step (.io w)).exited = false ∧ (p.step (.io w)).cout = p.cout ∧
            (p.step (.io w)).err = p.err ∧ (p.step (.io w)).level = p.level := by
          unfold Proc.step; simp [hx, he]
        have := ih (p.step (.io w)) h.1 h.2.1
        rw [h.2.2.1, h.2.2.2.1, h.2.2.2.2] at this
        simpa only [written, passed] using this
      | setLevel s =>
        have h : (p.step (.setLevel s)).env = e ∧ (p.step (.setLevel s)).exited = false ∧ (p.step (.setLevel s)).cout = p.cout ∧
            (p.step (.setLevel s)).err = p.err ∧ (p.step (.setLevel s)).level = parseLevel s := by
          unfold Proc.step; simp [hx, he]
        have := ih (p.step (.setLevel s)) h.1 h.2.1
        rw [h.2.2.1, h.2.2.2.1, h.2.2.2.2] at this
        simpa only [written, passed] using this
      | openLog s ok =>
        have h : (p.step (.openLog s ok)).env = e ∧ (p.step (.openLog s ok)).exited = false ∧ (p.step (.openLog s ok)).cout = p.cout ∧
            (p.step (.openLog s ok)).err = p.err ∧ (p.step (.openLog s ok)).level = p.level := by
          unfold Proc.step; simp [hx, he]
        have := ih (p.step (.openLog s ok)) h.1 h.2.1
        rw [h.2.2.1, h.2.2.2.1, h.2.2.2.2] at this
        simpa only [written, passed] using this
      | flush k =>
        have h : (p.step (.flush k)).env = e ∧ (p.step (.flush k)).exited = false ∧ (p.step (.flush k)).cout = p.cout.drop k ∧
            (p.step (.flush k)).err = p.err ∧ (p.step (.flush k)).level = p.level := by
          unfold Proc.step; simp [hx, he]
        have := ih (p.step (.flush k)) h.1 h.2.1
        rw [h.2.2.1, h.2.2.2.1, h.2.2.2.2] at this
        simp only [written, passed, hx, Bool.false_eq_true, if_false]
        refine ⟨fun h1 h2 => ?_, fun h1 => ?_⟩
        · have := this.1 h1 (by simp [h2])
          exact ⟨this.1, by rw [this.2, h2]; simp⟩
        · have := this.2 h1
          refine ⟨this.1, ?_⟩
          rw [List.append_assoc, this.2, ← List.append_assoc, List.take_append_drop]
      | log l f n m =>
        have hput := put_fields p (line p.env l f n m)
        by_cases hl : l = .fatal
        · subst hl
          have hrun := run_exited ops (p.step (.log .fatal f n m)) (by rw [step_log_fatal hx])
          rw [hrun]
          simp only [written, passed, if_true]
          rw [dead ops _ (by rw [step_log_fatal hx]), step_log_fatal hx]
          simp only [he] at hput ⊢
          refine ⟨fun h1 h2 => ⟨?_, trivial⟩, fun h1 => ⟨(hput.2.2.2.2.1 h1).1, ?_⟩⟩
          · simpa using (hput.2.2.2.1 h1).1
          · simpa using (hput.2.2.2.2.1 h1).2
        · by_cases hr : p.level.rank ≤ l.rank
          · have hs := step_log_pass hx hl hr f m n
            have := ih (p.step (.log l f n m)) (by rw [hs, hput.1, he]) (by rw [hs, hput.2.2.1, hx])
            simp only [written, passed, if_neg hl, if_pos hr]
            rw [hs] at this ⊢
            rw [hput.2.1] at this
            rw [he] at hput this ⊢
            refine ⟨fun h1 h2 => ?_, fun h1 => ?_⟩
            · have h3 := hput.2.2.2.1 h1
              have := this.1 h1 (by rw [h3.2, h2])
              refine ⟨?_, this.2⟩
              rw [this.1, h3.1, List.flatten_cons, List.append_assoc]
            · have h3 := hput.2.2.2.2.1 h1
              have := this.2 h1
              refine ⟨by rw [this.1, h3.1], ?_⟩
              rw [this.2, h3.2, List.flatten_cons, List.append_assoc]
          · have hs := step_log_skip hx hl hr f m n
            simp only [written, passed, if_neg hl, if_neg hr]
            rw [hs]
            exact ih p he hx
  have := key ops (Proc.init e) rfl rfl
  refine ⟨fun h => ?_, fun h => ?_⟩
  · have := this.1 h rfl
    exact ⟨by rw [this.1]; rfl, this.2⟩
  · have := this.2 h
    exact ⟨this.1, by rw [this.2]; rfl⟩

example : written ⟨none, some (lit "0")⟩ 1 [.log .debug (lit "a") 1 (lit "x"), .log .info (lit "a") 2 (lit "y"), .setLevel (lit "error"),
    .log .warn (lit "a") 3 (lit "z"), .log .error (lit "a") 4 (lit "u")] = [lit "[INFO] a:2: y\n", lit "[ERROR] a:4: u\n"] := by decide

/-- C101. From the time a log file is open, and as long as it is not changed, it has a heading and after it exactly the entries written since. -/
theorem C101_file (e : Env) (pre post : List POp) (stamp : Bytes) (hx : ((Proc.init e).run pre).exited = false)
    (hpost : ∀ s ok, .openLog s ok ∉ post) :
    ((Proc.init e).run (pre ++ .openLog stamp true :: post)).file =
      some (heading stamp ++ (written e ((Proc.init e).run pre).level.rank post).flatten) := by
  have henv : ((Proc.init e).run pre).env = e := env_run pre _
  rw [run_append]
  generalize (Proc.init e).run pre = q at *
  have key : ∀ (ops : List POp) (p : Proc) (t : Bytes), p.env = e → p.exited = false → p.file = some t → (∀ s ok, .openLog s ok ∉ ops) →
      (p.run ops).file = some (t ++ (written e p.level.rank ops).flatten) := by
    intro ops
    induction ops with
    | nil => intro p t _ _ hf _; simp [Proc.run, written, hf]
    | cons op ops ih =>
      intro p t he hx hf ho
      show ((p.step op).run ops).file = _
      have ho' : ∀ s ok, .openLog s ok ∉ ops := fun s ok h => ho s ok (by simp [h])
      cases op with
      | io w =>
        have := ih (p.step (.io w)) t (by unfold Proc.step; simp [hx, he]) (by unfold Proc.step; simp [hx])
          (by unfold Proc.step; simp [hx, hf]) ho'
        rw [this]
        unfold Proc.step
        simp [hx, written]
      | setLevel s =>
        have := ih (p.step (.setLevel s)) t (by unfold Proc.step; simp [hx, he]) (by unfold Proc.step; simp [hx])
          (by unfold Proc.step; simp [hx, hf]) ho'
        rw [this]
        unfold Proc.step
        simp [hx, written]
      | flush k =>
        have := ih (p.step (.flush k)) t (by unfold Proc.step; simp [hx, he]) (by unfold Proc.step; simp [hx])
          (by unfold Proc.step; simp [hx, hf]) ho'
        rw [this]
        unfold Proc.step
        simp [hx, written]
      | openLog s ok => exact absurd (by simp) (ho s ok)
      | log l f n m =>
        have hput := put_fields p (line p.env l f n m)
        by_cases hl : l = .fatal
        · subst hl
          rw [run_exited ops _ (by rw [step_log_fatal hx]), step_log_fatal hx]
          simp only [written, if_true]
          rw [hput.2.2.2.2.2, hf, he]
          simp
        · by_cases hr : p.level.rank ≤ l.rank
          · have hs := step_log_pass hx hl hr f m n
            have := ih (p.step (.log l f n m)) (t ++ line p.env l f n m) (by rw [hs, hput.1, he]) (by rw [hs, hput.2.2.1, hx])
              (by rw [hs, hput.2.2.2.2.2, hf]; rfl) ho'
            rw [this, hs, hput.2.1]
            simp only [written, if_neg hl, if_pos hr]
            rw [List.flatten_cons, List.append_assoc, he]
          · rw [step_log_skip hx hl hr]
            simp only [written, if_neg hl, if_neg hr]
            exact ih p t he hx hf ho'
  show ((q.step (.openLog stamp true)).run post).file = _
  have hs : q.step (.openLog stamp true) = { q with file := some (heading stamp) } := by
    unfold Proc.step; simp [hx]
  rw [hs]
  exact key post { q with file := some (heading stamp) } (heading stamp) henv hx rfl hpost

example : ((Proc.init ⟨none, some (lit "0")⟩).run [.log .info (lit "a") 1 (lit "x"), .openLog (lit "now") true, .log .debug (lit "a") 2 (lit "y"),
    .log .info (lit "a") 3 (lit "z")]).file = some (lit "\n=== Log opened at now ===\n[INFO] a:3: z\n") := by decide +kernel

/-- C101. When a log file cannot be opened there is none, not even the one before, until one is opened. -/
theorem C101_no_file (e : Env) (pre post : List POp) (stamp : Bytes) (hx : ((Proc.init e).run pre).exited = false)
    (hpost : ∀ s, .openLog s true ∉ post) : ((Proc.init e).run (pre ++ .openLog stamp false :: post)).file = none := by
  rw [run_append]
  generalize (Proc.init e).run pre = q at *
  have key : ∀ (ops : List POp) (p : Proc), p.file = none → (∀ s, .openLog s true ∉ ops) → (p.run ops).file = none := by
    intro ops
    induction ops with
    | nil => intro p hf _; exact hf
    | cons op ops ih =>
      intro p hf ho
      refine ih (p.step op) ?_ fun s h => ho s (List.mem_cons_of_mem _ h)
      have hput : ∀ t, (p.put t).file = none := fun t => by rw [(put_fields p t).2.2.2.2.2, hf]; rfl
      unfold Proc.step
      split
      · exact hf
      · cases op with
        | io op => exact hf
        | log l f n m =>
          show (p.log l f n m).file = none
          unfold Proc.log
          split
          · exact hput _
          · split
            · exact hput _
            · exact hf
        | flush k => exact hf
        | setLevel s => exact hf
        | openLog s ok =>
          cases ok with
          | true => exact absurd List.mem_cons_self (ho s)
          | false => rfl
  show ((q.step (.openLog stamp false)).run post).file = none
  refine key post _ ?_ hpost
  simp [Proc.step, hx]

example : ((Proc.init ⟨none, some (lit "0")⟩).run [.openLog (lit "now") true, .log .info (lit "a") 1 (lit "x"), .openLog (lit "now") false,
    .log .info (lit "a") 3 (lit "z")]).file = none := by decide +kernel

/-- C101. The text of an entry: the name of its level in brackets, coloured unless `MCP_LOG_COLOR` is set to something else than `1`,
`true`, `TRUE` (errors in another colour than the rest), then where it comes from and what it says. -/
theorem C101_text (e : Env) (l : Lvl) (f m : Bytes) (n : Nat) (name : Bytes) (hn : levelNames[l.rank]? = some name) :
    (∀ v, e.logColor = some v → v ∉ [lit "1", lit "true", lit "TRUE"] →
      line e l f n m = lit "[" ++ name ++ lit "] " ++ f ++ lit ":" ++ natDec n ++ lit ": " ++ m ++ lit "\n") ∧
    (e.logColor = none ∨ (∃ v ∈ [lit "1", lit "true", lit "TRUE"], e.logColor = some v) →
      ∃ colour, (colour = lit "\x1b[38;5;88m" ↔ l = .error) ∧
        line e l f n m = lit "[" ++ colour ++ name ++ lit "\x1b[0m] " ++ f ++ lit ":" ++ natDec n ++ lit ": " ++ m ++ lit "\n") := by
  have hname : l.name = name := by
    cases l <;> exact Option.some.inj hn
  constructor
  · intro v hv hnot
    simp only [List.mem_cons, List.not_mem_nil, or_false, not_or] at hnot
    have hc : e.color = false := by
      simp [Env.color, switch, hv, hnot.1, hnot.2.1, hnot.2.2]
    simp only [line, hc, Bool.false_eq_true, if_false, hname, List.append_assoc]
  · intro h
    have hc : e.color = true := by
      rcases h with h | ⟨v, hv, h⟩
      · simp [Env.color, switch, h]
      · simp only [List.mem_cons, List.not_mem_nil, or_false] at hv
        simp [Env.color, switch, h, hv, or_assoc]
    have hre : lit "\x1b[0m] " = lit "\x1b[0m" ++ lit "] " := by decide
    refine ⟨if l = .error then lit "\x1b[38;5;88m" else lit "\x1b[35m", ?_, ?_⟩
    · split
      · rename_i h; exact ⟨fun _ => h, fun _ => rfl⟩
      · rename_i h; exact ⟨fun e => absurd e (by decide), fun e => absurd e h⟩
    · simp only [line, hc, if_true, hname, hre, List.append_assoc]

example : levelNames[Lvl.warn.rank]? = some (lit "WARN") ∧ lit "no" ∉ [lit "1", lit "true", lit "TRUE"] := by decide

/-- C101 is false of the last entry: a fatal entry, and everything logged before it that `std::cout` has not passed on, is never seen,
unless `MCP_STDIO_MODE` is on or there is a log file: the macro ends the process without passing the buffer on. -/
theorem C101_fatal_lost_counterexample (p : Proc) (file msg : Bytes) (no : Nat) (more : List POp) (hx : p.exited = false)
    (hto : p.env.toErr = false) :
    let q := p.run (.log .fatal file no msg :: more)
    q.wire = p.wire ∧ q.err = p.err ∧ q.cout = p.cout ++ line p.env .fatal file no msg := by
  intro q
  have hq : q = p.step (.log .fatal file no msg) := run_exited more _ (by rw [step_log_fatal hx])
  have hput := put_fields p (line p.env .fatal file no msg)
  have hw : (p.put (line p.env .fatal file no msg)).wire = p.wire := by
    unfold Proc.put; split <;> rfl
  rw [hq, step_log_fatal hx]
  exact ⟨hw, (hput.2.2.2.2.1 hto).1, (hput.2.2.2.2.1 hto).2⟩

example : (Proc.init ⟨none, none⟩).exited = false ∧ (Proc.init ⟨none, none⟩).env.toErr = false := by decide

end Verif
