import Verif.Log.Lemmas

/-!
C100: log entries and the messages on standard output. C101: which entries are written, and where.
-/

namespace Verif
open Framer Stdio Log

namespace Log

/-- The transport in the process is one of those of C12. -/
theorem reachable_run : ∀ (ops : List POp) (p : Proc), (∃ ws, p.w = W.init.run ws) → ∃ ws, (p.run ops).w = W.init.run ws
  | [], _, h => h
  | op :: ops, p, h => by
    refine reachable_run ops (p.step op) ?_
    unfold Proc.step
    split
    · exact h
    · cases op with
      | io op =>
        obtain ⟨ws, h⟩ := h
        exact ⟨ws ++ [op], by simp [h, W.run, List.foldl_append]⟩
      | log l file no msg =>
        show ∃ ws, (p.log l file no msg).w = _
        rw [(log_frame ..).2.1]; exact h
      | _ => exact h

/-- With the log on standard error, standard output has what the transport wrote. -/
theorem wire_run : ∀ (ops : List POp) (p : Proc), p.env.toErr = true → p.cout = [] → p.wire = p.w.out →
    (p.run ops).wire = (p.run ops).w.out
  | [], _, _, _, h => h
  | op :: ops, p, he, hc, hw => by
    refine wire_run ops (p.step op) (by rw [env_step]; exact he) ?_ ?_
    · unfold Proc.step
      split
      · exact hc
      · cases op with
        | log l file no msg =>
          show (p.log l file no msg).cout = []
          unfold Proc.log Proc.put
          simp only [he, if_true]
          split
          · exact hc
          · split <;> exact hc
        | flush k => simp [hc]
        | _ => exact hc
    · unfold Proc.step
      split
      · exact hw
      · cases op with
        | io op =>
          obtain ⟨x, hx⟩ := out_grows p.w op
          simp only
          rw [hw, ← hx, List.drop_left]
        | log l file no msg =>
          show (p.log l file no msg).wire = (p.log l file no msg).w.out
          rw [(log_frame ..).1, (log_frame ..).2.1]; exact hw
        | flush k => simp [hc, hw]
        | _ => exact hw

end Log

/-- C100, what is missing being processes without the switch. With `MCP_STDIO_MODE` set to `1`, `true` or `TRUE`, the log never reaches standard output: whatever is logged and however the
threads take turns, standard output has the beginning of the frames of the accepted messages, and once the writer has caught up
the other side reads exactly these messages, in whatever pieces. -/
theorem C100_stdio_mode_partial (e : Env) (ops : List POp) (max : Nat)
    (he : e.stdioMode = some (lit "1") ∨ e.stdioMode = some (lit "true") ∨ e.stdioMode = some (lit "TRUE")) :
    let p := (Proc.init e).run ops
    p.wire <+: (p.w.accepted.map encode).flatten ∧
      (p.w.connected = true → p.w.queue = [] → p.w.cur = none →
        (∀ m ∈ p.w.accepted, m.length ≤ max ∧ (encode m).length ≤ sizeMax) → ∀ cs : List Bytes, cs.flatten = p.wire →
        feedAll max (fun _ => true) cs = { buf := [], delivered := p.w.accepted, connected := true, errors := 0 }) := by
  intro p
  have hto : e.toErr = true := by
    unfold Env.toErr switch
    rcases he with h | h | h <;> rw [h] <;> decide
  have hw : p.wire = p.w.out := wire_run ops (Proc.init e) hto rfl rfl
  obtain ⟨ws, hp⟩ := reachable_run ops (Proc.init e) ⟨[], rfl⟩
  change p.w = _ at hp
  refine ⟨?_, ?_⟩
  · rw [hw, hp]; exact C12_ordered_prefix ws
  · intro h1 h2 h3 h4 cs h5
    rw [hw] at h5
    rw [hp] at h1 h2 h3 h4 h5 ⊢
    exact C12_end_to_end ws max cs h1 h2 h3 h4 h5

example : let p := (Proc.init ⟨some (lit "1"), none⟩).run [.log .info (lit "a.cpp") 7 (lit "hello"), .io (.enqueue (lit "{}")), .io .dequeue,
      .io (.write 3), .log .warn (lit "a.cpp") 9 (lit "again"), .flush 99, .io (.write 99), .io .finish]
    p.wire = encode (lit "{}") ∧ p.w.connected = true ∧ p.w.queue = [] ∧ p.w.cur = none ∧ p.err ≠ [] := by decide +kernel

namespace Log

/-- In the execution, the buffer of `std::cout` is passed on only while the writer thread is between two frames. -/
def Between (p : Proc) : List POp → Prop
  | [] => True
  | op :: ops => (∀ k, op = .flush k → p.w.connected = true ∧ p.w.cur = none) ∧ Between (p.step op) ops

/-- What standard output has, with what is missing of the last frame, is `base` followed by whole stretches of the kind `S`. -/
structure Flow (base : Bytes) (S : Seg → Prop) (p : Proc) : Prop where
  queue : ∀ f ∈ p.w.queue, ∃ q, f = encode q ∧ S (.msg q)
  now : p.w.connected = true → ∃ (segs : List Seg) (tail : Bytes), p.wire ++ tail = base ++ (segs.map Seg.bytes).flatten ∧ (∀ s ∈ segs, S s) ∧
    (match p.w.cur with | none => tail = [] | some (f, t) => tail = f.drop t)
  any : ∃ (segs : List Seg) (tail : Bytes), p.wire ++ tail = base ++ (segs.map Seg.bytes).flatten ∧ (∀ s ∈ segs, S s)

theorem flow_step {base : Bytes} {S : Seg → Prop} {p : Proc} {op : POp} (h : Flow base S p)
    (hm : ∀ q, op = .io (.enqueue q) → S (.msg q))
    (hf : ∀ k, op = .flush k → S (.text (p.cout.take k)) ∧ p.w.connected = true ∧ p.w.cur = none) : Flow base S (p.step op) := by
  obtain ⟨hq, hn, ha⟩ := h
  unfold Proc.step
  split
  · exact ⟨hq, hn, ha⟩
  cases op with
  | log l file no msg =>
    show Flow base S (p.log l file no msg)
    have := log_frame p l file no msg
    refine ⟨?_, ?_, ?_⟩
    · rw [this.2.1]; exact hq
    · rw [this.1, this.2.1]; exact hn
    · rw [this.1]; exact ha
  | setLevel s => exact ⟨hq, hn, ha⟩
  | openLog s ok => exact ⟨hq, hn, ha⟩
  | flush k =>
    obtain ⟨h1, h2, h3⟩ := hf k rfl
    obtain ⟨segs, tail, h4, h5, h6⟩ := hn h2
    rw [h3] at h6
    simp only at h6
    subst h6
    rw [List.append_nil] at h4
    have h7 : (p.wire ++ p.cout.take k) ++ [] = base ++ ((segs ++ [Seg.text (p.cout.take k)]).map Seg.bytes).flatten := by
      simp [h4, Seg.bytes]
    have h8 : ∀ s ∈ segs ++ [Seg.text (p.cout.take k)], S s := by
      intro s hs
      rcases List.mem_append.1 hs with hs | hs
      · exact h5 s hs
      · rw [List.mem_singleton.1 hs]; exact h1
    refine ⟨hq, fun _ => ⟨_, [], h7, h8, ?_⟩, ⟨_, [], h7, h8⟩⟩
    show (match p.w.cur with | none => ([] : Bytes) = [] | some (f, t) => [] = f.drop t)
    rw [h3]
  | io op =>
    have same : ∀ w : W, w.out = p.w.out → p.wire ++ w.out.drop p.w.out.length = p.wire := by
      intro w hw
      rw [hw, List.drop_length, List.append_nil]
    cases op with
    | enqueue q =>
      simp only [W.step, W.enqueue]
      split
      · refine ⟨hq, fun h => absurd h (by simp), ?_⟩
        simp only
        rw [List.drop_length, List.append_nil]
        exact ha
      · refine ⟨?_, ?_, ?_⟩
        · intro f hf'
          rcases List.mem_append.1 hf' with h | h
          · exact hq f h
          · exact ⟨q, List.mem_singleton.1 h, hm q rfl⟩
        · simp only
          rw [List.drop_length, List.append_nil]
          exact hn
        · simp only
          rw [List.drop_length, List.append_nil]
          exact ha
    | dequeue =>
      simp only [W.step, W.dequeue]
      split
      · rename_i f q h1 h2
        obtain ⟨m, h3, h4⟩ := hq f (by rw [h2]; simp)
        refine ⟨fun g hg => hq g (by rw [h2]; simp [hg]), ?_, ?_⟩
        · simp only
          intro hc
          obtain ⟨segs, tail, h5, h6, h7⟩ := hn hc
          rw [h1] at h7
          simp only at h7
          subst h7
          refine ⟨segs ++ [.msg m], f, ?_, ?_, by simp⟩
          · rw [List.drop_length, List.append_nil]
            rw [List.append_nil] at h5
            simp [h5, Seg.bytes, h3]
          · intro s hs
            rcases List.mem_append.1 hs with hs | hs
            · exact h6 s hs
            · rw [List.mem_singleton.1 hs]; exact h4
        · simp only
          rw [List.drop_length, List.append_nil]
          exact ha
      · rw [List.drop_length, List.append_nil]
        exact ⟨hq, hn, ha⟩
    | write k =>
      simp only [W.step, W.write]
      split
      · rename_i f t h1
        split
        · rename_i hc
          obtain ⟨segs, tail, h5, h6, h7⟩ := hn hc.1
          rw [h1] at h7
          simp only at h7
          have h8 : (p.wire ++ (f.drop t).take (min (k + 1) (f.length - t))) ++ f.drop (t + min (k + 1) (f.length - t)) =
              base ++ (segs.map Seg.bytes).flatten := by
            rw [← h5, h7, List.append_assoc, ← List.drop_drop, List.take_append_drop]
          refine ⟨hq, fun _ => ⟨segs, f.drop (t + min (k + 1) (f.length - t)), ?_, h6, rfl⟩,
            ⟨segs, f.drop (t + min (k + 1) (f.length - t)), ?_, h6⟩⟩
          · simp only [List.drop_left]; exact h8
          · simp only [List.drop_left]; exact h8
        · rw [List.drop_length, List.append_nil]
          exact ⟨hq, hn, ha⟩
      · rw [List.drop_length, List.append_nil]
        exact ⟨hq, hn, ha⟩
    | writeFail =>
      simp only [W.step, W.writeFail]
      split
      · split
        · refine ⟨hq, fun h => absurd h (by simp), ?_⟩
          simp only
          rw [List.drop_length, List.append_nil]
          exact ha
        · rw [List.drop_length, List.append_nil]
          exact ⟨hq, hn, ha⟩
      · rw [List.drop_length, List.append_nil]
        exact ⟨hq, hn, ha⟩
    | finish =>
      simp only [W.step, W.finish]
      split
      · rename_i f t h1
        split
        · rw [List.drop_length, List.append_nil]
          exact ⟨hq, hn, ha⟩
        · rename_i hc
          refine ⟨hq, ?_, ?_⟩
          · simp only
            intro hcon
            obtain ⟨segs, tail, h5, h6, h7⟩ := hn hcon
            rw [h1] at h7
            simp only at h7
            have : tail = [] := by
              rw [h7]
              exact List.drop_eq_nil_of_le (by
                have : ¬ t < f.length := fun h => hc ⟨hcon, h⟩
                omega)
            subst this
            refine ⟨segs, [], ?_, h6, rfl⟩
            rw [List.drop_length, List.append_nil]; exact h5
          · simp only
            rw [List.drop_length, List.append_nil]
            exact ha
      · rw [List.drop_length, List.append_nil]
        exact ⟨hq, hn, ha⟩
    | disconnect =>
      refine ⟨hq, fun h => absurd h (by simp [W.step]), ?_⟩
      simp only [W.step]
      rw [List.drop_length, List.append_nil]
      exact ha
    | setMax n =>
      simp only [W.step]
      rw [List.drop_length, List.append_nil]
      exact ⟨hq, hn, ha⟩

theorem line_no_cr {e : Env} {l : Lvl} {file msg : Bytes} {no : Nat} (hf : '\r' ∉ file) (hm : '\r' ∉ msg) :
    '\r' ∉ line e l file no msg := by
  have h1 := digits_no_cr no
  have h2 : '\r' ∉ l.name := by cases l <;> decide
  have h3 : ∀ b : Bool, '\r' ∉ (if b then lit "\x1b[38;5;88m" else lit "\x1b[35m") := by decide
  unfold line
  split
  · intro h
    simp only [List.mem_append] at h
    rcases h with (((h | h) | h) | h) | (((((h | h) | h) | h) | h) | h) | h
    · revert h; decide
    · split at h
      · revert h; decide
      · revert h; decide
    · exact h2 h
    · revert h; decide
    · revert h; decide
    · exact hf h
    · revert h; decide
    · exact h1 h
    · revert h; decide
    · exact hm h
    · revert h; decide
  · intro h
    simp only [List.mem_append] at h
    rcases h with (h | h) | (((((h | h) | h) | h) | h) | h) | h
    · revert h; decide
    · exact h2 h
    · revert h; decide
    · exact hf h
    · revert h; decide
    · exact h1 h
    · revert h; decide
    · exact hm h
    · revert h; decide

theorem line_head (e : Env) (l : Lvl) (file msg : Bytes) (no : Nat) : ∃ r, line e l file no msg = '[' :: r := by
  unfold line
  have : lit "[" = ['['] := by decide
  split
  · rw [this]; simp only [List.append_assoc, List.cons_append, List.nil_append]; exact ⟨_, rfl⟩
  · rw [this]; simp only [List.append_assoc, List.cons_append, List.nil_append]; exact ⟨_, rfl⟩

/-- What `std::cout` holds has no carriage return in it when the entries have none. -/
theorem cout_no_cr_step {p : Proc} {op : POp} (h : '\r' ∉ p.cout)
    (hl : ∀ l f n m, op = .log l f n m → '\r' ∉ f ∧ '\r' ∉ m) : '\r' ∉ (p.step op).cout := by
  unfold Proc.step
  split
  · exact h
  · cases op with
    | log l f n m =>
      obtain ⟨h1, h2⟩ := hl l f n m rfl
      have h3 := line_no_cr (e := p.env) (l := l) (no := n) h1 h2
      have h4 : '\r' ∉ p.cout ++ line p.env l f n m := by
        intro hh
        rcases List.mem_append.1 hh with hh | hh
        · exact h hh
        · exact h3 hh
      show '\r' ∉ (p.log l f n m).cout
      unfold Proc.log Proc.put
      split
      · split
        · exact h
        · exact h4
      · split
        · split
          · exact h
          · exact h4
        · exact h
    | flush k => exact fun hh => h (List.mem_of_mem_drop hh)
    | _ => exact h

/-- Until it is passed on, what `std::cout` holds begins with an entry. -/
theorem cout_head_step {p : Proc} {op : POp} (h : p.cout = [] ∨ p.cout.head? = some '[') (hf : ∀ k, op ≠ .flush k) :
    ((p.step op).cout = [] ∨ (p.step op).cout.head? = some '[') ∧ (p.cout ≠ [] → (p.step op).cout ≠ []) := by
  unfold Proc.step
  split
  · exact ⟨h, id⟩
  · cases op with
    | log l f n m =>
      have key : (p.cout ++ line p.env l f n m = [] ∨ (p.cout ++ line p.env l f n m).head? = some '[') ∧
          (p.cout ≠ [] → p.cout ++ line p.env l f n m ≠ []) := by
        obtain ⟨r, hr⟩ := line_head p.env l f m n
        rw [hr]
        refine ⟨Or.inr ?_, fun _ => by simp⟩
        rcases h with h | h
        · simp [h]
        · cases hc : p.cout with
          | nil => simp
          | cons c cs => rw [hc] at h; simpa using h
      show ((p.log l f n m).cout = [] ∨ (p.log l f n m).cout.head? = some '[') ∧ (p.cout ≠ [] → (p.log l f n m).cout ≠ [])
      unfold Proc.log Proc.put
      split
      · split
        · exact ⟨h, id⟩
        · exact key
      · split
        · split
          · exact ⟨h, id⟩
          · exact key
        · exact ⟨h, id⟩
    | flush k => exact absurd rfl (hf k)
    | _ => exact ⟨h, id⟩

theorem flow_run {base : Bytes} {S : Seg → Prop} (hS : ∀ x, '\r' ∉ x → S (.text x)) : ∀ (ops : List POp) (p : Proc), Flow base S p →
    '\r' ∉ p.cout → (∀ q, .io (.enqueue q) ∈ ops → S (.msg q)) →
    (∀ l f n m, .log l f n m ∈ ops → '\r' ∉ f ∧ '\r' ∉ m) → Between p ops → Flow base S (p.run ops)
  | [], _, h, _, _, _, _ => h
  | op :: ops, p, h, hc, hm, hl, hb => by
    refine flow_run hS ops (p.step op) (flow_step h (fun q e => hm q (by simp [e])) ?_)
      (cout_no_cr_step hc (fun l f n m e => hl l f n m (by simp [e]))) (fun q hq => hm q (by simp [hq]))
      (fun l f n m hq => hl l f n m (by simp [hq])) hb.2
    intro k hk
    exact ⟨hS _ (fun hh => hc (List.mem_of_mem_take hh)), hb.1 k hk⟩

/-- Before anything is passed on, standard output has whole messages and the beginning of one. -/
theorem flow_pre {S : Seg → Prop} : ∀ (ops : List POp) (p : Proc), Flow [] S p → (∀ k, .flush k ∉ ops) →
    (∀ q, .io (.enqueue q) ∈ ops → S (.msg q)) → Flow [] S (p.run ops)
  | [], _, h, _, _ => h
  | op :: ops, p, h, hf, hm => by
    refine flow_pre ops (p.step op) (flow_step h (fun q e => hm q (by simp [e])) ?_) (fun k hk => hf k (by simp [hk]))
      (fun q hq => hm q (by simp [hq]))
    intro k hk
    exact absurd (by simp [hk]) (hf k)

theorem cout_pre : ∀ (ops : List POp) (p : Proc), (p.cout = [] ∨ p.cout.head? = some '[') → '\r' ∉ p.cout → (∀ k, .flush k ∉ ops) →
    (∀ l f n m, .log l f n m ∈ ops → '\r' ∉ f ∧ '\r' ∉ m) →
    ((p.run ops).cout = [] ∨ (p.run ops).cout.head? = some '[') ∧ '\r' ∉ (p.run ops).cout ∧ (p.cout ≠ [] → (p.run ops).cout ≠ [])
  | [], _, h, hc, _, _ => ⟨h, hc, id⟩
  | op :: ops, p, h, hc, hf, hl => by
    have h1 := cout_head_step (op := op) h (fun k hk => hf k (by simp [hk]))
    have h2 := cout_pre ops (p.step op) h1.1 (cout_no_cr_step hc (fun l f n m e => hl l f n m (by simp [e])))
      (fun k hk => hf k (by simp [hk])) (fun l f n m hq => hl l f n m (by simp [hq]))
    exact ⟨h2.1, h2.2.1, fun hh => h2.2.2 (h1.2 hh)⟩

theorem run_exited : ∀ (ops : List POp) (p : Proc), p.exited = true → p.run ops = p
  | [], _, _ => rfl
  | op :: ops, p, h => by
    have : p.step op = p := by unfold Proc.step; rw [if_pos h]
    show (p.step op).run ops = p
    rw [this]; exact run_exited ops p h

theorem flow_init (e : Env) (S : Seg → Prop) : Flow [] S (Proc.init e) :=
  ⟨by simp [Proc.init, W.init], fun _ => ⟨[], [], rfl, by simp, rfl⟩, ⟨[], [], rfl, by simp⟩⟩

theorem msgs_of {segs : List Seg} {T : Bytes → Prop} (h : ∀ s ∈ segs, ∃ q, s = .msg q ∧ T q) :
    ∃ ps : List Bytes, (segs.map Seg.bytes).flatten = (ps.map encode).flatten ∧ ∀ p ∈ ps, T p := by
  induction segs with
  | nil => exact ⟨[], rfl, by simp⟩
  | cons s segs ih =>
    obtain ⟨q, rfl, hq⟩ := h s (by simp)
    obtain ⟨ps, h1, h2⟩ := ih (fun x hx => h x (by simp [hx]))
    refine ⟨q :: ps, by simp [Seg.bytes, h1], ?_⟩
    intro p hp
    rcases List.mem_cons.1 hp with rfl | hp
    · exact hq
    · exact h2 p hp

end Log

/-- C100 is false without `MCP_STDIO_MODE`: the first byte of the log that is passed on to standard output, at whatever time between two
messages, ends the conversation. Whatever is sent and logged later, whatever the time it is passed on between messages, the other
side never reads another message: the entry becomes the name of a header field, the message is dropped for want of a length, its
text takes the place of the entry before the next message, and so on. -/
theorem C100_lost_counterexample (e : Env) (pre post : List POp) (k max : Nat) (stay : List Bytes → Bool) (cs : List Bytes)
    (hpre : ∀ k, .flush k ∉ pre)
    (hmsg : ∀ q, .io (.enqueue q) ∈ pre ++ post → Braced q ∧ q.length ≤ max ∧ (encode q).length ≤ sizeMax)
    (hlog : ∀ l f n m, .log l f n m ∈ pre ++ post → '\r' ∉ f ∧ '\r' ∉ m)
    (hk : 0 < k) (hcout : ((Proc.init e).run pre).cout ≠ [])
    (hb : Between ((Proc.init e).run pre) (.flush k :: post))
    (hcs : cs.flatten = ((Proc.init e).run (pre ++ .flush k :: post)).wire) :
    (feedAll max stay cs).delivered = (feedAll max stay [((Proc.init e).run pre).wire]).delivered := by
  have hflow := flow_pre (S := fun s => ∃ q, s = .msg q ∧ Braced q ∧ q.length ≤ max ∧ (encode q).length ≤ sizeMax) pre (Proc.init e)
    (flow_init e _) hpre (fun q hq => ⟨q, rfl, hmsg q (by simp [hq])⟩)
  have hc := cout_pre pre (Proc.init e) (Or.inl rfl) (by simp [Proc.init]) hpre (fun l f n m h => hlog l f n m (by simp [h]))
  rw [run_append] at hcs
  generalize (Proc.init e).run pre = p at *
  have hall := feedAll_flatten (max := max) (stay := stay) cs
  have hone := feedAll_flatten (max := max) (stay := stay) [p.wire]
  rw [hall.1, hone.1, hcs]
  simp only [List.flatten_cons, List.flatten_nil, List.append_nil]
  by_cases hx : p.exited = true
  · rw [run_exited _ _ hx]
  -- what the other side has read before
  obtain ⟨h1, h2⟩ := hb.1 k rfl
  obtain ⟨segs, tail, h3, h4, h5⟩ := hflow.now h1
  rw [h2] at h5
  simp only at h5
  subst h5
  rw [List.append_nil, List.nil_append] at h3
  obtain ⟨ps, h6, h7⟩ := msgs_of h4
  rw [h6] at h3
  -- the first piece of the log
  have hstep : p.step (.flush k) = { p with wire := p.wire ++ p.cout.take k, cout := p.cout.drop k } := by
    unfold Proc.step; rw [if_neg hx]
  have hpiece : '\r' ∉ p.cout.take k ∧ (p.cout.take k).head? = some '[' := by
    refine ⟨fun h => hc.2.1 (List.mem_of_mem_take h), ?_⟩
    rcases hc.1 with h | h
    · exact absurd h hcout
    · cases hp : p.cout with
      | nil => exact absurd hp hcout
      | cons c r =>
        rw [hp] at h
        cases k with
        | zero => exact absurd hk (Nat.lt_irrefl _)
        | succ k => simpa using h
  -- what follows
  have hpost := flow_run (base := p.wire ++ p.cout.take k) (S := Seg.Ok) (fun x hx => hx) post (p.step (.flush k))
    (by
      rw [hstep]
      refine ⟨?_, fun _ => ⟨[], [], by simp, by simp, ?_⟩, ⟨[], [], by simp, by simp⟩⟩
      · intro f hf
        obtain ⟨q, hq, q', hq', hq2⟩ := hflow.queue f hf
        cases hq'
        exact ⟨q, hq, hq2.1⟩
      · simp only [h2])
    (by rw [hstep]; exact fun h => hc.2.1 (List.mem_of_mem_drop h))
    (fun q hq => (hmsg q (by simp [hq])).1) (fun l f n m h => hlog l f n m (by simp [h])) hb.2
  obtain ⟨more, tail, h8, h9⟩ := hpost.any
  show (feed max stay Reader.init ((p.step (.flush k)).run post).wire).delivered = _
  -- the reader
  have hA : (feed max stay (feed max stay Reader.init p.wire) (p.cout.take k ++ (more.map Seg.bytes).flatten)).delivered =
      (feed max stay Reader.init p.wire).delivered := by
    by_cases hcon : (feed max stay Reader.init p.wire).connected = true
    · have hbuf : (feed max stay Reader.init p.wire).buf = [] := by
        rw [h3] at hcon ⊢
        exact feed_frames ps Reader.init (fun q hq => (h7 q hq).2) rfl hcon
      rw [(feed_append _ _ _).1, feed_text hcon (by simp [hbuf]) hpiece.1, hbuf]
      exact feed_stale more _ ⟨hpiece.1, '[', hpiece.2, by decide⟩ h9
    · rw [feed, if_neg hcon]
  apply List.IsPrefix.eq_of_length_le
  · have hlong : (feed max stay Reader.init ((p.step (.flush k)).run post).wire).delivered <+:
        (feed max stay Reader.init p.wire).delivered := by
      rw [← hA, ← (feed_append Reader.init p.wire _).1, ← List.append_assoc, ← h8, (feed_append Reader.init _ tail).1]
      exact feed_delivered _ _
    exact hlong
  · -- and what was read before is not taken back
    have : (feed max stay Reader.init p.wire).delivered <+:
        (feed max stay Reader.init ((p.step (.flush k)).run post).wire).delivered := by
      have hw : ∃ y, ((p.step (.flush k)).run post).wire = p.wire ++ y := by
        have : ∀ (ops : List POp) (q : Proc), q.wire <+: (q.run ops).wire := by
          intro ops
          induction ops with
          | nil => intro q; exact List.prefix_rfl
          | cons op ops ih =>
            intro q
            refine List.IsPrefix.trans ?_ (ih (q.step op))
            unfold Proc.step
            split
            · exact List.prefix_rfl
            · cases op with
              | log l f n m =>
                show q.wire <+: (q.log l f n m).wire
                rw [(log_frame ..).1]
                exact List.prefix_rfl
              | io op => exact List.prefix_append _ _
              | flush k => exact List.prefix_append _ _
              | setLevel s => exact List.prefix_rfl
              | openLog s ok => exact List.prefix_rfl
        have h := (this [.flush k] p).trans (this post _)
        obtain ⟨y, hy⟩ := h
        exact ⟨y, hy.symm⟩
      obtain ⟨y, hy⟩ := hw
      rw [hy, (feed_append Reader.init p.wire y).1]
      exact feed_delivered _ _
    exact this.length_le

/-- A concrete execution: two messages, then a log entry is passed on, then another message: the first two are read. -/
example : let pre : List POp := [.io (.enqueue (lit "{\"a\":1}")), .io .dequeue, .io (.write 99), .io .finish,
      .log .info (lit "a.cpp") 7 (lit "hello")]
    let post : List POp := [.io (.enqueue (lit "{\"b\":2}")), .io .dequeue, .io (.write 99), .io .finish]
    ((Proc.init ⟨none, none⟩).run pre).cout ≠ [] ∧ ((Proc.init ⟨none, none⟩).run pre).w.connected = true ∧
    ((Proc.init ⟨none, none⟩).run pre).w.cur = none ∧
    (feedAll 100 (fun _ => true) [((Proc.init ⟨none, none⟩).run (pre ++ .flush 99 :: post)).wire]).delivered = [lit "{\"a\":1}"] ∧
    ((Proc.init ⟨none, none⟩).run (pre ++ .flush 99 :: post)).w.accepted = [lit "{\"a\":1}", lit "{\"b\":2}"] := by
  decide +kernel

/-- C100 is false of the default settings. `Start` itself logs an entry to standard output; if it is passed on before the first message
is written, the other side never reads anything. -/
theorem C100_default_counterexample (src : Bytes) (pre post : List POp) (k max : Nat) (stay : List Bytes → Bool) (cs : List Bytes)
    (hsrc : '\r' ∉ src) (hpre : ∀ op ∈ pre, (∃ q, op = .io (.enqueue q)) ∨ (∃ l f n m, op = .log l f n m) ∨ op = .io .finish)
    (hmsg : ∀ q, .io (.enqueue q) ∈ pre ++ post → Braced q ∧ q.length ≤ max ∧ (encode q).length ≤ sizeMax)
    (hlog : ∀ l f n m, .log l f n m ∈ pre ++ post → '\r' ∉ f ∧ '\r' ∉ m)
    (hk : 0 < k) (hb : Between (((Proc.init ⟨none, none⟩).start src).run pre) (.flush k :: post))
    (hcs : cs.flatten = (((Proc.init ⟨none, none⟩).start src).run (pre ++ .flush k :: post)).wire) :
    (feedAll max stay cs).delivered = [] := by
  have hstart : ∀ ops, ((Proc.init ⟨none, none⟩).start src).run ops =
      (Proc.init ⟨none, none⟩).run (.log .info src 1031 (lit "Starting StdioTransport") :: ops) := fun _ => rfl
  have hne : ((Proc.init ⟨none, none⟩).start src).cout ≠ [] ∧
      ((Proc.init ⟨none, none⟩).start src).cout.head? = some '[' ∧ '\r' ∉ ((Proc.init ⟨none, none⟩).start src).cout := by
    have h1 : ((Proc.init ⟨none, none⟩).start src).cout = line ⟨none, none⟩ .info src 1031 (lit "Starting StdioTransport") := rfl
    obtain ⟨r, hr⟩ := line_head ⟨none, none⟩ .info src (lit "Starting StdioTransport") 1031
    refine ⟨by rw [h1, hr]; simp, by rw [h1, hr]; rfl, ?_⟩
    rw [h1]
    exact line_no_cr hsrc (by decide)
  have hnf : ∀ k, POp.flush k ∉ pre := by
    intro k hk
    rcases hpre _ hk with ⟨q, h⟩ | ⟨l, f, n, m, h⟩ | h <;> cases h
  have hcout := (cout_pre pre ((Proc.init ⟨none, none⟩).start src) (Or.inr hne.2.1) hne.2.2 hnf
    (fun l f n m h => hlog l f n m (by simp [h]))).2.2 hne.1
  have hwire : ∀ (ops : List POp) (p : Proc), (∀ op ∈ ops, (∃ q, op = .io (.enqueue q)) ∨ (∃ l f n m, op = .log l f n m) ∨ op = .io .finish) →
      (p.run ops).wire = p.wire := by
    intro ops
    induction ops with
    | nil => intro p _; rfl
    | cons op ops ih =>
      intro p h
      refine (ih (p.step op) (fun x hx => h x (by simp [hx]))).trans ?_
      unfold Proc.step
      split
      · rfl
      · rcases h op (by simp) with ⟨q, rfl⟩ | ⟨l, f, n, m, rfl⟩ | rfl
        · simp only [W.step, W.enqueue]
          split <;> simp
        · exact (log_frame ..).1
        · simp only [W.step, W.finish]
          split
          · split <;> simp
          · simp
  have := C100_lost_counterexample ⟨none, none⟩ (.log .info src 1031 (lit "Starting StdioTransport") :: pre) post k max stay cs
    (by
      intro k hk
      rcases List.mem_cons.1 hk with h | h
      · cases h
      · exact hnf k h)
    (by
      intro q hq
      refine hmsg q ?_
      simpa using hq)
    (by
      intro l f n m hq
      rcases List.mem_cons.1 hq with h | h
      · cases h
        exact ⟨hsrc, by decide⟩
      · exact hlog l f n m h)
    hk (by rw [← hstart]; exact hcout) (by rw [← hstart]; exact hb) (by rw [hcs, hstart]; rfl)
  rw [this, ← hstart, hwire pre _ hpre]
  have h0 : ((Proc.init ⟨none, none⟩).start src).wire = [] := (log_frame ..).1
  rw [h0]
  show (feed max stay Reader.init []).delivered = []
  rw [feed_nil_init]
  rfl

/-- A concrete execution of this kind. -/
example : let pre : List POp := []
    let post : List POp := [.io (.enqueue (lit "{\"b\":2}")), .io .dequeue, .io (.write 99), .io .finish, .flush 9]
    Between (((Proc.init ⟨none, none⟩).start (lit "src/mcp/StdioTransport.cpp")).run pre) (.flush 70 :: post) ∧
      (((Proc.init ⟨none, none⟩).start (lit "src/mcp/StdioTransport.cpp")).run (pre ++ .flush 70 :: post)).w.out = encode (lit "{\"b\":2}") := by
  refine ⟨⟨fun _ _ => by decide +kernel, ⟨fun _ h => by (cases h), ⟨fun _ h => by (cases h), ⟨fun _ h => by (cases h), ⟨fun _ h => by (cases h),
    ⟨fun _ _ => by decide +kernel, trivial⟩⟩⟩⟩⟩⟩, by decide +kernel⟩

end Verif
