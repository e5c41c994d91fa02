import Verif.Stdio.DuplexLemmas
import Verif.Stdio.ServeLemmas

/-! Helper lemmas for C114: the invariant of a pair of stdio transports holds in every execution. -/

namespace Verif.Duplex

open Verif.Stdio Verif.Framer
open Verif.Serve (Prog Ev event stamped no_new_response)

variable {D : Type} [DblFmt D]

theorem requestsIn_append (a b : List Bytes) : requestsIn (D := D) (a ++ b) = requestsIn a ++ requestsIn b := List.filterMap_append

theorem notesIn_append (a b : List Bytes) : notesIn (D := D) (a ++ b) = notesIn a ++ notesIn b := List.filterMap_append

/-- What the other side does leaves what was read as it is. -/
theorem Reads.peer {e : End D} {w v : W} (h : Reads e w) (ho : w.out <+: v.out) (ha : w.accepted <+: v.accepted) : Reads e v := by
  refine ⟨?_, Nat.le_trans h.le ho.length_le, h.order.trans ha⟩
  rw [h.bytes]
  obtain ⟨x, hx⟩ := ho
  rw [← hx, List.take_append_of_le_length h.le]

theorem Reads.same {e f : End D} {w : W} (h : Reads e w) (hg : f.got = e.got) (hb : f.buf = e.buf) (ht : f.taken = e.taken) : Reads f w :=
  ⟨by rw [hg, hb, ht]; exact h.bytes, by rw [hg]; exact h.le, by rw [ht]; exact h.order⟩

/-- What stays when a message is handed on. -/
theorem process_keeps (h : Request D → Prog D) (e : End D) (m : Bytes) :
    (e.process h m).got = e.got ∧ (e.process h m).buf = e.buf ∧ (e.process h m).taken = e.taken ∧ (e.process h m).ready = e.ready ∧
    (e.process h m).given = e.given ∧ (e.process h m).notes = e.notes ∧ (e.process h m).replies = e.replies ∧ (e.process h m).p.sent = e.p.sent ∧
    (e.process h m).told = e.told := by
  unfold End.process
  split
  · refine ⟨rfl, rfl, rfl, rfl, rfl, rfl, rfl, ?_, rfl⟩
    exact (complete_fields _ _ _).2.2.1
  · exact ⟨rfl, rfl, rfl, rfl, rfl, rfl, rfl, rfl, rfl⟩
  · exact ⟨rfl, rfl, rfl, rfl, rfl, rfl, rfl, rfl, rfl⟩
  · exact ⟨rfl, rfl, rfl, rfl, rfl, rfl, rfl, rfl, rfl⟩

theorem reads_step (max : Nat) (h : Request D → Prog D) {e : End D} {w : W} (hr : Reads e w) (hi : w.Inv) (hs : Sized w) (op : EndOp D) :
    Reads (e.step max h w.out op) w := by
  have hw : ∀ (e' : End D) wop, e'.got = e.got → e'.buf = e.buf → e'.taken = e.taken → Reads (e'.writes wop) w := by
    intro e' wop h1 h2 h3
    have ha := writes_aside e' wop
    exact hr.same (ha.got.trans h1) (ha.buf.trans h2) (ha.taken.trans h3)
  cases op with
  | check q => exact hr.same rfl rfl rfl
  | file n now => simp only [End.step, End.file]; split <;> exact hr.same rfl rfl rfl
  | note n => simp only [End.step, End.note]; split <;> exact hr.same rfl rfl rfl
  | push i =>
    simp only [End.step, End.push]
    split
    · exact hw _ _ rfl rfl rfl
    · exact hr
  | dequeue => exact hw _ _ rfl rfl rfl
  | write k => exact hw _ _ rfl rfl rfl
  | writeFail => exact hw _ _ rfl rfl rfl
  | finish => exact hw _ _ rfl rfl rfl
  | setMax n => exact hw _ _ rfl rfl rfl
  | read k =>
    simp only [End.step, End.read]; split
    · refine ⟨?_, ?_, hr.order⟩
      · simp only
        rw [← List.append_assoc, hr.bytes, List.take_add, List.length_take, List.length_drop]
        congr 1
        rw [← List.length_drop, ← List.take_eq_take_min]
      · simp only [List.length_take, List.length_drop]
        have := hr.le
        omega
    · exact hr
  | decode =>
    simp only [End.step, End.decode]
    split
    · rcases decode_cases hr hi hs max with h1 | ⟨m, rest, tail, h1, h2, h3, h4⟩ | ⟨m, rest, k, h1, h2, h3⟩
      · rw [h1]; exact hr
      · rw [h4]
        simp only
        have hk := process_keeps h { e with buf := if 0 < (encode m).length ∧ (encode m).length ≤ e.buf.length then e.buf.drop (encode m).length else e.buf, taken := e.taken ++ [m] } m
        refine ⟨?_, ?_, ?_⟩
        · rw [hk.1, hk.2.1, hk.2.2.1]
          simp only
          have hl := (tryDecodeEx_ok h4).2
          rw [if_pos hl, wire_append, List.append_assoc, ← hr.bytes]
          rw [h2]
          simp [wire]
        · rw [hk.1]; exact hr.le
        · rw [hk.2.2.1, h1]
          exact ⟨rest, by simp⟩
      · rw [h3]; exact hr.same rfl rfl rfl
    · exact hr
  | work b =>
    simp only [End.step, End.work]
    split
    · exact hr
    · split
      · exact hw _ _ rfl rfl rfl
      · exact hr.same rfl rfl rfl
      · exact hr.same rfl rfl rfl
      · split <;> exact hr.same rfl rfl rfl
  | sweep now => exact hr.same rfl rfl rfl
  | cut => exact hr.same rfl rfl rfl
  | close => exact hr.same rfl rfl rfl
  | setTimeout t => exact hr.same rfl rfl rfl

/-- The requests taken are those answered and the one under way; the notifications taken were handed on. -/
structure Served (e : End D) : Prop where
  jobs : requestsIn e.taken = e.replies.map (·.1) ++ (e.job.map (·.req)).toList
  heard : e.heard = notesIn e.taken

theorem served_step (max : Nat) (h : Request D → Prog D) (sent : Bytes) {e : End D} (hs : Served e) (op : EndOp D) : Served (e.step max h sent op) := by
  have same : ∀ f : End D, f.taken = e.taken → f.replies = e.replies → f.job = e.job → f.heard = e.heard → Served f := by
    intro f h1 h2 h3 h4
    exact ⟨by rw [h1, h2, h3]; exact hs.jobs, by rw [h4, h1]; exact hs.heard⟩
  have hw : ∀ (e' : End D) wop, e'.taken = e.taken → e'.replies = e.replies → e'.job = e.job → e'.heard = e.heard → Served (e'.writes wop) := by
    intro e' wop h1 h2 h3 h4
    have ha := writes_aside e' wop
    exact same _ (ha.taken.trans h1) (ha.replies.trans h2) (ha.job.trans h3) (ha.heard.trans h4)
  cases op with
  | check q => exact same _ rfl rfl rfl rfl
  | file n now => simp only [End.step, End.file]; split <;> exact same _ rfl rfl rfl rfl
  | note n => simp only [End.step, End.note]; split <;> exact same _ rfl rfl rfl rfl
  | push i =>
    simp only [End.step, End.push]
    split
    · exact hw _ _ rfl rfl rfl rfl
    · exact hs
  | dequeue => exact hw _ _ rfl rfl rfl rfl
  | write k => exact hw _ _ rfl rfl rfl rfl
  | writeFail => exact hw _ _ rfl rfl rfl rfl
  | finish => exact hw _ _ rfl rfl rfl rfl
  | setMax n => exact hw _ _ rfl rfl rfl rfl
  | read k => simp only [End.step, End.read]; split <;> exact same _ rfl rfl rfl rfl
  | decode =>
    simp only [End.step, End.decode]
    split
    · rename_i hc
      have hj : e.job = none := by simpa using hc.2
      have hjobs := hs.jobs
      rw [hj] at hjobs
      split
      · exact hs
      · rename_i m k _
        unfold End.process
        split
        all_goals rename_i hev
        · refine ⟨?_, ?_⟩
          · simp only [requestsIn_append, hjobs, hj]; simp [requestsIn, hev]
          · simp only [notesIn_append, hs.heard]; simp [notesIn, hev]
        · refine ⟨?_, ?_⟩
          · simp only [requestsIn_append, hjobs]; simp [requestsIn, hev]
          · simp only [notesIn_append, hs.heard]; simp [notesIn, hev]
        · refine ⟨?_, ?_⟩
          · simp only [requestsIn_append, hjobs, hj]; simp [requestsIn, hev]
          · simp only [notesIn_append, hs.heard]; simp [notesIn, hev]
        · refine ⟨?_, ?_⟩
          · simp only [requestsIn_append, hjobs, hj]; simp [requestsIn, hev]
          · simp only [notesIn_append, hs.heard]; simp [notesIn, hev]
      · exact same _ rfl rfl rfl rfl
      · exact same _ rfl rfl rfl rfl
    · exact hs
  | work b =>
    simp only [End.step, End.work]
    split
    · exact hs
    · rename_i j hj
      have hjobs := hs.jobs
      rw [hj] at hjobs
      split
      · rename_i o _
        have ha := writes_aside { e with job := none, replies := e.replies ++ [(j.req, o)] } (.enqueue (serResponse (replyFor j.req o)))
        refine ⟨?_, ?_⟩
        · rw [ha.taken, ha.replies, ha.job]
          simp only
          rw [hjobs]; simp
        · rw [ha.heard, ha.taken]; exact hs.heard
      · exact ⟨by simp only; rw [hjobs]; rfl, hs.heard⟩
      · exact ⟨by simp only [End.check]; rw [hjobs]; rfl, hs.heard⟩
      · split
        · exact hs
        · exact ⟨by simp only; rw [hjobs]; rfl, hs.heard⟩
  | sweep now => exact same _ rfl rfl rfl rfl
  | cut => exact same _ rfl rfl rfl rfl
  | close => exact same _ rfl rfl rfl rfl
  | setTimeout t => exact same _ rfl rfl rfl rfl

/-! ### What is queued comes from somewhere -/

/-- What was sent stays known. -/
theorem sent_mono (s : P D) (op : POp D) : s.sent <+: (s.step op).sent := by
  cases op with
  | sendCheck id => simp only [P.step, P.sendCheck]; split <;> exact List.prefix_rfl
  | sendInsert n now =>
    simp only [P.step, P.sendInsert]; split
    · exact List.prefix_rfl
    · exact List.prefix_append _ _
  | response r => simp only [P.step]; rw [(complete_fields _ _ _).2.2.1]; exact List.prefix_rfl
  | sweep now =>
    simp only [P.step, P.sweep]; split
    · rw [(sweepList_fields now _ _).2.2.1]; exact List.prefix_rfl
    · exact List.prefix_rfl
  | disconnect => exact List.prefix_rfl
  | close => exact List.prefix_rfl
  | setTimeout t => exact List.prefix_rfl

/-- The history grows. -/
structure Grows (e f : End D) : Prop where
  given : e.given <+: f.given
  notes : e.notes <+: f.notes
  taken : e.taken <+: f.taken
  replies : e.replies <+: f.replies
  sent : e.p.sent <+: f.p.sent
  outcomes : e.p.outcomes <+: f.p.outcomes
  accepted : e.w.accepted <+: f.w.accepted
  out : e.w.out <+: f.w.out

theorem grows_step (max : Nat) (h : Request D → Prog D) (sent : Bytes) (e : End D) (op : EndOp D) : Grows e (e.step max h sent op) := by
  have hs : e.p.sent <+: (e.step max h sent op).p.sent := by
    rcases step_p max h sent e op with h1 | ⟨pop, h1⟩
    · rw [h1]; exact List.prefix_rfl
    · rw [h1]; exact sent_mono _ _
  have ho : e.p.outcomes <+: (e.step max h sent op).p.outcomes := by
    rcases step_p max h sent e op with h1 | ⟨pop, h1⟩
    · rw [h1]; exact List.prefix_rfl
    · rw [h1]; exact outcomes_mono _ _
  have hw : e.w.out <+: (e.step max h sent op).w.out ∧ e.w.accepted <+: (e.step max h sent op).w.accepted := by
    rcases step_w max h sent e op with h1 | ⟨wop, h1, -⟩
    · rw [h1]; exact ⟨List.prefix_rfl, List.prefix_rfl⟩
    · rw [h1]; exact wstep_mono _ _
  have key : e.given <+: (e.step max h sent op).given ∧ e.notes <+: (e.step max h sent op).notes ∧ e.taken <+: (e.step max h sent op).taken ∧
      e.replies <+: (e.step max h sent op).replies := by
    have hw' : ∀ (e' : End D) wop, e.given <+: e'.given → e.notes <+: e'.notes → e.taken <+: e'.taken → e.replies <+: e'.replies →
        e.given <+: (e'.writes wop).given ∧ e.notes <+: (e'.writes wop).notes ∧ e.taken <+: (e'.writes wop).taken ∧ e.replies <+: (e'.writes wop).replies := by
      intro e' wop h1 h2 h3 h4
      have ha := writes_aside e' wop
      rw [ha.given, ha.notes, ha.taken, ha.replies]
      exact ⟨h1, h2, h3, h4⟩
    have r : ∀ {α : Type} (l : List α), l <+: l := fun _ => List.prefix_rfl
    cases op with
    | check q => exact ⟨List.prefix_append _ _, r _, r _, r _⟩
    | file n now => simp only [End.step, End.file]; split <;> exact ⟨r _, r _, r _, r _⟩
    | note n =>
      simp only [End.step, End.note]; split
      · exact ⟨r _, List.prefix_append _ _, r _, r _⟩
      · exact ⟨r _, r _, r _, r _⟩
    | push i =>
      simp only [End.step, End.push]
      split
      · exact hw' _ _ (r _) (r _) (r _) (r _)
      · exact ⟨r _, r _, r _, r _⟩
    | dequeue => exact hw' _ _ (r _) (r _) (r _) (r _)
    | write k => exact hw' _ _ (r _) (r _) (r _) (r _)
    | writeFail => exact hw' _ _ (r _) (r _) (r _) (r _)
    | finish => exact hw' _ _ (r _) (r _) (r _) (r _)
    | setMax n => exact hw' _ _ (r _) (r _) (r _) (r _)
    | read k => simp only [End.step, End.read]; split <;> exact ⟨r _, r _, r _, r _⟩
    | decode =>
      simp only [End.step, End.decode]
      split
      · split
        · exact ⟨r _, r _, r _, r _⟩
        · rename_i m k _
          have hk := process_keeps h { e with buf := if 0 < k ∧ k ≤ e.buf.length then e.buf.drop k else e.buf, taken := e.taken ++ [m] } m
          rw [hk.2.2.1, hk.2.2.2.2.1, hk.2.2.2.2.2.1, hk.2.2.2.2.2.2.1]
          exact ⟨r _, r _, List.prefix_append _ _, r _⟩
        · exact ⟨r _, r _, r _, r _⟩
        · exact ⟨r _, r _, r _, r _⟩
      · exact ⟨r _, r _, r _, r _⟩
    | work b =>
      simp only [End.step, End.work]
      split
      · exact ⟨r _, r _, r _, r _⟩
      · split
        · exact hw' _ _ (r _) (r _) (r _) (List.prefix_append _ _)
        · exact ⟨r _, r _, r _, r _⟩
        · exact ⟨List.prefix_append _ _, r _, r _, r _⟩
        · split <;> exact ⟨r _, r _, r _, r _⟩
    | sweep now => exact ⟨r _, r _, r _, r _⟩
    | cut => exact ⟨r _, r _, r _, r _⟩
    | close => exact ⟨r _, r _, r _, r _⟩
    | setTimeout t => exact ⟨r _, r _, r _, r _⟩
  exact ⟨key.1, key.2.1, key.2.2.1, key.2.2.2, hs, ho, hw.2, hw.1⟩

theorem get_prefix {α : Type} {l k : List α} (h : l <+: k) {n : Nat} {x : α} (hx : l[n]? = some x) : k[n]? = some x := by
  obtain ⟨t, rfl⟩ := h
  rw [List.getElem?_append_left (List.getElem?_eq_some_iff.1 hx).1]; exact hx

theorem Origin.mono {e f : End D} (h : Grows e f) {m : Bytes} (hm : Origin e m) : Origin f m := by
  cases hm with
  | request h1 h2 => exact .request (h.sent.subset h1) (get_prefix h.given h2)
  | note h1 => exact .note (h.notes.subset h1)
  | reply h1 => exact .reply (h.replies.subset h1)

theorem enqueue_accepted (s : W) (m x : Bytes) (h : x ∈ (s.step (.enqueue m)).accepted) : x ∈ s.accepted ∨ x = m := by
  revert h
  simp only [W.step, W.enqueue]
  split
  · exact .inl
  · simp only [List.mem_append, List.mem_singleton]; exact id

theorem other_accepted (s : W) (op : WOp) (h : ∀ m, op ≠ .enqueue m) : (s.step op).accepted = s.accepted := by
  cases op with
  | enqueue p => exact absurd rfl (h p)
  | dequeue => simp only [W.step, W.dequeue]; split <;> rfl
  | write k => simp only [W.step, W.write]; split <;> (try split) <;> rfl
  | writeFail => simp only [W.step, W.writeFail]; split <;> (try split) <;> rfl
  | finish => simp only [W.step, W.finish]; split <;> (try split) <;> rfl
  | disconnect => rfl
  | setMax n => rfl

theorem origin_step (max : Nat) (h : Request D → Prog D) (sent : Bytes) {e : End D} (hh : ∃ pops, Hist e pops)
    (ho : ∀ m, m ∈ e.w.accepted ∨ m ∈ e.ready → Origin e m) (op : EndOp D) :
    ∀ m, m ∈ (e.step max h sent op).w.accepted ∨ m ∈ (e.step max h sent op).ready → Origin (e.step max h sent op) m := by
  have hg := grows_step max h sent e op
  -- it suffices that the queue and the payloads waiting are old, or new and accounted for
  have key : (∀ m, m ∈ (e.step max h sent op).w.accepted ∨ m ∈ (e.step max h sent op).ready →
      (m ∈ e.w.accepted ∨ m ∈ e.ready) ∨ Origin (e.step max h sent op) m) →
      ∀ m, m ∈ (e.step max h sent op).w.accepted ∨ m ∈ (e.step max h sent op).ready → Origin (e.step max h sent op) m := by
    intro hk m hm
    rcases hk m hm with h1 | h1
    · exact (ho m h1).mono hg
    · exact h1
  have hw : ∀ wop, (∀ m, wop ≠ .enqueue m) → ∀ m, m ∈ (e.writes wop).w.accepted ∨ m ∈ (e.writes wop).ready → m ∈ e.w.accepted ∨ m ∈ e.ready := by
    intro wop hne m hm
    rw [writes_w, other_accepted _ _ hne, (writes_aside e wop).ready] at hm
    exact hm
  apply key
  cases op with
  | check q => intro m hm; exact .inl hm
  | file n now =>
    intro m hm
    revert hm
    simp only [End.step, End.file]
    split
    · rename_i id q h1 h2
      intro hm
      rcases hm with hm | hm
      · exact .inl (.inl hm)
      simp only [List.mem_append, List.mem_singleton] at hm
      rcases hm with hm | rfl
      · exact .inl (.inr hm)
      · right
        have : (n, (chooseKey id e.p.counter).1, now + e.p.timeout) ∈ (e.p.step (.sendInsert n now)).sent := by
          simp only [P.step, P.sendInsert, h1]
          simp
        exact Origin.request this h2
    · intro hm; exact .inl hm
  | note n =>
    intro m hm
    revert hm
    simp only [End.step, End.note]
    split
    · intro hm
      rcases hm with hm | hm
      · exact .inl (.inl hm)
      simp only [List.mem_append, List.mem_singleton] at hm
      rcases hm with hm | rfl
      · exact .inl (.inr hm)
      · right
        exact Origin.note (by simp)
    · intro hm; exact .inl hm
  | push i =>
    intro m hm
    revert hm
    simp only [End.step, End.push]
    split
    · rename_i x hx
      intro hm
      left
      rw [writes_w, (writes_aside _ _).ready] at hm
      rcases hm with hm | hm
      · rcases enqueue_accepted _ _ _ hm with h1 | rfl
        · exact .inl h1
        · exact .inr (List.mem_of_getElem? hx)
      · exact .inr (List.mem_of_mem_eraseIdx hm)
    · intro hm; exact .inl hm
  | dequeue => intro m hm; exact .inl (hw _ (by simp) m hm)
  | write k => intro m hm; exact .inl (hw _ (by simp) m hm)
  | writeFail => intro m hm; exact .inl (hw _ (by simp) m hm)
  | finish => intro m hm; exact .inl (hw _ (by simp) m hm)
  | setMax n => intro m hm; exact .inl (hw _ (by simp) m hm)
  | read k =>
    intro m hm
    revert hm
    simp only [End.step, End.read]; split <;> exact .inl
  | decode =>
    intro m hm
    revert hm
    simp only [End.step, End.decode]
    split
    · split
      · exact .inl
      · rename_i x k _
        rw [process_w, (process_keeps h { e with buf := if 0 < k ∧ k ≤ e.buf.length then e.buf.drop k else e.buf, taken := e.taken ++ [x] } x).2.2.2.1]
        exact .inl
      · exact .inl
      · exact .inl
    · exact .inl
  | work b =>
    intro m hm
    revert hm
    simp only [End.step, End.work]
    split
    · exact .inl
    · split
      · rename_i j _ _ _ o _ _
        intro hm
        rw [writes_w, (writes_aside _ _).ready] at hm
        rcases hm with hm | hm
        · rcases enqueue_accepted _ _ _ hm with h1 | rfl
          · exact .inl (.inl h1)
          · right
            refine Origin.reply ?_
            rw [(writes_aside _ _).replies]
            simp
        · exact .inl (.inr hm)
      · exact .inl
      · exact .inl
      · split <;> exact .inl
  | sweep now => intro m hm; exact .inl hm
  | cut => intro m hm; exact .inl hm
  | close => intro m hm; exact .inl hm
  | setTimeout t => intro m hm; exact .inl hm

/-! ### Both sides -/

theorem base_own (max : Nat) (h : Request D → Prog D) {e : End D} {w : W} (hb : Base e w) (hi : w.Inv) (hs : Sized w) (op : EndOp D) :
    Base (e.step max h w.out op) w := by
  have hw : (e.step max h w.out op).w.Inv ∧ Sized (e.step max h w.out op).w := by
    rcases step_w max h w.out e op with h1 | ⟨wop, h1, h2⟩
    · rw [h1]; exact ⟨hb.winv, hb.sized⟩
    · rw [h1]; exact ⟨winv_step _ _ hb.winv, sized_step hb.sized _ h2⟩
  have hsv := served_step max h w.out ⟨hb.jobs, hb.heard⟩ op
  exact ⟨conn_step max h _ hb.conn op, hw.1, hw.2, hist_step max h _ hb.hist op, reads_step max h hb.reads hi hs op, hsv.jobs, hsv.heard,
    origin_step max h _ hb.hist hb.origin op⟩

theorem Base.peer {e : End D} {w v : W} (hb : Base e w) (ho : w.out <+: v.out) (ha : w.accepted <+: v.accepted) : Base e v :=
  ⟨hb.conn, hb.winv, hb.sized, hb.hist, hb.reads.peer ho ha, hb.jobs, hb.heard, hb.origin⟩

theorem base_init (w : W) : Base (End.init : End D) w :=
  ⟨rfl, winv_init, sized_init, ⟨[], rfl, rfl, by simp⟩, ⟨by simp [End.init, wire], Nat.zero_le _, List.nil_prefix⟩, rfl, rfl,
    by simp [End.init, W.init]⟩

theorem get_set (s : Pair D) (x y : Bool) (e : End D) : (s.set x e).get y = if x = y then e else s.get y := by
  cases x <;> cases y <;> rfl

/-- The invariant of the pair. -/
def Good (s : Pair D) : Prop := ∀ y, Base (s.get y) (s.get (!y)).w

theorem step_get (c : Cfg D) (s : Pair D) (x : Bool) (op : EndOp D) (y : Bool) :
    (s.step c (x, op)).get y = if x = y then (s.get y).step (c.max y) (c.handler y) (s.get (!y)).w.out op else s.get y := by
  unfold Pair.step
  rw [get_set]
  split
  · rename_i h; cases h; rfl
  · rfl

theorem good_init : Good (Pair.init : Pair D) := by intro y; cases y <;> exact base_init _

theorem good_step (c : Cfg D) {s : Pair D} (hg : Good s) (x : Bool × EndOp D) : Good (s.step c x) := by
  obtain ⟨x, op⟩ := x
  intro y
  rw [step_get, step_get]
  by_cases hxy : x = y
  · subst hxy
    rw [if_pos rfl, if_neg (by cases x <;> simp)]
    exact base_own _ _ (hg x) (hg (!x)).winv (hg (!x)).sized op
  · have hx : x = !y := by cases x <;> cases y <;> simp_all
    rw [if_neg hxy, if_pos hx]
    have := grows_step (c.max (!y)) (c.handler (!y)) (s.get (!!y)).w.out (s.get (!y)) op
    exact (hg y).peer this.out this.accepted

theorem good_run (c : Cfg D) (ops : List (Bool × EndOp D)) : ∀ {s : Pair D}, Good s → Good (s.run c ops) := by
  induction ops with
  | nil => intro s h; exact h
  | cons op ops ih => intro s h; exact ih (good_step c h op)

theorem grows_pair (c : Cfg D) (s : Pair D) (x : Bool × EndOp D) (y : Bool) : Grows (s.get y) ((s.step c x).get y) := by
  obtain ⟨x, op⟩ := x
  rw [step_get]
  split
  · exact grows_step _ _ _ _ _
  · constructor <;> exact List.prefix_rfl

end Verif.Duplex
