import Verif.Stdio.Duplex
import Verif.Stdio.WriteLemmas
import Verif.Stdio.PendingSpec
import Verif.Framer.Lemmas

/-! Helper lemmas for C114: what every step of a pair of stdio transports keeps. -/

namespace Verif.Duplex

open Verif.Stdio Verif.Framer
open Verif.Serve (Prog Ev event stamped)

variable {D : Type} [DblFmt D]

/-! ### One side: which parts move -/

theorem writes_w (e : End D) (op : WOp) : (e.writes op).w = e.w.step op := by unfold End.writes; split <;> rfl

theorem writes_p (e : End D) (op : WOp) : (e.writes op).p = e.p ∨ (e.writes op).p = e.p.step .disconnect := by
  unfold End.writes; split
  · exact .inl rfl
  · exact .inr rfl

/-- The other parts are left alone. -/
structure Aside (e f : End D) : Prop where
  got : f.got = e.got
  buf : f.buf = e.buf
  job : f.job = e.job
  given : f.given = e.given
  notes : f.notes = e.notes
  taken : f.taken = e.taken
  replies : f.replies = e.replies
  heard : f.heard = e.heard
  told : f.told = e.told
  ready : f.ready = e.ready

theorem writes_aside (e : End D) (op : WOp) : Aside e (e.writes op) := by
  unfold End.writes; split <;> constructor <;> rfl

theorem process_w (h : Request D → Prog D) (e : End D) (m : Bytes) : (e.process h m).w = e.w := by
  unfold End.process; split <;> rfl

/-- The outgoing side moves by one of its own steps. -/
theorem step_w (max : Nat) (h : Request D → Prog D) (sent : Bytes) (e : End D) (op : EndOp D) :
    (e.step max h sent op).w = e.w ∨ ∃ wop, (e.step max h sent op).w = e.w.step wop ∧ (∀ n, wop = .setMax n → n ≤ sizeMax) := by
  cases op with
  | check q => exact .inl rfl
  | file n now => left; simp only [End.step, End.file]; split <;> rfl
  | note n => left; simp only [End.step, End.note]; split <;> rfl
  | push i =>
    simp only [End.step, End.push]
    split
    · right; exact ⟨_, writes_w _ _, by simp⟩
    · exact .inl rfl
  | dequeue => right; exact ⟨_, writes_w _ _, by simp⟩
  | write k => right; exact ⟨_, writes_w _ _, by simp⟩
  | writeFail => right; exact ⟨_, writes_w _ _, by simp⟩
  | finish => right; exact ⟨_, writes_w _ _, by simp⟩
  | setMax n => right; exact ⟨_, writes_w _ _, by intro m hm; cases hm; exact Nat.min_le_right _ _⟩
  | read k => left; simp only [End.step, End.read]; split <;> rfl
  | decode =>
    simp only [End.step, End.decode]
    split
    · split
      · exact .inl rfl
      · left; rw [process_w]
      · exact .inl rfl
      · right; exact ⟨.disconnect, rfl, by simp⟩
    · exact .inl rfl
  | work b =>
    simp only [End.step, End.work]
    split
    · exact .inl rfl
    · split
      · right; exact ⟨_, writes_w _ _, by simp⟩
      · exact .inl rfl
      · exact .inl rfl
      · split <;> exact .inl rfl
  | sweep now => exact .inl rfl
  | cut => right; exact ⟨.disconnect, rfl, by simp⟩
  | close => right; exact ⟨.disconnect, rfl, by simp⟩
  | setTimeout t => exact .inl rfl

/-- The pending requests move by steps of their own. -/
theorem step_p (max : Nat) (h : Request D → Prog D) (sent : Bytes) (e : End D) (op : EndOp D) :
    (e.step max h sent op).p = e.p ∨ ∃ pop, (e.step max h sent op).p = e.p.step pop := by
  have hw : ∀ (e' : End D) wop, e'.p = e.p → (e'.writes wop).p = e.p ∨ ∃ pop, (e'.writes wop).p = e.p.step pop := by
    intro e' wop he
    rcases writes_p e' wop with h | h
    · left; rw [h, he]
    · right; exact ⟨_, by rw [h, he]⟩
  cases op with
  | check q => exact .inr ⟨.sendCheck q.id, rfl⟩
  | file n now =>
    simp only [End.step, End.file]; split
    · exact .inr ⟨.sendInsert n now, rfl⟩
    · exact .inl rfl
  | note n => left; simp only [End.step, End.note]; split <;> rfl
  | push i =>
    simp only [End.step, End.push]
    split
    · exact hw _ _ rfl
    · exact .inl rfl
  | dequeue => exact hw _ _ rfl
  | write k => exact hw _ _ rfl
  | writeFail => exact hw _ _ rfl
  | finish => exact hw _ _ rfl
  | setMax n => exact hw _ _ rfl
  | read k => left; simp only [End.step, End.read]; split <;> rfl
  | decode =>
    simp only [End.step, End.decode]
    split
    · split
      · exact .inl rfl
      · unfold End.process
        split
        · rename_i r _; exact .inr ⟨.response r, rfl⟩
        · exact .inl rfl
        · exact .inl rfl
        · exact .inl rfl
      · exact .inl rfl
      · exact .inr ⟨.disconnect, rfl⟩
    · exact .inl rfl
  | work b =>
    simp only [End.step, End.work]
    split
    · exact .inl rfl
    · split
      · exact hw _ _ rfl
      · exact .inl rfl
      · rename_i q _ _ _; exact .inr ⟨.sendCheck q.id, rfl⟩
      · split <;> exact .inl rfl
  | sweep now => exact .inr ⟨.sweep now, rfl⟩
  | cut => exact .inr ⟨.disconnect, rfl⟩
  | close => exact .inr ⟨.close, rfl⟩
  | setTimeout t => exact .inr ⟨.setTimeout t, rfl⟩

/-! ### The outgoing side -/

theorem wstep_mono (s : W) (op : WOp) : s.out <+: (s.step op).out ∧ s.accepted <+: (s.step op).accepted := by
  cases op with
  | enqueue p => simp only [W.step, W.enqueue]; split <;> simp
  | dequeue => simp only [W.step, W.dequeue]; split <;> simp
  | write k => simp only [W.step, W.write]; split <;> (try split) <;> simp
  | writeFail => simp only [W.step, W.writeFail]; split <;> (try split) <;> simp
  | finish => simp only [W.step, W.finish]; split <;> (try split) <;> simp
  | disconnect => simp [W.step]
  | setMax n => simp [W.step]

/-- Frames have a length that fits `size_t`. -/
structure Sized (s : W) : Prop where
  limit : s.maxBytes ≤ sizeMax
  frames : ∀ m ∈ s.accepted, (encode m).length ≤ sizeMax

theorem sized_init : Sized W.init := ⟨by decide, by simp [W.init]⟩

theorem sized_step {s : W} (h : Sized s) (op : WOp) (hm : ∀ n, op = .setMax n → n ≤ sizeMax) : Sized (s.step op) := by
  obtain ⟨h1, h2⟩ := h
  cases op with
  | enqueue p =>
    simp only [W.step, W.enqueue]
    split
    · exact ⟨h1, h2⟩
    · refine ⟨h1, fun m hm => ?_⟩
      simp only [List.mem_append, List.mem_singleton] at hm
      rcases hm with hm | rfl
      · exact h2 m hm
      · omega
  | dequeue => simp only [W.step, W.dequeue]; split <;> exact ⟨h1, h2⟩
  | write k => simp only [W.step, W.write]; split <;> (try split) <;> exact ⟨h1, h2⟩
  | writeFail => simp only [W.step, W.writeFail]; split <;> (try split) <;> exact ⟨h1, h2⟩
  | finish => simp only [W.step, W.finish]; split <;> (try split) <;> exact ⟨h1, h2⟩
  | disconnect => exact ⟨h1, h2⟩
  | setMax n =>
    refine ⟨?_, h2⟩
    have := hm n rfl
    simp only [W.step]
    split
    · decide
    · exact this

/-! ### The reader -/

theorem decode_big {max : Nat} {p : Bytes} (hmax : max < p.length) (hsz : (encode p).length ≤ sizeMax) (rest : Bytes) :
    ∃ k, tryDecodeEx max (encode p ++ rest) = .tooLarge k := by
  have hlen : p.length ≤ sizeMax := by
    rw [encode] at hsz; simp only [List.length_append] at hsz; omega
  rw [encode_eq, List.append_assoc, tryDecodeEx_lines max _ (by simp [clen_line_plain])]
  have : scanLines max none [lit "Content-Length: " ++ natDec p.length] = .tooLarge := by
    rw [scanLines, clenValue_encode]
    simp only [stoull_natDec _ hlen]
    rw [if_pos (.inl hmax)]
  rw [this]
  exact ⟨_, rfl⟩

theorem wire_append (a b : List Bytes) : wire (a ++ b) = wire a ++ wire b := by simp [wire]

theorem wire_cons (m : Bytes) (l : List Bytes) : wire (m :: l) = encode m ++ wire l := by simp [wire]

/-- What one side has read of the other: the frames of the messages it took, then its buffer. -/
structure Reads (e : End D) (w : W) : Prop where
  bytes : wire e.taken ++ e.buf = w.out.take e.got
  le : e.got ≤ w.out.length
  order : e.taken <+: w.accepted

/-- What the reader can meet. -/
theorem decode_cases {e : End D} {w : W} (hr : Reads e w) (hi : w.Inv) (hs : Sized w) (max : Nat) :
    tryDecodeEx max e.buf = .incomplete ∨
    (∃ m rest tail, w.accepted = e.taken ++ m :: rest ∧ e.buf = encode m ++ tail ∧ m.length ≤ max ∧
      tryDecodeEx max e.buf = .ok m (encode m).length) ∨
    (∃ m rest k, w.accepted = e.taken ++ m :: rest ∧ max < m.length ∧ tryDecodeEx max e.buf = .tooLarge k) := by
  obtain ⟨rest, hrest⟩ := hr.order
  have hpre : wire e.taken ++ e.buf <+: wire e.taken ++ wire rest := by
    rw [hr.bytes, ← wire_append, hrest]
    exact (List.take_prefix _ _).trans hi.pre
  have hbuf : e.buf <+: wire rest := (List.prefix_append_right_inj _).1 hpre
  cases rest with
  | nil =>
    left
    have : e.buf = [] := List.prefix_nil.1 hbuf
    rw [this]; rfl
  | cons m rest =>
    rw [wire_cons] at hbuf
    obtain ⟨x, hx⟩ := hbuf
    have hm : (encode m).length ≤ sizeMax := hs.frames m (by rw [← hrest]; simp)
    by_cases hinc : tryDecodeEx max e.buf = .incomplete
    · exact .inl hinc
    right
    have happ := tryDecodeEx_append x hinc
    rw [hx] at happ
    by_cases hmax : m.length ≤ max
    · left
      rw [decode_encode hmax hm] at happ
      have hk := tryDecodeEx_ok happ.symm
      have hp : encode m <+: e.buf := by
        have h1 : encode m <+: e.buf ++ x := by rw [hx]; exact List.prefix_append _ _
        exact List.prefix_of_prefix_length_le h1 (List.prefix_append _ _) hk.2.2
      obtain ⟨tail, ht⟩ := hp
      exact ⟨m, rest, tail, hrest.symm, ht.symm, hmax, happ.symm⟩
    · right
      obtain ⟨k, hk⟩ := decode_big (Nat.lt_of_not_le hmax) hm (wire rest)
      rw [hk] at happ
      exact ⟨m, rest, k, hrest.symm, Nat.lt_of_not_le hmax, happ.symm⟩

/-! ### What every execution keeps -/

/-- The requests, the notifications among messages, in the order in which they were taken. -/
def requestsIn (l : List Bytes) : List (Request D) := l.filterMap (fun m => match event (D := D) m with | .request q => some q | _ => none)

def notesIn (l : List Bytes) : List (Notification D) := l.filterMap (fun m => match event (D := D) m with | .note n => some n | _ => none)

/-- Where a payload comes from. -/
inductive Origin (e : End D) : Bytes → Prop
  | request {n : Nat} {k : Bytes} {dl : Nat} {q : Request D} : (n, k, dl) ∈ e.p.sent → e.given[n]? = some q → Origin e (serRequest (stamped q k))
  | note {n : Notification D} : n ∈ e.notes → Origin e (serNotification n)
  | reply {q : Request D} {o : HandlerOutcome D} : (q, o) ∈ e.replies → Origin e (serResponse (replyFor q o))

/-- The history of the pending requests. -/
structure Hist (e : End D) (pops : List (POp D)) : Prop where
  run : e.p = (P.init : P D).run pops
  ids : reqIds pops = e.given.map (·.id)
  responses : ∀ r, POp.response r ∈ pops → ∃ m ∈ e.taken, event m = .response r

/-- The invariant of one side, beside the outgoing side `w` of the other. -/
structure Base (e : End D) (w : W) : Prop where
  conn : e.w.connected = e.p.connected
  winv : e.w.Inv
  sized : Sized e.w
  hist : ∃ pops, Hist e pops
  reads : Reads e w
  jobs : requestsIn e.taken = e.replies.map (·.1) ++ (e.job.map (·.req)).toList
  heard : e.heard = notesIn e.taken
  origin : ∀ m, m ∈ e.w.accepted ∨ m ∈ e.ready → Origin e m

theorem run_snoc (pops : List (POp D)) (op : POp D) : (P.init : P D).run (pops ++ [op]) = ((P.init : P D).run pops).step op := by
  simp [P.run]

theorem reqIds_snoc (pops : List (POp D)) (op : POp D) :
    reqIds (pops ++ [op]) = reqIds pops ++ (match op with | .sendCheck id => [id] | _ => []) := by
  unfold reqIds
  rw [List.filterMap_append]
  cases op <;> rfl

/-- A step of the pending requests that is no call and no response. -/
theorem Hist.other {e f : End D} {pops : List (POp D)} (h : Hist e pops) (op : POp D) (h1 : ∀ id, op ≠ .sendCheck id) (h2 : ∀ r, op ≠ .response r)
    (hp : f.p = e.p.step op) (hg : f.given = e.given) (ht : e.taken <+: f.taken) : Hist f (pops ++ [op]) := by
  refine ⟨by rw [hp, run_snoc, h.run], ?_, ?_⟩
  · rw [reqIds_snoc, h.ids, hg]
    cases op with
    | sendCheck id => exact absurd rfl (h1 id)
    | _ => simp
  · intro r hr
    simp only [List.mem_append, List.mem_singleton] at hr
    rcases hr with hr | hr
    · obtain ⟨m, hm, he⟩ := h.responses r hr
      exact ⟨m, ht.subset hm, he⟩
    · exact absurd hr.symm (h2 r)

theorem Hist.same {e f : End D} {pops : List (POp D)} (h : Hist e pops) (hp : f.p = e.p) (hg : f.given = e.given) (ht : e.taken <+: f.taken) : Hist f pops :=
  ⟨by rw [hp, h.run], by rw [hg, h.ids], fun r hr => by obtain ⟨m, hm, he⟩ := h.responses r hr; exact ⟨m, ht.subset hm, he⟩⟩

theorem Hist.call {e f : End D} {pops : List (POp D)} (h : Hist e pops) (q : Request D) (hp : f.p = e.p.step (.sendCheck q.id))
    (hg : f.given = e.given ++ [q]) (ht : f.taken = e.taken) : Hist f (pops ++ [.sendCheck q.id]) := by
  refine ⟨by rw [hp, run_snoc, h.run], ?_, ?_⟩
  · rw [reqIds_snoc, h.ids, hg]; simp
  · intro r hr
    simp only [List.mem_append, List.mem_singleton] at hr
    rcases hr with hr | hr
    · rw [ht]; exact h.responses r hr
    · cases hr

theorem Hist.answer {e f : End D} {pops : List (POp D)} (h : Hist e pops) (r : Response D) (m : Bytes) (hm : event m = .response r)
    (hp : f.p = e.p.step (.response r)) (hg : f.given = e.given) (ht : f.taken = e.taken ++ [m]) : Hist f (pops ++ [.response r]) := by
  refine ⟨by rw [hp, run_snoc, h.run], ?_, ?_⟩
  · rw [reqIds_snoc, h.ids, hg]; simp
  · intro r' hr
    simp only [List.mem_append, List.mem_singleton] at hr
    rw [ht]
    rcases hr with hr | hr
    · obtain ⟨m', hm', he⟩ := h.responses r' hr
      exact ⟨m', by simp [hm'], he⟩
    · cases hr; exact ⟨m, by simp, hm⟩

/-- The history goes on. -/
theorem hist_step (max : Nat) (h : Request D → Prog D) (sent : Bytes) {e : End D} (he : ∃ pops, Hist e pops) (op : EndOp D) :
    ∃ pops, Hist (e.step max h sent op) pops := by
  obtain ⟨pops, hh⟩ := he
  have hw : ∀ (e' : End D) wop, e'.p = e.p → e'.given = e.given → e'.taken = e.taken → ∃ pops, Hist (e'.writes wop) pops := by
    intro e' wop h1 h2 h3
    have ha := writes_aside e' wop
    rcases writes_p e' wop with hp | hp
    · exact ⟨_, hh.same (hp.trans h1) (ha.given.trans h2) (by rw [ha.taken, h3]; exact List.prefix_rfl)⟩
    · exact ⟨_, hh.other .disconnect (by simp) (by simp) (by rw [hp, h1]) (ha.given.trans h2) (by rw [ha.taken, h3]; exact List.prefix_rfl)⟩
  cases op with
  | check q => exact ⟨_, hh.call q rfl rfl rfl⟩
  | file n now =>
    simp only [End.step, End.file]; split
    · exact ⟨_, hh.other (.sendInsert n now) (by simp) (by simp) rfl rfl List.prefix_rfl⟩
    · exact ⟨_, hh⟩
  | note n =>
    simp only [End.step, End.note]; split
    · exact ⟨_, hh.same rfl rfl List.prefix_rfl⟩
    · exact ⟨_, hh⟩
  | push i =>
    simp only [End.step, End.push]
    split
    · exact hw _ _ rfl rfl rfl
    · exact ⟨_, hh⟩
  | dequeue => exact hw _ _ rfl rfl rfl
  | write k => exact hw _ _ rfl rfl rfl
  | writeFail => exact hw _ _ rfl rfl rfl
  | finish => exact hw _ _ rfl rfl rfl
  | setMax n => exact hw _ _ rfl rfl rfl
  | read k =>
    simp only [End.step, End.read]; split
    · exact ⟨_, hh.same rfl rfl List.prefix_rfl⟩
    · exact ⟨_, hh⟩
  | decode =>
    simp only [End.step, End.decode]
    split
    · split
      · exact ⟨_, hh⟩
      · rename_i m k _
        unfold End.process
        split
        · rename_i r hr; exact ⟨_, hh.answer r m hr rfl rfl rfl⟩
        · exact ⟨_, hh.same rfl rfl (List.prefix_append _ _)⟩
        · exact ⟨_, hh.same rfl rfl (List.prefix_append _ _)⟩
        · exact ⟨_, hh.same rfl rfl (List.prefix_append _ _)⟩
      · exact ⟨_, hh.same rfl rfl List.prefix_rfl⟩
      · exact ⟨_, hh.other .disconnect (by simp) (by simp) rfl rfl List.prefix_rfl⟩
    · exact ⟨_, hh⟩
  | work b =>
    simp only [End.step, End.work]
    split
    · exact ⟨_, hh⟩
    · split
      · exact hw _ _ rfl rfl rfl
      · exact ⟨_, hh.same rfl rfl List.prefix_rfl⟩
      · rename_i q _ _ _; exact ⟨_, hh.call q rfl rfl rfl⟩
      · split
        · exact ⟨_, hh⟩
        · exact ⟨_, hh.same rfl rfl List.prefix_rfl⟩
  | sweep now => exact ⟨_, hh.other (.sweep now) (by simp) (by simp) rfl rfl List.prefix_rfl⟩
  | cut => exact ⟨_, hh.other .disconnect (by simp) (by simp) rfl rfl List.prefix_rfl⟩
  | close => exact ⟨_, hh.other .close (by simp) (by simp) rfl rfl List.prefix_rfl⟩
  | setTimeout t => exact ⟨_, hh.other (.setTimeout t) (by simp) (by simp) rfl rfl List.prefix_rfl⟩

/-- `connected` is one flag. -/
theorem conn_step (max : Nat) (h : Request D → Prog D) (sent : Bytes) {e : End D} (he : e.w.connected = e.p.connected) (op : EndOp D) :
    (e.step max h sent op).w.connected = (e.step max h sent op).p.connected := by
  have woff : ∀ (s : W) (wop : WOp), (s.step wop).connected = true → s.connected = true := by
    intro s wop hc
    cases wop with
    | enqueue p => revert hc; simp only [W.step, W.enqueue]; split <;> simp
    | dequeue => revert hc; simp only [W.step, W.dequeue]; split <;> simp
    | write k => revert hc; simp only [W.step, W.write]; split <;> (try split) <;> simp
    | writeFail => revert hc; simp only [W.step, W.writeFail]; split <;> (try split) <;> simp
    | finish => revert hc; simp only [W.step, W.finish]; split <;> (try split) <;> simp
    | disconnect => cases hc
    | setMax n => exact hc
  have hw : ∀ (e' : End D) wop, e'.w = e.w → e'.p = e.p → (e'.writes wop).w.connected = (e'.writes wop).p.connected := by
    intro e' wop h1 h2
    unfold End.writes
    split
    · rename_i hc
      simp only
      rw [h2, ← he, hc, ← h1, woff _ _ hc]
    · rename_i hc
      simp only [P.step]
      simpa using hc
  have hcheck : ∀ q : Request D, (e.p.step (.sendCheck q.id)).connected = e.p.connected := by
    intro q; simp only [P.step, P.sendCheck]; split <;> rfl
  cases op with
  | check q => exact he.trans (hcheck q).symm
  | file n now =>
    simp only [End.step, End.file]; split
    · simp only [P.step, P.sendInsert]; split <;> exact he
    · exact he
  | note n => simp only [End.step, End.note]; split <;> exact he
  | push i =>
    simp only [End.step, End.push]
    split
    · exact hw _ _ rfl rfl
    · exact he
  | dequeue => exact hw _ _ rfl rfl
  | write k => exact hw _ _ rfl rfl
  | writeFail => exact hw _ _ rfl rfl
  | finish => exact hw _ _ rfl rfl
  | setMax n => exact hw _ _ rfl rfl
  | read k => simp only [End.step, End.read]; split <;> exact he
  | decode =>
    simp only [End.step, End.decode]
    split
    · split
      · exact he
      · unfold End.process
        split
        · rename_i r _
          simp only [P.step]
          rw [(complete_fields _ _ _).2.2.2]; exact he
        · exact he
        · exact he
        · exact he
      · exact he
      · rfl
    · exact he
  | work b =>
    simp only [End.step, End.work]
    split
    · exact he
    · split
      · exact hw _ _ rfl rfl
      · exact he
      · rename_i q _ _ _; exact he.trans (hcheck q).symm
      · split <;> exact he
  | sweep now =>
    show _ = (e.p.sweep now).connected
    unfold P.sweep
    split
    · rw [(sweepList_fields now _ _).2.2.2]; exact he
    · exact he
  | cut => rfl
  | close => rfl
  | setTimeout t => exact he

end Verif.Duplex
