import Verif.Stdio.DuplexRest

/-!
C114, continued: each request is put to the handler at most once; and when callers make no new calls and handlers send no requests, both sides come to
rest, and at rest, if still connected, every call has its answer.
-/

namespace Verif.Duplex

open Verif.Stdio Verif.Framer
open Verif.Serve (Prog Ev event tailEvent stamped no_new_response)
open Verif.InMemory (PlainReq PlainNote PlainOut replyFor_classified replyFor_id)

variable {D : Type} [DblFmt D]

/-! ### Specification -/

/-- The states an endless sequence of steps leads through. -/
def follow (c : Cfg D) (s : Pair D) (f : Nat → Bool × EndOp D) : Nat → Pair D
  | 0 => s
  | t + 1 => (follow c s f t).step c (f t)

/-- Only the threads of the transports run, and each has its turn again and again, whatever it then writes, reads or sees. -/
structure Turns (f : Nat → Bool × EndOp D) : Prop where
  internal : ∀ t, Internal (f t).2
  push : ∀ y t, ∃ u, t ≤ u ∧ f u = (y, .push 0)
  dequeue : ∀ y t, ∃ u, t ≤ u ∧ f u = (y, .dequeue)
  write : ∀ y t, ∃ u k, t ≤ u ∧ f u = (y, .write k)
  finish : ∀ y t, ∃ u, t ≤ u ∧ f u = (y, .finish)
  read : ∀ y t, ∃ u k, t ≤ u ∧ f u = (y, .read k)
  decode : ∀ y t, ∃ u, t ≤ u ∧ f u = (y, .decode)
  work : ∀ y t, ∃ u b, t ≤ u ∧ f u = (y, .work b)

/-! ### At most once -/

theorem once_of {s : Pair D} (hg : Good s) (hpl : PlainPair s) (y : Bool) (hf : Flow (s.get (!y))) :
    (((s.get y).replies.map (·.1) ++ ((s.get y).job.map (·.req)).toList).map (fun q => idText q.id)).Nodup ∧
      ∀ q ∈ (s.get y).replies.map (·.1) ++ ((s.get y).job.map (·.req)).toList, ∃ (n : Nat) (g : Request D), (s.get (!y)).given[n]? = some g ∧ ArrivesAs g q := by
  rw [← (hg y).jobs]
  constructor
  · have h1 : (textsOf (D := D) (s.get y).taken).Sublist (textsOf (D := D) ((s.get (!y)).w.accepted ++ (s.get (!y)).ready)) :=
      textsOf_sub ((hg y).reads.order.sublist.trans (List.sublist_append_left _ _))
    exact h1.nodup hf.keys
  · intro q hq
    obtain ⟨n, k, dl, g, -, h2, -, h4⟩ := taken_request hg hpl hq
    exact ⟨n, g, h2, h4⟩

/-- C114, partial. No two requests put to a handler bear one id text, and each is one the other side gave; so no call is handled twice. Missing: as
for `C114_answer_partial`. -/
theorem C114_once_partial (c : Cfg D) (ops : List (Bool × EndOp D)) (hp : Plain c ops) (y : Bool) :
    let s := (Pair.init : Pair D).run c ops
    OwnTexts ((s.get (!y)).given.map (·.id)) →
      (((s.get y).replies.map (·.1) ++ ((s.get y).job.map (·.req)).toList).map (fun q => idText q.id)).Nodup ∧
      ∀ q ∈ (s.get y).replies.map (·.1) ++ ((s.get y).job.map (·.req)).toList, ∃ (n : Nat) (g : Request D), (s.get (!y)).given[n]? = some g ∧ ArrivesAs g q := by
  intro s ho
  exact once_of (good_run c ops (good_init (D := D))) (plain_run hp.handlers ops good_init plain_init hp.ops) y
    (flow_run hp.handlers (!y) ops good_init plain_init (by cases y <;> exact flow_init) hp.ops ho)

/-! ### Coming to rest -/

theorem follow_run (c : Cfg D) (s : Pair D) (f : Nat → Bool × EndOp D) (t : Nat) : follow c s f t = s.run c ((List.range t).map f) := by
  induction t with
  | zero => rfl
  | succ t ih => simp only [follow, ih, Pair.run, List.range_succ, List.map_append, List.foldl_append, List.map_cons, List.map_nil, List.foldl_cons, List.foldl_nil]

theorem internal_plain {x : Bool × EndOp D} (h : Internal x.2) : PlainStep x := by
  obtain ⟨x, op⟩ := x
  cases h <;> trivial

/-- What the threads do to the pending requests. -/
theorem internal_p (max : Nat) (h : Request D → Prog D) (sent : Bytes) {e : End D} (ha : AloneEnd e) {op : EndOp D} (hi : Internal op) :
    (e.step max h sent op).given = e.given ∧
    ((e.step max h sent op).p = e.p ∨ (e.step max h sent op).p = e.p.step .disconnect ∨ ∃ r, (e.step max h sent op).p = e.p.step (.response r)) := by
  have hw : ∀ (e' : End D) wop, e'.p = e.p → e'.given = e.given → (e'.writes wop).given = e.given ∧
      ((e'.writes wop).p = e.p ∨ (e'.writes wop).p = e.p.step .disconnect ∨ ∃ r, (e'.writes wop).p = e.p.step (.response r)) := by
    intro e' wop h1 h2
    refine ⟨(writes_aside e' wop).given.trans h2, ?_⟩
    rcases writes_p e' wop with h3 | h3
    · exact .inl (h3.trans h1)
    · exact .inr (.inl (by rw [h3, h1]))
  cases hi with
  | push i =>
    simp only [End.step, End.push]; split
    · exact hw _ _ rfl rfl
    · exact ⟨rfl, .inl rfl⟩
  | dequeue => exact hw _ _ rfl rfl
  | write k => exact hw _ _ rfl rfl
  | finish => exact hw _ _ rfl rfl
  | read k => simp only [End.step, End.read]; split <;> exact ⟨rfl, .inl rfl⟩
  | decode =>
    simp only [End.step, End.decode]
    split
    · split
      · exact ⟨rfl, .inl rfl⟩
      · unfold End.process
        split
        · rename_i r _; exact ⟨rfl, .inr (.inr ⟨r, rfl⟩)⟩
        · exact ⟨rfl, .inl rfl⟩
        · exact ⟨rfl, .inl rfl⟩
        · exact ⟨rfl, .inl rfl⟩
      · exact ⟨rfl, .inl rfl⟩
      · exact ⟨rfl, .inr (.inl rfl)⟩
    · exact ⟨rfl, .inl rfl⟩
  | work b =>
    simp only [End.step, End.work]
    split
    · exact ⟨rfl, .inl rfl⟩
    · rename_i j hj
      have hj2 := ha j hj
      split
      · exact hw _ _ rfl rfl
      · exact ⟨rfl, .inl rfl⟩
      · rename_i q k hprog hwait
        rw [hprog] at hj2; exact hj2.elim
      · rename_i q k n hprog hwait
        rw [hprog] at hj2; exact hj2.elim

/-- What the threads leave of the calls: no new ones, and new outcomes only by responses. -/
structure Later (s t : Pair D) : Prop where
  given : ∀ y, (t.get y).given = (s.get y).given
  checked : ∀ y, (t.get y).p.checked = (s.get y).p.checked
  outcomes : ∀ y n o, (n, o) ∈ (t.get y).p.outcomes → (n, o) ∈ (s.get y).p.outcomes ∨ ∃ r, o = .response r

theorem later_step {c : Cfg D} {s t : Pair D} (h : Later s t) (ha : AlonePair t) {x : Bool × EndOp D} (hi : Internal x.2) : Later s (t.step c x) := by
  obtain ⟨x, op⟩ := x
  have key : ∀ y, ((t.step c (x, op)).get y).given = (t.get y).given ∧
      (((t.step c (x, op)).get y).p = (t.get y).p ∨ ((t.step c (x, op)).get y).p = (t.get y).p.step .disconnect ∨
        ∃ r, ((t.step c (x, op)).get y).p = (t.get y).p.step (.response r)) := by
    intro y
    rw [step_get]
    split
    · exact internal_p _ _ _ (ha y) hi
    · exact ⟨rfl, .inl rfl⟩
  refine ⟨fun y => (key y).1.trans (h.given y), fun y => ?_, fun y n o hm => ?_⟩
  · rw [← h.checked y]
    rcases (key y).2 with h1 | h1 | ⟨r, h1⟩ <;> rw [h1]
    · rfl
    · exact (complete_fields _ _ _).2.1
  · rcases (key y).2 with h1 | h1 | ⟨r, h1⟩ <;> rw [h1] at hm
    · exact h.outcomes y n o hm
    · exact h.outcomes y n o hm
    · simp only [P.step, P.complete] at hm
      split at hm
      · simp only [List.mem_append, List.mem_singleton, Prod.mk.injEq] at hm
        rcases hm with hm | ⟨-, rfl⟩
        · exact h.outcomes y n o hm
        · exact .inr ⟨r, rfl⟩
      · exact h.outcomes y n o hm

theorem settles {c : Cfg D} (hh : ∀ y q, PlainProg (c.handler y q)) (hal : ∀ y q, Alone (c.handler y q)) :
    ∀ (k : Nat) (s : Pair D), todo c s ≤ k → Good s → PlainPair s → AlonePair s → ∀ f : Nat → Bool × EndOp D, (∀ t, Internal (f t).2) →
      ∃ T, ∀ t, T ≤ t → follow c s f t = follow c s f T := by
  intro k
  induction k with
  | zero =>
    intro s hk hg hp ha f hf
    refine ⟨0, fun t _ => ?_⟩
    induction t with
    | zero => rfl
    | succ t ih =>
      have ih := ih (Nat.zero_le _)
      simp only [follow]
      rw [ih]
      simp only [follow]
      rcases todo_step (c := c) hg hp ha (hf t) with h | h
      · exact h
      · omega
  | succ k ih =>
    intro s hk hg hp ha f hf
    by_cases hall : ∀ t, follow c s f t = s
    · exact ⟨0, fun t _ => by rw [hall t]; rfl⟩
    · have ⟨t, ht⟩ : ∃ t, follow c s f t ≠ s := Classical.not_forall.1 hall
      -- the first step that does something
      have first : ∀ t, follow c s f t ≠ s → ∃ u, follow c s f u = s ∧ s.step c (f u) ≠ s := by
        intro t
        induction t with
        | zero => intro h; exact absurd rfl h
        | succ t iht =>
          intro h
          by_cases hprev : follow c s f t = s
          · refine ⟨t, hprev, fun e => h ?_⟩
            simp only [follow]; rw [hprev]; exact e
          · exact iht hprev
      obtain ⟨u, hu1, hu2⟩ := first t ht
      rcases todo_step (c := c) hg hp ha (hf u) with h | h
      · exact absurd h hu2
      · have hshift : ∀ v, follow c (s.step c (f u)) (fun i => f (u + 1 + i)) v = follow c s f (u + 1 + v) := by
          intro v
          induction v with
          | zero => simp only [follow, Nat.add_zero]; rw [hu1]
          | succ v ihv => simp only [follow]; rw [ihv]; rfl
        obtain ⟨T, hT⟩ := ih (s.step c (f u)) (by omega) (good_step c hg _) (plain_step hh hg hp _ (internal_plain (hf u))) (alone_step hal ha _)
          (fun i => f (u + 1 + i)) (fun i => hf _)
        refine ⟨u + 1 + T, fun v hv => ?_⟩
        have h1 := hT (v - (u + 1)) (by omega)
        rw [hshift, hshift] at h1
        rw [show u + 1 + (v - (u + 1)) = v by omega] at h1
        exact h1

/-- Nothing any thread can do changes anything. -/
structure AtRest (c : Cfg D) (s : Pair D) : Prop where
  push : ∀ y, s.step c (y, .push 0) = s
  dequeue : ∀ y, s.step c (y, .dequeue) = s
  write : ∀ y, ∃ k, s.step c (y, .write k) = s
  finish : ∀ y, s.step c (y, .finish) = s
  read : ∀ y, ∃ k, s.step c (y, .read k) = s
  decode : ∀ y, s.step c (y, .decode) = s
  work : ∀ y, ∃ b, s.step c (y, .work b) = s

theorem idle_end {c : Cfg D} {s : Pair D} {y : Bool} {op : EndOp D} (h : s.step c (y, op) = s) :
    (s.get y).step (c.max y) (c.handler y) (s.get (!y)).w.out op = s.get y := by
  have : (s.step c (y, op)).get y = s.get y := congrArg (fun t : Pair D => t.get y) h
  rw [step_get, if_pos rfl] at this
  exact this

/-- A transport at rest and connected has written all it queued and is in no handler. -/
theorem rest_write {c : Cfg D} {s : Pair D} (hr : AtRest c s) (hg : Good s) (ha : AlonePair s) (y : Bool) (hc : (s.get y).w.connected = true) :
    (s.get y).ready = [] ∧ (s.get y).w.out = wire (s.get y).w.accepted ∧ (s.get y).job = none := by
  have h1 := idle_end (hr.push y)
  have h2 := idle_end (hr.dequeue y)
  obtain ⟨k, h3⟩ := hr.write y
  have h3 := idle_end h3
  have h4 := idle_end (hr.finish y)
  obtain ⟨b, h5⟩ := hr.work y
  have h5 := idle_end h5
  have hb := hg y
  have hal := ha y
  generalize (s.get (!y)).w.out = sent at *
  generalize s.get y = e at *
  refine ⟨?_, ?_, ?_⟩
  · cases hrd : e.ready with
    | nil => rfl
    | cons m l =>
      have hlen := congrArg (fun g : End D => g.ready.length) h1
      simp only [End.step, End.push, hrd, List.getElem?_cons_zero] at hlen
      rw [(writes_aside _ _).ready] at hlen
      simp only [List.eraseIdx_cons_zero, List.length_cons] at hlen
      exact absurd hlen (by omega)
  · have hw2 : e.w.step .dequeue = e.w := by
      have := congrArg (fun g : End D => g.w) h2
      simp only [End.step] at this
      rwa [writes_w] at this
    have hw3 : e.w.step (.write k) = e.w := by
      have := congrArg (fun g : End D => g.w) h3
      simp only [End.step] at this
      rwa [writes_w] at this
    have hw4 : e.w.step .finish = e.w := by
      have := congrArg (fun g : End D => g.w) h4
      simp only [End.step] at this
      rwa [writes_w] at this
    have hcur : e.w.cur = none := by
      cases hcu : e.w.cur with
      | none => rfl
      | some ft =>
        obtain ⟨f, t⟩ := ft
        by_cases hlt : t < f.length
        · have hlen := congrArg (fun w : W => w.out.length) hw3
          simp only [W.step, W.write, hcu, if_pos (And.intro hc hlt), List.length_append, List.length_take, List.length_drop] at hlen
          omega
        · have hlen := congrArg (fun w : W => w.cur) hw4
          simp only [W.step, W.finish, hcu, hlt, and_false, if_false] at hlen
          cases hlen
    have hq : e.w.queue = [] := by
      cases hqu : e.w.queue with
      | nil => rfl
      | cons f q =>
        have hlen := congrArg (fun w : W => w.cur) hw2
        simp only [W.step, W.dequeue, hcur, hqu] at hlen
        cases hlen
    have := hb.winv.ordered hc
    simpa [W.rest, hcur, hq] using this
  · cases hj : e.job with
    | none => rfl
    | some j =>
      have hjob := congrArg (fun g : End D => g.job) h5
      have hj2 := hal j hj
      simp only [End.step, End.work, hj] at hjob
      split at hjob
      · rw [(writes_aside _ _).job] at hjob
        cases hjob
      · rename_i k' hprog
        simp only [Option.some.injEq] at hjob
        have h6 := congrArg (fun i : Job D => cost i.req i.prog) hjob
        simp only [hprog, cost] at h6
        cases b <;> omega
      · rename_i q k' hprog hwait
        rw [hprog] at hj2; exact hj2.elim
      · rename_i q k' n hprog hwait
        rw [hprog] at hj2; exact hj2.elim

/-- At rest and connected, all that was queued has been taken. -/
theorem rest_taken {c : Cfg D} {s : Pair D} (hr : AtRest c s) (hg : Good s) (ha : AlonePair s) (hc : ∀ y, (s.get y).w.connected = true) (y : Bool) :
    (s.get y).taken = (s.get (!y)).w.accepted := by
  have hme := rest_write hr hg ha y (hc y)
  have hpe := rest_write hr hg ha (!y) (hc (!y))
  obtain ⟨k, h1⟩ := hr.read y
  have h1 := idle_end h1
  have h2 := idle_end (hr.decode y)
  have hb := hg y
  have hbf := hg (!y)
  have hce := hc y
  generalize s.get (!y) = f at *
  generalize s.get y = e at *
  have hcond : e.w.connected = true ∧ e.job.isNone = true := ⟨hce, by rw [hme.2.2]; rfl⟩
  have hinc : tryDecodeEx (c.max y) e.buf = .incomplete := by
    rcases decode_cases hb.reads hbf.winv hbf.sized (c.max y) with h3 | ⟨m, rest, tail, h3, h4, h5, h6⟩ | ⟨m, rest, k, h3, h4, h5⟩
    · exact h3
    · have hlen := congrArg (fun g : End D => g.taken.length) h2
      simp only [End.step, End.decode, if_pos hcond, h6] at hlen
      rw [(process_keeps _ _ _).2.2.1] at hlen
      simp only [List.length_append, List.length_singleton] at hlen
      omega
    · have hlen := congrArg (fun g : End D => g.w.connected) h2
      simp only [End.step, End.decode] at hlen
      rw [if_pos hcond, h5] at hlen
      simp only [End.cut, W.step] at hlen
      rw [hce] at hlen
      cases hlen
  have hgot : e.got = f.w.out.length := by
    have hlen := congrArg (fun g : End D => g.got) h1
    simp only [End.step, End.read, if_pos (And.intro hcond.1 (And.intro hcond.2 hinc)), List.length_take, List.length_drop] at hlen
    have := hb.reads.le
    have h4 : 0 < min (k + 1) 4096 := Nat.lt_min.2 ⟨by omega, by omega⟩
    generalize min (k + 1) 4096 = z at hlen h4
    omega
  have hbytes := hb.reads.bytes
  rw [hgot, List.take_length, hpe.2.1] at hbytes
  obtain ⟨rest, hrest⟩ := hb.reads.order
  cases rest with
  | nil => simpa using hrest
  | cons m rest =>
    have hbuf : e.buf = encode m ++ wire rest := by
      rw [← hrest, wire_append, wire_cons] at hbytes
      exact List.append_cancel_left hbytes
    have hsz : (encode m).length ≤ sizeMax := hbf.sized.frames m (by rw [← hrest]; simp)
    rw [hbuf] at hinc
    by_cases hmax : m.length ≤ c.max y
    · rw [decode_encode hmax hsz] at hinc; cases hinc
    · obtain ⟨k', hk'⟩ := decode_big (Nat.lt_of_not_le hmax) hsz (wire rest)
      rw [hk'] at hinc; cases hinc

/-- At rest and connected no request is pending. -/
theorem rest_answered {c : Cfg D} {s : Pair D} (hr : AtRest c s) (hg : Good s) (hp : PlainPair s) (ha : AlonePair s) (hc : ∀ y, (s.get y).w.connected = true)
    (hf : ∀ y, Flow (s.get y)) (y : Bool) : (s.get y).p.pending = [] := by
  cases hpd : (s.get y).p.pending with
  | nil => rfl
  | cons x l =>
    obtain ⟨k, n⟩ := x
    have hm : (k, n) ∈ (s.get y).p.pending := by rw [hpd]; simp
    obtain ⟨dl, h1, -⟩ := (hg y).pinv.pend k n hm
    obtain ⟨m, h2, q, h3, h4⟩ := (hf y).asked (hc y) n k dl h1
    rw [(rest_write hr hg ha y (hc y)).1, List.append_nil] at h2
    have htp := rest_taken hr hg ha hc (!y)
    rw [Bool.not_not] at htp
    rw [← htp] at h2
    have hq : q ∈ requestsIn (s.get (!y)).taken := List.mem_filterMap.2 ⟨m, h2, by simp only [h3]⟩
    rw [(hg (!y)).jobs, (rest_write hr hg ha (!y) (hc (!y))).2.2] at hq
    simp only [Option.map_none, Option.toList_none, List.append_nil] at hq
    obtain ⟨⟨q', o⟩, h5, h6⟩ := List.mem_map.1 hq
    simp only at h6
    subst h6
    have h7 := (hf (!y)).said (hc (!y)) q' o h5
    rw [← rest_taken hr hg ha hc y] at h7
    obtain ⟨hq1, hq2⟩ := (hp (!y)).replies q' o h5
    have h8 := event_reply hq1.1 hq2
    have h9 := (hf y).done _ h7 _ h8 n
    rw [replyFor_id, h4] at h9
    exact absurd hm h9

/-- C114, partial. When callers make no new calls and handlers send no requests, the two sides come to rest, however the threads take turns. If they are then
still connected, all that was queued has been taken, and every call that was open has completed with the answer of the other side's
handler to it. Missing: as for `C114_answer_partial`; handlers that send requests from the reader thread may wait for ever (C94). -/
theorem C114_settles_partial (c : Cfg D) (ops : List (Bool × EndOp D)) (hp : Plain c ops) (hal : ∀ y q, Alone (c.handler y q)) (f : Nat → Bool × EndOp D)
    (hf : Turns f) :
    let s := (Pair.init : Pair D).run c ops
    (∀ y, OwnTexts ((s.get y).given.map (·.id))) → (∀ y, (s.get y).p.checked = []) →
      ∃ T, (∀ t, T ≤ t → follow c s f t = follow c s f T) ∧
        ((∀ y, ((follow c s f T).get y).w.connected = true) → ∀ y,
          ((follow c s f T).get y).taken = ((follow c s f T).get (!y)).w.accepted ∧
          ∀ (n : Nat) (g : Request D), (s.get y).given[n]? = some g → (∀ o, (n, o) ∉ (s.get y).p.outcomes) →
            ∃ r q o, (n, Outcome.response r) ∈ ((follow c s f T).get y).p.outcomes ∧ ArrivesAs g q ∧
              (q, o) ∈ ((follow c s f T).get (!y)).replies ∧ OwedResponse q o r) := by
  intro s ho hchk
  have hg : Good s := good_run c ops (good_init (D := D))
  have hpl : PlainPair s := plain_run hp.handlers ops good_init plain_init hp.ops
  have hal0 : AlonePair s := alone_run hal ops alone_init
  obtain ⟨T, hT⟩ := settles hp.handlers hal (todo c s) s (Nat.le_refl _) hg hpl hal0 f hf.internal
  refine ⟨T, hT, fun hc y => ?_⟩
  -- the state at rest is one of an execution
  have hrun : follow c s f T = (Pair.init : Pair D).run c (ops ++ (List.range T).map f) := by
    rw [follow_run]; simp only [s, Pair.run, List.foldl_append]
  have hops : ∀ op ∈ ops ++ (List.range T).map f, PlainStep op := by
    intro op hop
    rcases List.mem_append.1 hop with h | h
    · exact hp.ops op h
    · obtain ⟨t, -, rfl⟩ := List.mem_map.1 h
      exact internal_plain (hf.internal t)
  have hlater : Later s (follow c s f T) ∧ AlonePair (follow c s f T) := by
    have : ∀ t, Later s (follow c s f t) ∧ AlonePair (follow c s f t) := by
      intro t
      induction t with
      | zero => exact ⟨⟨fun _ => rfl, fun _ => rfl, fun _ _ _ h => .inl h⟩, hal0⟩
      | succ t ih => exact ⟨later_step ih.1 ih.2 (hf.internal t), alone_step hal ih.2 _⟩
    exact this T
  have hidle : ∀ u, T ≤ u → (follow c s f T).step c (f u) = follow c s f T := by
    intro u hu
    have h1 := hT (u + 1) (by omega)
    simp only [follow] at h1
    rwa [hT u hu] at h1
  have hrest : AtRest c (follow c s f T) := by
    refine ⟨fun y => ?_, fun y => ?_, fun y => ?_, fun y => ?_, fun y => ?_, fun y => ?_, fun y => ?_⟩
    · obtain ⟨u, h1, h2⟩ := hf.push y T; have := hidle u h1; rwa [h2] at this
    · obtain ⟨u, h1, h2⟩ := hf.dequeue y T; have := hidle u h1; rwa [h2] at this
    · obtain ⟨u, k, h1, h2⟩ := hf.write y T; have := hidle u h1; rw [h2] at this; exact ⟨k, this⟩
    · obtain ⟨u, h1, h2⟩ := hf.finish y T; have := hidle u h1; rwa [h2] at this
    · obtain ⟨u, k, h1, h2⟩ := hf.read y T; have := hidle u h1; rw [h2] at this; exact ⟨k, this⟩
    · obtain ⟨u, h1, h2⟩ := hf.decode y T; have := hidle u h1; rwa [h2] at this
    · obtain ⟨u, b, h1, h2⟩ := hf.work y T; have := hidle u h1; rw [h2] at this; exact ⟨b, this⟩
  have hoT : ∀ y, OwnTexts (((follow c s f T).get y).given.map (·.id)) := fun y => by rw [hlater.1.given y]; exact ho y
  have hgT : Good (follow c s f T) := by rw [hrun]; exact good_run c _ good_init
  have hpT : PlainPair (follow c s f T) := by rw [hrun]; exact plain_run hp.handlers _ good_init plain_init hops
  have hfT : ∀ y, Flow ((follow c s f T).get y) := by
    intro y
    have := hoT y
    rw [hrun] at this ⊢
    exact flow_run hp.handlers y _ good_init plain_init (by cases y <;> exact flow_init) hops this
  refine ⟨rest_taken hrest hgT hlater.2 hc y, fun n g hn hopen => ?_⟩
  have hpend := rest_answered hrest hgT hpT hlater.2 hc hfT y
  have hcT : ((follow c s f T).get y).p.checked = [] := by rw [hlater.1.checked y]; exact hchk y
  have hnext : n < ((follow c s f T).get y).p.nextFut := by
    obtain ⟨pops, hh⟩ := (hgT y).hist
    rw [hh.linked.next, hh.ids, List.length_map, hlater.1.given y]
    exact (List.getElem?_eq_some_iff.1 hn).1
  have hall : n ∈ ((follow c s f T).get y).p.all := (hgT y).pinv.conserve.mem_iff.2 (List.mem_range.2 hnext)
  unfold P.all at hall
  rw [hcT, hpend] at hall
  simp only [List.map_nil, List.nil_append, List.mem_map] at hall
  obtain ⟨⟨n', o⟩, h1, h2⟩ := hall
  simp only at h2
  subst h2
  rcases hlater.1.outcomes y n' o h1 with h3 | ⟨r, rfl⟩
  · exact absurd h3 (hopen o)
  · have hans := C114_answer_partial c (ops ++ (List.range T).map f) ⟨hp.handlers, hops⟩ y
    simp only at hans
    rw [← hrun] at hans
    obtain ⟨g', q, o, h4, h5, h6, h7⟩ := hans (hoT y) n' r h1
    rw [hlater.1.given y, hn] at h4
    cases h4
    exact ⟨r, q, o, h1, h5, h6, h7⟩

end Verif.Duplex
