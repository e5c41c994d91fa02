import Verif.Stdio.DuplexSettleProps

/-! C114, continued: why the threads give up a connection, a call that then stays open, and cases that meet the hypotheses of C114. -/

namespace Verif.Duplex

open Verif.Stdio Verif.Framer
open Verif.Serve (Prog Ev event tailEvent stamped no_new_response)
open Verif.InMemory (PlainReq PlainNote PlainOut replyFor_classified replyFor_id)

variable {D : Type} [DblFmt D]

/-! ### Why a connection is given up -/

theorem writes_cut {e : End D} {op : WOp} (h1 : (e.writes op).w.connected = false) (h2 : e.w.connected = true) :
    op = .writeFail ∨ op = .disconnect ∨ ∃ m, op = .enqueue m ∧ e.w.maxBytes < e.w.queuedBytes + (encode m).length := by
  rw [writes_w] at h1
  cases op with
  | enqueue m =>
    right; right
    refine ⟨m, rfl, ?_⟩
    revert h1
    simp only [W.step, W.enqueue]
    split
    · rename_i h; intro _; exact h
    · intro h; simp only at h; rw [h2] at h; cases h
  | dequeue => revert h1; simp only [W.step, W.dequeue]; split <;> simp [h2]
  | write k => revert h1; simp only [W.step, W.write]; split <;> (try split) <;> simp [h2]
  | writeFail => exact .inl rfl
  | finish => revert h1; simp only [W.step, W.finish]; split <;> (try split) <;> simp [h2]
  | disconnect => exact .inr (.inl rfl)
  | setMax n => revert h1; simp [W.step, h2]

/-- C114. The threads of a transport give up the connection only for two reasons: a message larger than the content limit of this side was on its way to it, or a
message of this side did not fit into what was left of the write queue. -/
theorem C114_cut_only (c : Cfg D) (ops : List (Bool × EndOp D)) (y : Bool) (op : EndOp D) (hi : Internal op) :
    let s := (Pair.init : Pair D).run c ops
    (s.get y).w.connected = true → ((s.step c (y, op)).get y).w.connected = false →
      (∃ m ∈ (s.get (!y)).w.accepted, c.max y < m.length) ∨
      (∃ m, (m ∈ (s.get y).ready ∨ ∃ q o, (q, o) ∈ ((s.step c (y, op)).get y).replies ∧ m = serResponse (replyFor q o)) ∧
        (s.get y).w.maxBytes < (s.get y).w.queuedBytes + (encode m).length) := by
  intro s h1 h2
  have hg : Good s := good_run c ops (good_init (D := D))
  rw [step_get, if_pos rfl] at h2 ⊢
  have hb := hg y
  have hbf := hg (!y)
  generalize s.get (!y) = f at *
  generalize s.get y = e at *
  cases hi with
  | push i =>
    right
    revert h2
    simp only [End.step, End.push]
    split
    · rename_i m hm
      intro h2
      rcases writes_cut h2 h1 with h | h | ⟨m', h, h3⟩
      · cases h
      · cases h
      · cases h
        exact ⟨m, .inl (List.mem_of_getElem? hm), h3⟩
    · intro h2; rw [h1] at h2; cases h2
  | dequeue => rcases writes_cut h2 h1 with h | h | ⟨m', h, h3⟩ <;> cases h
  | write k => rcases writes_cut h2 h1 with h | h | ⟨m', h, h3⟩ <;> cases h
  | finish => rcases writes_cut h2 h1 with h | h | ⟨m', h, h3⟩ <;> cases h
  | read k =>
    revert h2
    simp only [End.step, End.read]
    split <;> (intro h2; rw [h1] at h2; cases h2)
  | decode =>
    left
    revert h2
    simp only [End.step, End.decode]
    split
    · rcases decode_cases hb.reads hbf.winv hbf.sized (c.max y) with h3 | ⟨m, rest, tail, h3, h4, h5, h6⟩ | ⟨m, rest, k, h3, h4, h5⟩
      · rw [h3]; intro h2; rw [h1] at h2; cases h2
      · rw [h6]
        intro h2
        simp only at h2
        rw [process_w] at h2
        simp only at h2
        rw [h1] at h2; cases h2
      · intro _; exact ⟨m, by rw [h3]; simp, h4⟩
    · intro h2; rw [h1] at h2; cases h2
  | work b =>
    right
    revert h2
    simp only [End.step, End.work]
    split
    · intro h2; rw [h1] at h2; cases h2
    · rename_i j hj
      split
      · rename_i o hprog
        intro h2
        rcases writes_cut h2 h1 with h | h | ⟨m', h, h3⟩
        · cases h
        · cases h
        · cases h
          refine ⟨_, .inr ⟨j.req, o, ?_, rfl⟩, h3⟩
          rw [(writes_aside _ _).replies]
          simp
      · intro h2; simp only at h2; rw [h1] at h2; cases h2
      · intro h2; simp only [End.check] at h2; rw [h1] at h2; cases h2
      · split <;> (intro h2; rw [h1] at h2; cases h2)

/-! ### Answers of handlers -/

/-- What a handler can give, whatever it is told and whatever its stop token says. -/
inductive Gives : Prog D → HandlerOutcome D → Prop
  | done {o : HandlerOutcome D} : Gives (.done o) o
  | ask {q : Request D} {k : Outcome D → Prog D} {a : Outcome D} {o : HandlerOutcome D} : Gives (k a) o → Gives (.ask q k) o
  | look {k : Bool → Prog D} {b : Bool} {o : HandlerOutcome D} : Gives (k b) o → Gives (.look k) o

structure Honest (h : Request D → Prog D) (e : End D) : Prop where
  job : ∀ j, e.job = some j → ∀ o, Gives j.prog o → Gives (h j.req) o
  replies : ∀ q o, (q, o) ∈ e.replies → Gives (h q) o

theorem honest_own (max : Nat) (h : Request D → Prog D) (sent : Bytes) {e : End D} (ha : Honest h e) (op : EndOp D) : Honest h (e.step max h sent op) := by
  have same : ∀ g : End D, g.job = e.job → g.replies = e.replies → Honest h g := fun g h1 h2 =>
    ⟨by rw [h1]; exact ha.job, by rw [h2]; exact ha.replies⟩
  have aside : ∀ (g : End D) wop, g.job = e.job → g.replies = e.replies → Honest h (g.writes wop) := fun g wop h1 h2 =>
    same _ ((writes_aside g wop).job.trans h1) ((writes_aside g wop).replies.trans h2)
  cases op with
  | check q => exact same _ rfl rfl
  | file n now => simp only [End.step, End.file]; split <;> exact same _ rfl rfl
  | note n => simp only [End.step, End.note]; split <;> exact same _ rfl rfl
  | push i =>
    simp only [End.step, End.push]; split
    · exact aside _ _ rfl rfl
    · exact ha
  | dequeue => exact aside _ _ rfl rfl
  | write k => exact aside _ _ rfl rfl
  | writeFail => exact aside _ _ rfl rfl
  | finish => exact aside _ _ rfl rfl
  | setMax n => exact aside _ _ rfl rfl
  | read k => simp only [End.step, End.read]; split <;> exact same _ rfl rfl
  | decode =>
    simp only [End.step, End.decode]
    split
    · split
      · exact ha
      · unfold End.process
        split
        · exact same _ rfl rfl
        · refine ⟨fun j hj => ?_, ha.replies⟩
          cases hj; exact fun _ ho => ho
        · exact same _ rfl rfl
        · exact same _ rfl rfl
      · exact same _ rfl rfl
      · exact same _ rfl rfl
    · exact ha
  | work b =>
    simp only [End.step, End.work]
    split
    · exact ha
    · rename_i j hj
      have hj1 := ha.job j hj
      split
      · rename_i o hprog
        have hs := writes_aside { e with job := none, replies := e.replies ++ [(j.req, o)] } (.enqueue (serResponse (replyFor j.req o)))
        refine ⟨fun j' hj' => ?_, fun q' o' hm => ?_⟩
        · rw [hs.job] at hj'; cases hj'
        · rw [hs.replies] at hm
          simp only [List.mem_append, List.mem_singleton, Prod.mk.injEq] at hm
          rcases hm with hm | ⟨rfl, rfl⟩
          · exact ha.replies _ _ hm
          · exact hj1 _ (by rw [hprog]; exact .done)
      · rename_i k hprog
        refine ⟨fun j' hj' o ho => ?_, ha.replies⟩
        cases hj'
        exact hj1 o (by rw [hprog]; exact .look ho)
      · refine ⟨fun j' hj' o ho => ?_, ha.replies⟩
        cases hj'
        exact hj1 o ho
      · rename_i q k n hprog hwait
        split
        · exact ha
        · refine ⟨fun j' hj' o ho => ?_, ha.replies⟩
          cases hj'
          exact hj1 o (by rw [hprog]; exact .ask ho)
  | sweep now => exact same _ rfl rfl
  | cut => exact same _ rfl rfl
  | close => exact same _ rfl rfl
  | setTimeout t => exact same _ rfl rfl

/-- C114. What a side answers to a request is what its own handler gives for that request. -/
theorem C114_handler (c : Cfg D) (ops : List (Bool × EndOp D)) (y : Bool) :
    let s := (Pair.init : Pair D).run c ops
    ∀ q o, (q, o) ∈ (s.get y).replies → Gives (c.handler y q) o := by
  have key : ∀ (ops : List (Bool × EndOp D)) (s : Pair D), (∀ y, Honest (c.handler y) (s.get y)) → ∀ y, Honest (c.handler y) ((s.run c ops).get y) := by
    intro ops
    induction ops with
    | nil => intro s h; exact h
    | cons x ops ih =>
      intro s hs
      refine ih _ ?_
      obtain ⟨x, op⟩ := x
      intro y
      rw [step_get]
      split
      · exact honest_own _ _ _ (hs y) op
      · exact hs y
  have h0 : ∀ y, Honest (c.handler y) ((Pair.init : Pair D).get y) := by
    intro y
    cases y <;> exact ⟨fun j hj => (nomatch hj), fun q o hx => (nomatch hx)⟩
  intro s
  exact (key ops Pair.init h0 y).replies

/-! ### Requests of handlers -/

/-- A handler that waits has asked, and was told what its futures gave. -/
structure Asks (e : End D) : Prop where
  wait : ∀ j n, e.job = some j → j.wait = some n → ∃ q k, j.prog = .ask q k ∧ e.given[n]? = some q
  told : ∀ x ∈ e.told, x ∈ e.p.outcomes

theorem asks_own (max : Nat) (h : Request D → Prog D) {e : End D} {w : W} (hb : Base e w) (ha : Asks e) (op : EndOp D) : Asks (e.step max h w.out op) := by
  have hg := grows_step max h w.out e op
  have same : (e.step max h w.out op).job = e.job → (e.step max h w.out op).told = e.told → Asks (e.step max h w.out op) := by
    intro h1 h2
    refine ⟨fun j n hj hw => ?_, fun x hx => ?_⟩
    · rw [h1] at hj
      obtain ⟨q, k, h3, h4⟩ := ha.wait j n hj hw
      exact ⟨q, k, h3, get_prefix hg.given h4⟩
    · rw [h2] at hx
      exact hg.outcomes.subset (ha.told x hx)
  have aside : ∀ (e' : End D) wop, e.step max h w.out op = e'.writes wop → e'.job = e.job → e'.told = e.told → Asks (e.step max h w.out op) := by
    intro e' wop h1 h2 h3
    exact same (by rw [h1, (writes_aside e' wop).job, h2]) (by rw [h1, (writes_aside e' wop).told, h3])
  cases op with
  | check q => exact same rfl rfl
  | file n now => exact same (by simp only [End.step, End.file]; split <;> rfl) (by simp only [End.step, End.file]; split <;> rfl)
  | note n => exact same (by simp only [End.step, End.note]; split <;> rfl) (by simp only [End.step, End.note]; split <;> rfl)
  | push i =>
    cases hr : e.ready[i]? with
    | some m => exact aside { e with ready := e.ready.eraseIdx i } (.enqueue m) (by simp only [End.step, End.push, hr]) rfl rfl
    | none => exact same (by simp only [End.step, End.push, hr]) (by simp only [End.step, End.push, hr])
  | dequeue => exact aside e _ rfl rfl rfl
  | write k => exact aside e _ rfl rfl rfl
  | writeFail => exact aside e _ rfl rfl rfl
  | finish => exact aside e _ rfl rfl rfl
  | setMax n => exact aside e _ rfl rfl rfl
  | read k => exact same (by simp only [End.step, End.read]; split <;> rfl) (by simp only [End.step, End.read]; split <;> rfl)
  | decode =>
    revert same hg
    simp only [End.step, End.decode]
    split
    · split
      · exact fun _ _ => ha
      · unfold End.process
        split
        · exact fun _ same => same rfl rfl
        · intro hg _
          refine ⟨fun j n hj hw => ?_, fun x hx => hg.outcomes.subset (ha.told x hx)⟩
          cases hj; cases hw
        · exact fun _ same => same rfl rfl
        · exact fun _ same => same rfl rfl
      · exact fun _ same => same rfl rfl
      · exact fun _ same => same rfl rfl
    · exact fun _ _ => ha
  | work b =>
    revert same hg
    simp only [End.step, End.work]
    split
    · exact fun _ _ => ha
    · rename_i j hj
      split
      · rename_i o hprog
        intro hg _
        have hs := writes_aside { e with job := none, replies := e.replies ++ [(j.req, o)] } (.enqueue (serResponse (replyFor j.req o)))
        refine ⟨fun j' n hj' => ?_, fun x hx => ?_⟩
        · rw [hs.job] at hj'; cases hj'
        · rw [hs.told] at hx; exact hg.outcomes.subset (ha.told x hx)
      · rename_i k hprog
        intro hg _
        refine ⟨fun j' n hj' hw' => ?_, fun x hx => ha.told x hx⟩
        cases hj'
        obtain ⟨q', k', h3, -⟩ := ha.wait j n hj hw'
        rw [hprog] at h3; cases h3
      · rename_i q k hprog hwait
        intro hg _
        refine ⟨fun j' n hj' hw' => ?_, fun x hx => hg.outcomes.subset (ha.told x hx)⟩
        cases hj'; cases hw'
        refine ⟨q, k, hprog, ?_⟩
        obtain ⟨pops, hh⟩ := hb.hist
        have : e.p.nextFut = e.given.length := by rw [hh.linked.next, hh.ids, List.length_map]
        simp only [End.check]
        rw [this]; simp
      · rename_i q k n hprog hwait
        split
        · exact fun _ _ => ha
        · rename_i o ho
          intro hg _
          refine ⟨fun j' n' hj' hw' => ?_, fun x hx => ?_⟩
          · cases hj'; cases hw'
          · simp only [List.mem_append, List.mem_singleton] at hx
            rcases hx with hx | rfl
            · exact ha.told x hx
            · exact AMap.get_some_mem ho
  | sweep now => exact same rfl rfl
  | cut => exact same rfl rfl
  | close => exact same rfl rfl
  | setTimeout t => exact same rfl rfl

/-- C114. A handler that waits for a future waits for that of the request it sent, and what it was told is what completed the future. -/
theorem C114_told (c : Cfg D) (ops : List (Bool × EndOp D)) (y : Bool) :
    let s := (Pair.init : Pair D).run c ops
    (∀ j n, (s.get y).job = some j → j.wait = some n → ∃ q k, j.prog = .ask q k ∧ (s.get y).given[n]? = some q) ∧
    (∀ n o, (n, o) ∈ (s.get y).told → (n, o) ∈ (s.get y).p.outcomes) := by
  have key : ∀ (ops : List (Bool × EndOp D)) (s : Pair D), Good s → (∀ y, Asks (s.get y)) → ∀ y, Asks ((s.run c ops).get y) := by
    intro ops
    induction ops with
    | nil => intro s _ h; exact h
    | cons x ops ih =>
      intro s hg hs
      refine ih _ (good_step c hg x) ?_
      obtain ⟨x, op⟩ := x
      intro y
      rw [step_get]
      split
      · exact asks_own _ _ (hg y) (hs y) op
      · exact hs y
  have h0 : ∀ y, Asks ((Pair.init : Pair D).get y) := by
    intro y
    cases y <;> exact ⟨fun j n hj => (nomatch hj), fun x hx => (nomatch hx)⟩
  intro s
  have := key ops Pair.init good_init h0 y
  exact ⟨this.wait, fun n o h => this.told (n, o) h⟩

/-- C114. `Close` completes every call of its side that was filed. -/
theorem C114_close (c : Cfg D) (ops more : List (Bool × EndOp D)) (y : Bool) :
    let s := (Pair.init : Pair D).run c ops
    ∀ n k dl, (n, k, dl) ∈ (s.get y).p.sent → ∃ o, (n, o) ∈ (((s.step c (y, .close)).run c more).get y).p.outcomes := by
  intro s n k dl hs
  have hg : Good s := good_run c ops (good_init (D := D))
  have hi := (hg y).pinv
  have h1 : ∃ o, (n, o) ∈ ((s.step c (y, .close)).get y).p.outcomes := by
    rw [step_get, if_pos rfl]
    have hall : n ∈ (s.get y).p.all := hi.conserve.mem_iff.2 (List.mem_range.2 (hi.sentBound _ hs))
    have hck := hi.sentChecked _ hs
    unfold P.all at hall
    simp only [List.mem_append] at hall
    simp only [End.step, P.step, P.close]
    rcases hall with (h | h) | h
    · exact absurd h hck
    · obtain ⟨⟨k', n'⟩, h2, h3⟩ := List.mem_map.1 h
      simp only at h3
      subst h3
      exact ⟨.closed k', List.mem_append_right _ (List.mem_map.2 ⟨_, h2, rfl⟩)⟩
    · obtain ⟨⟨n', o⟩, h2, h3⟩ := List.mem_map.1 h
      simp only at h3
      subst h3
      exact ⟨o, List.mem_append_left _ h2⟩
  obtain ⟨o, ho⟩ := h1
  refine ⟨o, ?_⟩
  have mono : ∀ (more : List (Bool × EndOp D)) (t : Pair D), (t.get y).p.outcomes <+: ((t.run c more).get y).p.outcomes := by
    intro more
    induction more with
    | nil => intro t; exact List.prefix_rfl
    | cons x more ih => intro t; exact (grows_pair c t x y).outcomes.trans (ih _)
  exact (mono more _).subset ho

/-! ### Cases -/

/-- A handler that sends the method back. -/
def echo : Request Empty → Prog Empty := fun q => .done (.resp ⟨.null, some (.str q.method), none⟩)

theorem echo_plain : ∀ q, PlainProg (echo q) := by
  intro q
  refine ⟨fun v hv => ?_, fun v hv => (by cases hv), fun h => (by cases h), .inl (by simp)⟩
  cases hv
  exact ⟨trivial, fun h => (by cases h)⟩

theorem echo_alone : ∀ q, Alone (echo q) := fun _ => trivial

def demo : Cfg Empty := ⟨fun _ => echo, fun _ => 1000000⟩

/-- The first side takes no more than 20 bytes. -/
def narrow : Cfg Empty := ⟨fun _ => echo, fun y => if y then 1000000 else 20⟩

def asks : List (Bool × EndOp Empty) := [(false, .check ⟨.null, lit "ping", none⟩), (false, .file 0 0)]

/-- A request and its answer, there and back. -/
def trip : List (Bool × EndOp Empty) :=
  asks ++ [(false, .push 0), (false, .dequeue), (false, .write 999), (false, .finish), (true, .read 4000), (true, .decode), (true, .work false),
    (true, .dequeue), (true, .write 999), (true, .finish), (false, .read 4000), (false, .decode)]

theorem trip_plain : ∀ op ∈ trip, PlainStep op := by
  have h1 : PlainReq (⟨.null, lit "ping", none⟩ : Request Empty) := ⟨trivial, plain_dec (by decide), by decide, fun v hv => (by cases hv)⟩
  intro op hop
  simp only [trip, asks, List.mem_append, List.mem_cons, List.not_mem_nil, or_false] at hop
  rcases hop with (rfl | rfl) | rfl | rfl | rfl | rfl | rfl | rfl | rfl | rfl | rfl | rfl | rfl | rfl
  · exact h1
  all_goals trivial

theorem asks_plain : ∀ op ∈ asks, PlainStep op := fun op h => trip_plain op (List.mem_append_left _ h)

theorem own_one : OwnTexts [RpcId.null] := by
  refine ⟨?_, ?_, by decide⟩
  · intro i j a b ha hb _ hne
    have hi : i < 1 := (List.getElem?_eq_some_iff.1 ha).1
    have hj : j < 1 := (List.getElem?_eq_some_iff.1 hb).1
    omega
  · intro i hi c h
    simp only [List.mem_singleton] at hi
    subst hi
    cases h

theorem own_none : OwnTexts [] := ⟨(by intro i j a b ha; cases ha), (by intro i hi; cases hi), (by decide)⟩

theorem own_pair {s : Pair Empty} (h1 : s.a.given.map (·.id) = [.null]) (h2 : s.b.given.map (·.id) = []) (y : Bool) : OwnTexts ((s.get y).given.map (·.id)) := by
  cases y
  · show OwnTexts (s.a.given.map (·.id)); rw [h1]; exact own_one
  · show OwnTexts (s.b.given.map (·.id)); rw [h2]; exact own_none

/-- One turn after the other. -/
def rounds (t : Nat) : Bool × EndOp D :=
  (decide (t / 7 % 2 = 1), match t % 7 with
    | 0 => .push 0
    | 1 => .dequeue
    | 2 => .write 0
    | 3 => .finish
    | 4 => .read 0
    | 5 => .decode
    | _ => .work false)

theorem rounds_turns : Turns (rounds : Nat → Bool × EndOp D) := by
  have key : ∀ (y : Bool) (t r : Nat), r < 7 → ∃ u, t ≤ u ∧ u % 7 = r ∧ decide (u / 7 % 2 = 1) = y := by
    intro y t r hr
    refine ⟨14 * t + 7 * (if y then 1 else 0) + r, by omega, by split <;> omega, ?_⟩
    cases y
    · simp only [Bool.false_eq_true, if_false, decide_eq_false_iff_not]; omega
    · simp only [if_true, decide_eq_true_eq]; omega
  have val : ∀ (u r : Nat) (y : Bool), u % 7 = r → decide (u / 7 % 2 = 1) = y → (rounds u : Bool × EndOp D) = (y, match r with
    | 0 => .push 0
    | 1 => .dequeue
    | 2 => .write 0
    | 3 => .finish
    | 4 => .read 0
    | 5 => .decode
    | _ => .work false) := by
    intro u r y h1 h2
    unfold rounds
    rw [h1, h2]
  refine ⟨fun t => ?_, fun y t => ?_, fun y t => ?_, fun y t => ?_, fun y t => ?_, fun y t => ?_, fun y t => ?_, fun y t => ?_⟩
  · unfold rounds
    simp only
    split <;> constructor
  · obtain ⟨u, h1, h2, h3⟩ := key y t 0 (by omega); exact ⟨u, h1, val u 0 y h2 h3⟩
  · obtain ⟨u, h1, h2, h3⟩ := key y t 1 (by omega); exact ⟨u, h1, val u 1 y h2 h3⟩
  · obtain ⟨u, h1, h2, h3⟩ := key y t 2 (by omega); exact ⟨u, 0, h1, val u 2 y h2 h3⟩
  · obtain ⟨u, h1, h2, h3⟩ := key y t 3 (by omega); exact ⟨u, h1, val u 3 y h2 h3⟩
  · obtain ⟨u, h1, h2, h3⟩ := key y t 4 (by omega); exact ⟨u, 0, h1, val u 4 y h2 h3⟩
  · obtain ⟨u, h1, h2, h3⟩ := key y t 5 (by omega); exact ⟨u, h1, val u 5 y h2 h3⟩
  · obtain ⟨u, h1, h2, h3⟩ := key y t 6 (by omega); exact ⟨u, false, h1, val u 6 y h2 h3⟩

/-- A request and its answer: the hypotheses of `C114_in_order`, `C114_answer_partial` and `C114_once_partial`; one request is answered, and one future completed. -/
example : let s := (Pair.init : Pair Empty).run demo trip
    Plain demo trip ∧ (∀ y, OwnTexts ((s.get y).given.map (·.id))) ∧ s.b.replies.length = 1 ∧
    s.a.p.outcomes.map (fun x => (x.1, match x.2 with | .response r => r.result | _ => none)) = [(0, some (.str (lit "ping")))] := by
  intro s
  have h : s.a.given.map (·.id) = [.null] ∧ s.b.given.map (·.id) = [] ∧ s.b.replies.length = 1 ∧
      s.a.p.outcomes.map (fun x => (x.1, match x.2 with | .response r => r.result | _ => none)) = [(0, some (.str (lit "ping")))] := by decide +kernel
  refine ⟨⟨fun _ => echo_plain, trip_plain⟩, own_pair h.1 h.2.1, h.2.2⟩

/-- A request filed and not yet queued: the hypotheses of `C114_settles_partial`. -/
example : let s := (Pair.init : Pair Empty).run demo asks
    Plain demo asks ∧ (∀ y q, Alone (demo.handler y q)) ∧ Turns (rounds : Nat → Bool × EndOp Empty) ∧ (∀ y, OwnTexts ((s.get y).given.map (·.id))) ∧
    (∀ y, (s.get y).p.checked = []) ∧ s.a.given.length = 1 ∧ s.a.p.outcomes.length = 0 := by
  intro s
  have h : s.a.given.map (·.id) = [.null] ∧ s.b.given.map (·.id) = [] ∧ s.a.p.checked.length = 0 ∧ s.b.p.checked.length = 0 ∧ s.a.given.length = 1 ∧
      s.a.p.outcomes.length = 0 := by decide +kernel
  refine ⟨⟨fun _ => echo_plain, asks_plain⟩, fun _ => echo_alone, rounds_turns, own_pair h.1 h.2.1, fun y => ?_, h.2.2.2.2⟩
  cases y
  · show s.a.p.checked = []; exact List.length_eq_zero_iff.1 h.2.2.1
  · show s.b.p.checked = []; exact List.length_eq_zero_iff.1 h.2.2.2.1

/-- A handler that asks the caller and returns what it is told. -/
def asker : Cfg Empty := ⟨fun y => if y then fun _ => .ask ⟨.int 3, lit "more", none⟩ fun _ => .done .nul else echo, fun _ => 1000000⟩

def asked : List (Bool × EndOp Empty) :=
  asks ++ [(false, .push 0), (false, .dequeue), (false, .write 999), (false, .finish), (true, .read 4000), (true, .decode), (true, .work false)]

/-- A handler that waits: the case of `C114_told` and, with a call that is filed, of `C114_close`. It is told when its own side times the request out. -/
example : let s := (Pair.init : Pair Empty).run asker asked
    (s.b.job.map (·.wait)) = some (some 0) ∧ s.b.given.map (·.id) = [.int 3] ∧ s.a.p.sent.length = 1 ∧ s.a.p.outcomes.length = 0 ∧
    (s.run asker [(true, .file 0 0), (true, .sweep 40000), (true, .work false)]).b.told.length = 1 := by decide +kernel

/-- An answer that is too large: the hypotheses of `C114_cut_only`. -/
example : let s := (Pair.init : Pair Empty).run narrow trip.dropLast
    Internal (EndOp.decode : EndOp Empty) ∧ s.a.w.connected = true ∧ (s.step narrow (false, .decode)).a.w.connected = false := by
  intro s
  refine ⟨.decode, ?_⟩
  decide +kernel

/-! ### An answer that is too large -/

/-- Nothing completes the first call of this side any more. -/
structure Stuck (e : End D) : Prop where
  w : e.w.connected = false
  p : e.p.connected = false
  checked : e.p.checked = []
  next : 1 ≤ e.p.nextFut
  none : ∀ o, (0, o) ∉ e.p.outcomes

theorem stuck_check {e : End D} (h : Stuck e) (q : Request D) : Stuck (e.check q) := by
  obtain ⟨h1, h2, h3, h4, h5⟩ := h
  refine ⟨h1, ?_, ?_, ?_, ?_⟩
  all_goals simp only [End.check, P.step, P.sendCheck, h2, Bool.false_eq_true, if_false]
  · exact h3
  · omega
  · intro o ho
    simp only [List.mem_append, List.mem_singleton, Prod.mk.injEq] at ho
    rcases ho with ho | ⟨ho, -⟩
    · exact h5 o ho
    · omega

theorem stuck_own (max : Nat) (h : Request D → Prog D) (sent : Bytes) {e : End D} (he : Stuck e) (op : EndOp D) (hop : op ≠ .close) :
    Stuck (e.step max h sent op) := by
  have same : ∀ g : End D, g.w.connected = false → g.p = e.p → Stuck g := fun g h1 h2 =>
    ⟨h1, by rw [h2]; exact he.p, by rw [h2]; exact he.checked, by rw [h2]; exact he.next, by rw [h2]; exact he.none⟩
  have off : ∀ (g : End D), g.w.connected = false → g.p = e.p.step .disconnect → Stuck g := fun g h1 h2 =>
    ⟨h1, by rw [h2]; rfl, by rw [h2]; exact he.checked, by rw [h2]; exact he.next, by rw [h2]; exact he.none⟩
  have hw : ∀ (g : End D) wop, g.w = e.w → g.p = e.p → Stuck (g.writes wop) := by
    intro g wop h1 h2
    have hc : (g.writes wop).w.connected = false := by
      rw [writes_w, h1]
      cases hcc : (e.w.step wop).connected with
      | false => rfl
      | true => have := wstep_off _ _ hcc; rw [he.w] at this; cases this
    rcases writes_p g wop with h3 | h3
    · exact same _ hc (h3.trans h2)
    · exact off _ hc (by rw [h3, h2])
  cases op with
  | check q => exact stuck_check he q
  | file n now =>
    simp only [End.step, End.file, P.waiting, he.checked, AMap.get_nil]
    exact he
  | note n => simp only [End.step, End.note, he.w, Bool.false_eq_true, if_false]; exact he
  | push i =>
    simp only [End.step, End.push]
    split
    · exact hw _ _ rfl rfl
    · exact he
  | dequeue => exact hw _ _ rfl rfl
  | write k => exact hw _ _ rfl rfl
  | writeFail => exact hw _ _ rfl rfl
  | finish => exact hw _ _ rfl rfl
  | setMax n => exact hw _ _ rfl rfl
  | read k => simp only [End.step, End.read, he.w, Bool.false_eq_true, false_and, if_false]; exact he
  | decode => simp only [End.step, End.decode, he.w, Bool.false_eq_true, false_and, if_false]; exact he
  | work b =>
    simp only [End.step, End.work]
    split
    · exact he
    · split
      · exact hw _ _ rfl rfl
      · exact same _ he.w rfl
      · rename_i q k _ _
        have := stuck_check he q
        exact ⟨this.w, this.p, this.checked, this.next, this.none⟩
      · split
        · exact he
        · exact same _ he.w rfl
  | sweep now =>
    refine same _ he.w ?_
    simp only [End.step, P.step, P.sweep, he.p, Bool.false_eq_true, if_false]
  | cut => exact off _ rfl rfl
  | close => exact absurd rfl hop
  | setTimeout t => exact ⟨he.w, he.p, he.checked, he.next, he.none⟩

/-- C114. An answer larger than the content limit of the caller ends the connection, and the call stays open: no time limit and no message completes it,
until `Close` is called. -/
theorem C114_oversize_counterexample (more : List (Bool × EndOp Empty)) (hm : (false, EndOp.close) ∉ more) :
    let s := (Pair.init : Pair Empty).run narrow trip
    Plain narrow trip ∧ (∀ y q, Alone (narrow.handler y q)) ∧ s.b.replies.length = 1 ∧ s.a.p.sent.length = 1 ∧
      ∀ o, (0, o) ∉ ((s.run narrow more).get false).p.outcomes := by
  intro s
  have h : s.a.w.connected = false ∧ s.a.p.connected = false ∧ s.a.p.checked.length = 0 ∧ s.a.p.nextFut = 1 ∧ s.a.p.outcomes.length = 0 ∧
      s.b.replies.length = 1 ∧ s.a.p.sent.length = 1 := by decide +kernel
  obtain ⟨h1, h2, h3, h4, h5, h6, h7⟩ := h
  have h0 : Stuck (s.get false) := by
    refine ⟨h1, h2, List.length_eq_zero_iff.1 h3, by show 1 ≤ s.a.p.nextFut; omega, ?_⟩
    show ∀ o, (0, o) ∉ s.a.p.outcomes
    rw [List.length_eq_zero_iff.1 h5]; simp
  refine ⟨⟨fun _ => echo_plain, trip_plain⟩, fun _ => echo_alone, h6, h7, ?_⟩
  have key : ∀ (more : List (Bool × EndOp Empty)) (s : Pair Empty), (false, EndOp.close) ∉ more → Stuck (s.get false) → Stuck ((s.run narrow more).get false) := by
    intro more
    induction more with
    | nil => intro s _ h; exact h
    | cons x more ih =>
      intro s hm hs
      refine ih _ (fun h => hm (by simp [h])) ?_
      obtain ⟨x, op⟩ := x
      rw [step_get]
      split
      · rename_i hx
        refine stuck_own _ _ _ hs op (fun e => hm ?_)
        rw [hx, e]; simp
      · exact hs
  exact (key more s hm h0).none

end Verif.Duplex
