import Verif.Stdio.DuplexFlow

/-! Helper lemmas for C114: without new calls the work of two stdio transports is finite. -/

namespace Verif.Duplex

open Verif.Stdio Verif.Framer
open Verif.Serve (Prog Ev event tailEvent stamped no_new_response)
open Verif.InMemory (PlainReq PlainNote PlainOut replyFor_classified replyFor_id)

variable {D : Type} [DblFmt D]

/-- A handler that sends no request of its own. -/
def Alone : Prog D → Prop
  | .done _ => True
  | .ask _ _ => False
  | .look k => ∀ b, Alone (k b)

/-- The steps of the threads of a transport, without those of callers and timers. -/
inductive Internal : EndOp D → Prop
  | push (i : Nat) : Internal (.push i)
  | dequeue : Internal .dequeue
  | write (k : Nat) : Internal (.write k)
  | finish : Internal .finish
  | read (k : Nat) : Internal (.read k)
  | decode : Internal .decode
  | work (b : Bool) : Internal (.work b)

/-! ### The handlers at work -/

def AloneEnd (e : End D) : Prop := ∀ j, e.job = some j → Alone j.prog

theorem alone_own (max : Nat) {h : Request D → Prog D} (hh : ∀ q, Alone (h q)) (sent : Bytes) {e : End D} (he : AloneEnd e) (op : EndOp D) :
    AloneEnd (e.step max h sent op) := by
  have same : ∀ g : End D, g.job = e.job → AloneEnd g := fun g hg j hj => he j (by rw [← hg]; exact hj)
  cases op with
  | check q => exact same _ rfl
  | file n now => simp only [End.step, End.file]; split <;> exact same _ rfl
  | note n => simp only [End.step, End.note]; split <;> exact same _ rfl
  | push i =>
    simp only [End.step, End.push]; split
    · exact same _ (writes_aside _ _).job
    · exact he
  | dequeue => exact same _ (writes_aside _ _).job
  | write k => exact same _ (writes_aside _ _).job
  | writeFail => exact same _ (writes_aside _ _).job
  | finish => exact same _ (writes_aside _ _).job
  | setMax n => exact same _ (writes_aside _ _).job
  | read k => simp only [End.step, End.read]; split <;> exact same _ rfl
  | decode =>
    simp only [End.step, End.decode]
    split
    · split
      · exact he
      · unfold End.process
        split
        · exact same _ rfl
        · intro j hj; cases hj; exact hh _
        · exact same _ rfl
        · exact same _ rfl
      · exact same _ rfl
      · exact same _ rfl
    · exact he
  | work b =>
    simp only [End.step, End.work]
    split
    · exact he
    · rename_i j hj
      have hj2 := he j hj
      split
      · intro j' hj'
        rw [(writes_aside _ _).job] at hj'
        cases hj'
      · rename_i k hprog
        rw [hprog] at hj2
        intro j' hj'; cases hj'; exact hj2 b
      · rename_i q k hprog hwait
        rw [hprog] at hj2; exact hj2.elim
      · rename_i q k n hprog hwait
        rw [hprog] at hj2; exact hj2.elim
  | sweep now => exact same _ rfl
  | cut => exact same _ rfl
  | close => exact same _ rfl
  | setTimeout t => exact same _ rfl

def AlonePair (s : Pair D) : Prop := ∀ y, AloneEnd (s.get y)

theorem alone_step {c : Cfg D} (hh : ∀ y q, Alone (c.handler y q)) {s : Pair D} (hs : AlonePair s) (x : Bool × EndOp D) : AlonePair (s.step c x) := by
  obtain ⟨x, op⟩ := x
  intro y
  rw [step_get]
  split
  · exact alone_own _ (hh y) _ (hs y) op
  · exact hs y

theorem alone_run {c : Cfg D} (hh : ∀ y q, Alone (c.handler y q)) (ops : List (Bool × EndOp D)) : ∀ {s : Pair D}, AlonePair s → AlonePair (s.run c ops) := by
  induction ops with
  | nil => intro s h; exact h
  | cons op ops ih => intro s h; exact ih (alone_step hh h op)

theorem alone_init : AlonePair (Pair.init : Pair D) := by intro y; cases y <;> exact fun j hj => nomatch hj

/-! ### What is left to do -/

/-- The steps an answer takes on its way, and those of the handler before it. -/
def cost (q : Request D) : Prog D → Nat
  | .done o => 5 + 2 * (encode (serResponse (replyFor q o))).length
  | .ask _ _ => 0
  | .look k => 1 + max (cost q (k true)) (cost q (k false))

/-- The work a message makes when it arrives. -/
def load (h : Request D → Prog D) (m : Bytes) : Nat :=
  match event (D := D) m with
  | .request q => cost q (h q)
  | _ => 0

/-- What the writer has to do. -/
def toWrite (w : W) : Nat :=
  2 * w.queue.length + (if w.cur.isSome then 1 else 0) + ((wire w.accepted).length - w.out.length) + (if w.connected then 1 else 0)

/-- What callers that stand before `enqueueFrame` will make. -/
def toPush (h : Request D → Prog D) (l : List Bytes) : Nat := (l.map (fun m => 4 + 2 * (encode m).length + load h m)).sum

/-- What the reader has to do. -/
def toRead (h : Request D → Prog D) (accepted : List Bytes) (got : Nat) (taken : List Bytes) : Nat :=
  ((wire accepted).length - got) + ((accepted.drop taken.length).map (fun m => 1 + load h m)).sum

def toServe (e : End D) : Nat :=
  match e.job with
  | some j => cost j.req j.prog
  | none => 0

/-- What a step of `e` can change of what is left to do; `h` is its own handler, `h'` that of `f`. -/
def left (h h' : Request D → Prog D) (e f : End D) : Nat :=
  toPush h' e.ready + toWrite e.w + toServe e + toRead h f.w.accepted e.got e.taken + toRead h' e.w.accepted f.got f.taken

/-- All that is left to do. -/
def todo (c : Cfg D) (s : Pair D) : Nat :=
  toPush (c.handler true) s.a.ready + toWrite s.a.w + toServe s.a + toPush (c.handler false) s.b.ready + toWrite s.b.w + toServe s.b +
    toRead (c.handler false) s.b.w.accepted s.a.got s.a.taken + toRead (c.handler true) s.a.w.accepted s.b.got s.b.taken

theorem todo_eq (c : Cfg D) (s : Pair D) (y : Bool) :
    todo c s = left (c.handler y) (c.handler (!y)) (s.get y) (s.get (!y)) +
      (toPush (c.handler y) (s.get (!y)).ready + toWrite (s.get (!y)).w + toServe (s.get (!y))) := by
  unfold todo left
  cases y <;> simp only [Pair.get, Bool.not_true, Bool.not_false] <;> omega

theorem sum_perm {l k : List Bytes} (f : Bytes → Nat) (h : l.Perm k) : (l.map f).sum = (k.map f).sum := by
  induction h with
  | nil => rfl
  | cons a _ ih => simp only [List.map_cons, List.sum_cons, ih]
  | swap a b l => simp only [List.map_cons, List.sum_cons]; omega
  | trans _ _ h1 h2 => exact h1.trans h2

theorem toPush_erase (h : Request D → Prog D) {l : List Bytes} {i : Nat} {m : Bytes} (hm : l[i]? = some m) :
    toPush h l = toPush h (l.eraseIdx i) + (4 + 2 * (encode m).length + load h m) := by
  unfold toPush
  rw [← sum_perm _ (erase_perm hm)]
  simp only [List.map_cons, List.sum_cons]; omega

theorem toRead_append (h : Request D → Prog D) {acc : List Bytes} {got : Nat} {taken : List Bytes} (m : Bytes) (h1 : taken.length ≤ acc.length)
    (h2 : got ≤ (wire acc).length) : toRead h (acc ++ [m]) got taken = toRead h acc got taken + ((encode m).length + 1 + load h m) := by
  unfold toRead
  have hnil : (wire []).length = 0 := rfl
  rw [List.drop_append_of_le_length h1, wire_append, wire_cons]
  simp only [List.map_append, List.sum_append, List.length_append, List.map_cons, List.map_nil, List.sum_cons, List.sum_nil, hnil]
  omega

/-- A payload is taken, or the connection is given up. -/
theorem enqueue_load (w : W) (hi : w.Inv) (m : Bytes) :
    ((w.step (.enqueue m)).accepted = w.accepted ++ [m] ∧ toWrite (w.step (.enqueue m)) = toWrite w + 2 + (encode m).length) ∨
    ((w.step (.enqueue m)).accepted = w.accepted ∧ toWrite (w.step (.enqueue m)) ≤ toWrite w) := by
  have hle := hi.pre.length_le
  simp only [W.step, W.enqueue]
  split
  · right
    refine ⟨rfl, ?_⟩
    simp only [toWrite]
    split <;> simp
  · left
    refine ⟨rfl, ?_⟩
    simp only [toWrite, List.length_append, List.length_singleton, wire_append, wire_cons]
    simp only [wire, List.map_nil, List.flatten_nil, List.length_nil] at *
    omega

theorem dequeue_load (w : W) : w.step .dequeue = w ∨ (toWrite (w.step .dequeue) < toWrite w ∧ (w.step .dequeue).accepted = w.accepted) := by
  simp only [W.step, W.dequeue]
  split
  · rename_i hc hq
    right
    refine ⟨?_, rfl⟩
    simp only [toWrite, hq, hc, List.length_cons, Option.isSome_some, Option.isSome_none, if_true]
    simp only [Bool.false_eq_true, if_false]
    omega
  · exact .inl rfl

theorem write_load (w : W) (hi : w.Inv) (k : Nat) : w.step (.write k) = w ∨ (toWrite (w.step (.write k)) < toWrite w ∧ (w.step (.write k)).accepted = w.accepted) := by
  have hle := (winv_step w (.write k) hi).pre.length_le
  revert hle
  simp only [W.step, W.write]
  split
  · rename_i f t hc
    split
    · rename_i ht
      intro hle
      right
      refine ⟨?_, rfl⟩
      simp only [toWrite, hc, List.length_append, List.length_take, List.length_drop, Option.isSome_some] at hle ⊢
      have : 0 < min (min (k + 1) (f.length - t)) (f.length - t) := by omega
      omega
    · exact fun _ => .inl rfl
  · exact fun _ => .inl rfl

theorem finish_load (w : W) : w.step .finish = w ∨ (toWrite (w.step .finish) < toWrite w ∧ (w.step .finish).accepted = w.accepted) := by
  simp only [W.step, W.finish]
  split
  · rename_i f t hc
    split
    · exact .inl rfl
    · right
      refine ⟨?_, rfl⟩
      simp only [toWrite, hc, Option.isSome_some, Option.isSome_none, if_true, Bool.false_eq_true, if_false]
      omega
  · exact .inl rfl

/-- A step of the outgoing side that does nothing does nothing. -/
theorem writes_idle {e : End D} (hc : e.w.connected = e.p.connected) {op : WOp} (h : e.w.step op = e.w) : e.writes op = e := by
  unfold End.writes
  rw [h]
  split
  · rfl
  · rename_i hn
    rw [hc] at hn
    have : e.p.step .disconnect = e.p := by
      simp only [P.step]
      cases hp : e.p with
      | mk a b c d e f g h i =>
        rw [hp] at hn
        simp only at hn ⊢
        cases c with
        | true => exact absurd rfl hn
        | false => rfl
    rw [this]

theorem cost_pos (q : Request D) {p : Prog D} (h : Alone p) : 0 < cost q p := by
  cases p with
  | done o => simp only [cost]; omega
  | ask q k => exact h.elim
  | look k => simp only [cost]; omega

/-- Each step of the threads does nothing or lowers what is left to do. -/
theorem left_own (max : Nat) {h h' : Request D → Prog D} {e f : End D} (hb : Base e f.w) (hbf : Base f e.w) (hp : PlainEnd e)
    (ha : AloneEnd e) {op : EndOp D} (hi : Internal op) :
    e.step max h f.w.out op = e ∨ left h h' (e.step max h f.w.out op) f < left h h' e f := by
  have hwf : f.got ≤ (wire e.w.accepted).length := Nat.le_trans hbf.reads.le hb.winv.pre.length_le
  have hwe : e.got ≤ (wire f.w.accepted).length := Nat.le_trans hb.reads.le hbf.winv.pre.length_le
  have htf : f.taken.length ≤ e.w.accepted.length := hbf.reads.order.length_le
  have hte : e.taken.length ≤ f.w.accepted.length := hb.reads.order.length_le
  have plainW : ∀ wop, e.w.step wop = e.w ∨ (toWrite (e.w.step wop) < toWrite e.w ∧ (e.w.step wop).accepted = e.w.accepted) →
      e.writes wop = e ∨ left h h' (e.writes wop) f < left h h' e f := by
    intro wop hc
    rcases hc with hc | ⟨h1, h2⟩
    · exact .inl (writes_idle hb.conn hc)
    · right
      have hs := writes_aside e wop
      have hww := writes_w e wop
      unfold left toServe
      rw [hs.ready, hs.job, hs.got, hs.taken, hww, h2]
      omega
  cases hi with
  | push i =>
    simp only [End.step, End.push]
    split
    · rename_i m hm
      right
      have hs := writes_aside { e with ready := e.ready.eraseIdx i } (.enqueue m)
      have hww := writes_w { e with ready := e.ready.eraseIdx i } (.enqueue m)
      have hpe := toPush_erase h' hm
      unfold left toServe
      rw [hs.ready, hs.job, hs.got, hs.taken, hww]
      simp only
      rcases enqueue_load e.w hb.winv m with ⟨h1, h2⟩ | ⟨h1, h2⟩
      · rw [h1, h2, toRead_append h' m htf hwf]
        omega
      · rw [h1]
        omega
    · exact .inl rfl
  | dequeue => exact plainW _ (dequeue_load _)
  | write k => exact plainW _ (write_load _ hb.winv k)
  | finish => exact plainW _ (finish_load _)
  | read k =>
    simp only [End.step, End.read]
    split
    · by_cases hz : (List.take (min (k + 1) 4096) (List.drop e.got f.w.out)).length = 0
      · left
        have : List.take (min (k + 1) 4096) (List.drop e.got f.w.out) = [] := List.length_eq_zero_iff.1 hz
        rw [this]; simp
      · right
        have hlen : (List.take (min (k + 1) 4096) (List.drop e.got f.w.out)).length ≤ f.w.out.length - e.got := by
          rw [← List.length_drop]; exact List.length_take_le' _ _
        generalize List.take (min (k + 1) 4096) (List.drop e.got f.w.out) = chunk at hz hlen ⊢
        have hol := hbf.winv.pre.length_le
        unfold left toServe toRead
        simp only
        omega
    · exact .inl rfl
  | decode =>
    simp only [End.step, End.decode]
    split
    · rename_i hcond
      rcases decode_cases hb.reads hbf.winv hbf.sized max with h1 | ⟨m, rest, tail, h1, h2, h3, h4⟩ | ⟨m, rest, k, h1, h2, h3⟩
      · rw [h1]; exact .inl rfl
      · right
        rw [h4]
        simp only
        have hd : f.w.accepted.drop e.taken.length = m :: f.w.accepted.drop (e.taken ++ [m]).length := by
          rw [h1, List.drop_left]
          rw [show e.taken ++ m :: rest = (e.taken ++ [m]) ++ rest by simp, List.drop_left]
        have hr : ∀ got, toRead h f.w.accepted got e.taken = toRead h f.w.accepted got (e.taken ++ [m]) + (1 + load h m) := by
          intro got
          unfold toRead
          rw [hd]
          simp only [List.map_cons, List.sum_cons]
          omega
        have hj : toServe e = 0 := by
          unfold toServe
          cases hjj : e.job with
          | none => rfl
          | some j => rw [hjj] at hcond; simp at hcond
        unfold left
        rw [hr e.got, hj]
        unfold End.process load toServe
        have hjob : e.job = none := by cases hjj : e.job with
          | none => rfl
          | some j => rw [hjj] at hcond; simp at hcond
        split
        all_goals rename_i hev
        all_goals simp only [hev, hjob]
        all_goals omega
      · right
        rw [h3]
        have hw : toWrite e.cut.w < toWrite e.w := by
          have hc : e.w.connected = true := hcond.1
          unfold End.cut W.step toWrite
          simp only [hc, if_true]
          exact Nat.lt_succ_self _
        have hrest : left h h' e.cut f + toWrite e.w = left h h' e f + toWrite e.cut.w := by
          unfold left
          simp only [show e.cut.w.accepted = e.w.accepted from rfl, show e.cut.ready = e.ready from rfl, show e.cut.got = e.got from rfl,
            show e.cut.taken = e.taken from rfl, show toServe e.cut = toServe e from rfl]
          omega
        show left h h' e.cut f < left h h' e f
        omega
    · exact .inl rfl
  | work b =>
    simp only [End.step, End.work]
    split
    · exact .inl rfl
    · rename_i j hj
      have hj2 := ha j hj
      have hj3 := hp.job j hj
      right
      split
      · rename_i o hprog
        rw [hprog] at hj3
        have hs := writes_aside { e with job := none, replies := e.replies ++ [(j.req, o)] } (.enqueue (serResponse (replyFor j.req o)))
        have hww := writes_w { e with job := none, replies := e.replies ++ [(j.req, o)] } (.enqueue (serResponse (replyFor j.req o)))
        have hev := event_reply hj3.1.1 hj3.2
        have hl : load h' (serResponse (replyFor j.req o)) = 0 := by unfold load; rw [hev]
        unfold left toServe
        rw [hs.ready, hs.job, hs.got, hs.taken, hww]
        simp only [hj, hprog, cost]
        rcases enqueue_load e.w hb.winv (serResponse (replyFor j.req o)) with ⟨h1, h2⟩ | ⟨h1, h2⟩
        · rw [h1, h2, toRead_append h' _ htf hwf, hl]
          omega
        · rw [h1]
          omega
      · rename_i k hprog
        unfold left toServe
        simp only [hj, hprog, cost]
        cases b <;> omega
      · rename_i q k hprog hwait
        rw [hprog] at hj2; exact hj2.elim
      · rename_i q k n hprog hwait
        rw [hprog] at hj2; exact hj2.elim

theorem todo_step {c : Cfg D} {s : Pair D} (hg : Good s) (hp : PlainPair s) (ha : AlonePair s) {x : Bool × EndOp D} (hi : Internal x.2) :
    s.step c x = s ∨ todo c (s.step c x) < todo c s := by
  obtain ⟨x, op⟩ := x
  have hbf := hg (!x)
  rw [Bool.not_not] at hbf
  have hgx : (s.step c (x, op)).get x = (s.get x).step (c.max x) (c.handler x) (s.get (!x)).w.out op := by rw [step_get, if_pos rfl]
  have hgo : (s.step c (x, op)).get (!x) = s.get (!x) := by rw [step_get, if_neg (by cases x <;> simp)]
  rcases left_own (c.max x) (h := c.handler x) (h' := c.handler (!x)) (hg x) hbf (hp x) (ha x) hi with h1 | h1
  · left
    unfold Pair.step
    simp only
    rw [h1]
    cases x <;> rfl
  · right
    rw [todo_eq c _ x, todo_eq c s x, hgx, hgo]
    exact Nat.add_lt_add_right h1 _

end Verif.Duplex
