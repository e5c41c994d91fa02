import Verif.Stdio.DuplexInv
import Verif.Http.LinkLemmas

/-!
C114: two stdio transports joined by pipes. A request is put to the other side's handler once, and what completes its future is the answer of
that handler to that very request.
-/

namespace Verif.Duplex

open Verif.Stdio Verif.Framer
open Verif.Serve (Prog Ev event tailEvent stamped no_new_response)
open Verif.InMemory (PlainReq PlainNote PlainOut replyFor_classified replyFor_id)

variable {D : Type} [DblFmt D]

/-! ### Specification -/

/-- Handlers whose requests and answers survive the wire format. -/
def PlainProg : Prog D → Prop
  | .done o => PlainAnswer o
  | .ask q k => PlainReq q ∧ ∀ o, PlainProg (k o)
  | .look k => ∀ b, PlainProg (k b)

/-- Traffic that survives the wire format. -/
def PlainStep : Bool × EndOp D → Prop
  | (_, .check q) => PlainReq q
  | (_, .note n) => PlainNote n
  | _ => True

/-- Both sides and their traffic survive the wire format. -/
structure Plain (c : Cfg D) (ops : List (Bool × EndOp D)) : Prop where
  handlers : ∀ y q, PlainProg (c.handler y q)
  ops : ∀ op ∈ ops, PlainStep op

/-- Ids under which the answers cannot be mixed up: those given differ, none looks like one the transport makes, and there are fewer than 2^32
calls. -/
structure OwnTexts (ids : List RpcId) : Prop where
  distinct : ∀ (i j : Nat) (a b : RpcId), ids[i]? = some a → ids[j]? = some b → idText a = idText b → idText a ≠ [] → i = j
  foreign : ∀ i ∈ ids, ∀ c, idText i ≠ lit "req-" ++ natDec c
  few : ids.length < 2 ^ 32

/-- The request as it arrives: what the caller gave, with an id made if they gave none. -/
def ArrivesAs (given arrived : Request D) : Prop :=
  arrived.method = given.method ∧ arrived.params = given.params ∧ (idText given.id ≠ [] → arrived.id = given.id)

/-! ### What the texts of messages are read as -/

theorem event_request {q : Request D} (hq : PlainReq q) : event (serRequest q) = .request q := by
  have hc := C15_request_classified q hq.1 hq.2.1 hq.2.2.2
  have hd := C04_request_roundtrip_wire q hq.1.ok hq.2.1.noQuote hq.2.2.1 hq.2.2.2
  unfold classify at hc
  split at hc
  · cases hc
  · next h1 =>
    split at hc
    · next h2 =>
      split at hc
      · next h3 =>
        unfold event
        rw [if_neg h1, if_pos (by simp [h2, h3])]
        simp only [hd]
      · cases hc
    · cases hc

theorem event_note {n : Notification D} (hn : PlainNote n) : event (serNotification n) = .note n := by
  have hc := C15_notification_classified n hn.1 hn.2.2
  have hd := C06_notification_roundtrip_wire n hn.1.noQuote hn.2.1 hn.2.2
  unfold classify at hc
  split at hc
  · cases hc
  · next h1 =>
    split at hc
    · next h2 =>
      split at hc
      · cases hc
      · next h3 =>
        unfold event
        rw [if_neg h1, if_neg (by simp [h3])]
        unfold tailEvent
        rw [hd]
    · cases hc

theorem event_reply {q : Request D} (hq : IdPlain q.id) {o : HandlerOutcome D} (ho : PlainAnswer o) :
    event (serResponse (replyFor q o)) = .response (replyFor q o) := by
  have hc := replyFor_classified hq ho.out
  unfold classify at hc
  split at hc
  · next h1 =>
    unfold event
    rw [if_pos h1, answer_read hq ho]
  · split at hc
    · split at hc <;> cases hc
    · cases hc

theorem key_plain (c : Nat) : PlainText (lit "req-" ++ natDec c) := by
  intro x hx
  rcases List.mem_append.1 hx with h1 | h1
  · clear hx; revert x; decide
  · have := natDec_isDig h1
    constructor <;> (intro e; subst e; revert this; decide)

theorem stamped_plain {q : Request D} (hq : PlainReq q) {k : Bytes} (hk : KeyFor q.id k) : PlainReq (stamped q k) ∧ idText (stamped q k).id = k ∧ ArrivesAs q (stamped q k) := by
  unfold stamped
  split
  · rename_i h
    obtain ⟨c, rfl⟩ := hk.2 h
    exact ⟨⟨key_plain c, hq.2⟩, rfl, rfl, rfl, fun h' => absurd h h'⟩
  · rename_i h
    exact ⟨hq, (hk.1 h).symm, rfl, rfl, fun _ => rfl⟩

/-! ### Plain traffic stays plain -/

structure PlainEnd (e : End D) : Prop where
  given : ∀ q ∈ e.given, PlainReq q
  notes : ∀ n ∈ e.notes, PlainNote n
  job : ∀ j, e.job = some j → PlainReq j.req ∧ PlainProg j.prog
  replies : ∀ q o, (q, o) ∈ e.replies → PlainReq q ∧ PlainAnswer o

theorem Hist.linked {e : End D} {pops : List (POp D)} (h : Hist e pops) : Linked pops e.p := by rw [h.run]; exact linked_run pops

theorem Base.pinv {e : End D} {w : W} (h : Base e w) : e.p.Inv := by
  obtain ⟨pops, hh⟩ := h.hist
  rw [hh.run]; exact inv_run pops inv_init

theorem Base.sent {e : End D} {w : W} (h : Base e w) {n : Nat} {k : Bytes} {dl : Nat} (hs : (n, k, dl) ∈ e.p.sent) :
    ∃ q, e.given[n]? = some q ∧ KeyFor q.id k := by
  obtain ⟨pops, hh⟩ := h.hist
  obtain ⟨id, h1, h2⟩ := hh.linked.sent n k dl hs
  rw [hh.ids, List.getElem?_map] at h1
  cases hg : e.given[n]? with
  | none => rw [hg] at h1; cases h1
  | some q => rw [hg] at h1; cases h1; exact ⟨q, rfl, h2⟩

/-- What a queued payload is read as. -/
theorem origin_event {e : End D} {w : W} (hb : Base e w) (hp : PlainEnd e) {m : Bytes} (ho : Origin e m) :
    (∃ n k dl q, (n, k, dl) ∈ e.p.sent ∧ e.given[n]? = some q ∧ event m = .request (stamped q k) ∧ PlainReq (stamped q k) ∧
      idText (stamped q k).id = k ∧ ArrivesAs q (stamped q k)) ∨
    (∃ n ∈ e.notes, event m = .note n) ∨
    (∃ q o, (q, o) ∈ e.replies ∧ event m = .response (replyFor q o)) := by
  cases ho with
  | @request n k dl q h1 h2 =>
    left
    obtain ⟨q', h3, h4⟩ := hb.sent h1
    rw [h2] at h3; cases h3
    have hq := hp.given q (List.mem_of_getElem? h2)
    obtain ⟨h5, h6, h7⟩ := stamped_plain hq h4
    exact ⟨n, k, dl, q, h1, h2, event_request h5, h5, h6, h7⟩
  | @note n h1 => right; left; exact ⟨n, h1, event_note (hp.notes n h1)⟩
  | @reply q o h1 =>
    right; right
    obtain ⟨h2, h3⟩ := hp.replies q o h1
    exact ⟨q, o, h1, event_reply h2.1 h3⟩

theorem plain_own (max : Nat) (h : Request D → Prog D) {e f : End D} (he : PlainEnd e) (hb : Base e f.w) (hbf : Base f e.w) (hf : PlainEnd f)
    (hh : ∀ q, PlainProg (h q)) {x : Bool} (op : EndOp D) (hop : PlainStep (x, op)) : PlainEnd (e.step max h f.w.out op) := by
  have same : ∀ g : End D, g.given = e.given → g.notes = e.notes → g.job = e.job → g.replies = e.replies → PlainEnd g := by
    intro g h1 h2 h3 h4
    exact ⟨by rw [h1]; exact he.given, by rw [h2]; exact he.notes, by rw [h3]; exact he.job, by rw [h4]; exact he.replies⟩
  have hw : ∀ (e' : End D) wop, e'.given = e.given → e'.notes = e.notes → e'.job = e.job → e'.replies = e.replies → PlainEnd (e'.writes wop) := by
    intro e' wop h1 h2 h3 h4
    have ha := writes_aside e' wop
    exact same _ (ha.given.trans h1) (ha.notes.trans h2) (ha.job.trans h3) (ha.replies.trans h4)
  cases op with
  | check q =>
    refine ⟨fun q' hq' => ?_, he.notes, he.job, he.replies⟩
    simp only [End.step, End.check, List.mem_append, List.mem_singleton] at hq'
    rcases hq' with h1 | rfl
    · exact he.given _ h1
    · exact hop
  | file n now => simp only [End.step, End.file]; split <;> exact same _ rfl rfl rfl rfl
  | note n =>
    simp only [End.step, End.note]; split
    · refine ⟨he.given, fun n' hn' => ?_, he.job, he.replies⟩
      simp only [List.mem_append, List.mem_singleton] at hn'
      rcases hn' with h1 | rfl
      · exact he.notes _ h1
      · exact hop
    · exact he
  | push i =>
    simp only [End.step, End.push]
    split
    · exact hw _ _ rfl rfl rfl rfl
    · exact he
  | dequeue => exact hw _ _ rfl rfl rfl rfl
  | write k => exact hw _ _ rfl rfl rfl rfl
  | writeFail => exact hw _ _ rfl rfl rfl rfl
  | finish => exact hw _ _ rfl rfl rfl rfl
  | setMax n => exact hw _ _ rfl rfl rfl rfl
  | read k => simp only [End.step, End.read]; split <;> exact same _ rfl rfl rfl rfl
  | decode =>
    simp only [End.step, End.decode]
    split
    · rcases decode_cases hb.reads hbf.winv hbf.sized max with h1 | ⟨m, rest, tail, h1, h2, h3, h4⟩ | ⟨m, rest, k, h1, h2, h3⟩
      · rw [h1]; exact he
      · rw [h4]
        simp only
        have ho := origin_event hbf hf (hbf.origin m (.inl (by rw [h1]; simp)))
        unfold End.process
        split
        all_goals rename_i hev
        · exact same _ rfl rfl rfl rfl
        · refine ⟨he.given, he.notes, fun j hj => ?_, he.replies⟩
          cases hj
          refine ⟨?_, hh _⟩
          rcases ho with ⟨n, k, dl, q, -, -, h5, h6, -⟩ | ⟨n, -, h5⟩ | ⟨q, o, -, h5⟩
          · rw [h5] at hev; cases hev; exact h6
          · rw [h5] at hev; cases hev
          · rw [h5] at hev; cases hev
        · exact same _ rfl rfl rfl rfl
        · exact same _ rfl rfl rfl rfl
      · rw [h3]; exact same _ rfl rfl rfl rfl
    · exact he
  | work b =>
    simp only [End.step, End.work]
    split
    · exact he
    · rename_i j hj
      obtain ⟨hj1, hj2⟩ := he.job j hj
      split
      · rename_i o hprog
        rw [hprog] at hj2
        have ha := writes_aside { e with job := none, replies := e.replies ++ [(j.req, o)] } (.enqueue (serResponse (replyFor j.req o)))
        refine ⟨by rw [ha.given]; exact he.given, by rw [ha.notes]; exact he.notes, (by rw [ha.job]; intro j' hj'; cases hj'), ?_⟩
        rw [ha.replies]
        intro q' o' hm
        simp only [List.mem_append, List.mem_singleton, Prod.mk.injEq] at hm
        rcases hm with h1 | ⟨rfl, rfl⟩
        · exact he.replies _ _ h1
        · exact ⟨hj1, hj2⟩
      · rename_i k hprog
        rw [hprog] at hj2
        refine ⟨he.given, he.notes, fun j' hj' => ?_, he.replies⟩
        cases hj'
        exact ⟨hj1, hj2 b⟩
      · rename_i q k hprog hwait
        rw [hprog] at hj2
        refine ⟨fun q' hq' => ?_, he.notes, fun j' hj' => ?_, he.replies⟩
        · simp only [End.check, List.mem_append, List.mem_singleton] at hq'
          rcases hq' with h1 | rfl
          · exact he.given _ h1
          · exact hj2.1
        · cases hj'
          refine ⟨hj1, ?_⟩
          simp only
          rw [hprog]; exact hj2
      · rename_i q k n hprog hwait
        rw [hprog] at hj2
        split
        · exact he
        · rename_i o _
          refine ⟨he.given, he.notes, fun j' hj' => ?_, he.replies⟩
          cases hj'
          exact ⟨hj1, hj2.2 o⟩
  | sweep now => exact same _ rfl rfl rfl rfl
  | cut => exact same _ rfl rfl rfl rfl
  | close => exact same _ rfl rfl rfl rfl
  | setTimeout t => exact same _ rfl rfl rfl rfl

def PlainPair (s : Pair D) : Prop := ∀ y, PlainEnd (s.get y)

theorem plain_init : PlainPair (Pair.init : Pair D) := by
  intro y
  cases y <;> exact ⟨by simp [Pair.get, Pair.init, End.init], by simp [Pair.get, Pair.init, End.init],
    by simp [Pair.get, Pair.init, End.init], by simp [Pair.get, Pair.init, End.init]⟩

theorem plain_step {c : Cfg D} (hh : ∀ y q, PlainProg (c.handler y q)) {s : Pair D} (hg : Good s) (hp : PlainPair s) (x : Bool × EndOp D) (hx : PlainStep x) :
    PlainPair (s.step c x) := by
  obtain ⟨x, op⟩ := x
  intro y
  rw [step_get]
  split
  · have h2 := hg (!y)
    rw [Bool.not_not] at h2
    exact plain_own _ _ (hp y) (hg y) h2 (hp (!y)) (hh y) op hx
  · exact hp y

theorem plain_run {c : Cfg D} (hh : ∀ y q, PlainProg (c.handler y q)) (ops : List (Bool × EndOp D)) : ∀ {s : Pair D}, Good s → PlainPair s →
    (∀ op ∈ ops, PlainStep op) → PlainPair (s.run c ops) := by
  induction ops with
  | nil => intro s _ hp _; exact hp
  | cons op ops ih =>
    intro s hg hp ho
    exact ih (good_step c hg op) (plain_step hh hg hp op (ho op (by simp))) (fun o hm => ho o (by simp [hm]))

/-! ### Keys -/

theorem ownTexts_prefix {a b : List RpcId} (h : a <+: b) (hb : OwnTexts b) : OwnTexts a :=
  ⟨fun i j x y hx hy => hb.distinct i j x y (get_prefix h hx) (get_prefix h hy), fun i hi => hb.foreign i (h.subset hi),
    Nat.lt_of_le_of_lt h.length_le hb.few⟩

/-- The keys under which requests are filed. -/
structure Keyed (s : P D) : Prop where
  count : s.counter + s.checked.length ≤ s.nextFut
  made : ∀ n c dl, (n, lit "req-" ++ natDec c, dl) ∈ s.sent → c ≤ s.counter
  nodup : (s.sent.map (·.2.1)).Nodup

theorem reqKey_inj {a b : Nat} (h : lit "req-" ++ natDec a = lit "req-" ++ natDec b) : a = b := by
  have := congrArg digitsVal (List.append_cancel_left h)
  rwa [digitsVal_natDec, digitsVal_natDec] at this

theorem keyed_complete {s : P D} (h : Keyed s) (k : Bytes) (o : Outcome D) : Keyed (s.complete k o) := by
  unfold P.complete
  split <;> exact ⟨h.count, h.made, h.nodup⟩

theorem genId_small {c : Nat} (h : c + 1 < 2 ^ 32) : genId c = (lit "req-" ++ natDec (c + 1), c + 1) := by
  unfold genId
  rw [Nat.mod_eq_of_lt h]

theorem keyed_step {ops : List (POp D)} {s : P D} (hi : s.Inv) (hl : Linked ops s) (h : Keyed s) (op : POp D)
    (ho : OwnTexts (reqIds (ops ++ [op]))) : Keyed (s.step op) := by
  have hpre : reqIds ops <+: reqIds (ops ++ [op]) := by rw [reqIds_snoc]; exact List.prefix_append _ _
  have hown := ownTexts_prefix hpre ho
  cases op with
  | sendCheck id =>
    have hf : s.nextFut + 1 < 2 ^ 32 := by
      have := ho.few
      rw [reqIds_snoc] at this
      simp only [List.length_append, List.length_singleton] at this
      rw [hl.next]; exact this
    simp only [P.step, P.sendCheck]
    split
    · refine ⟨?_, h.made, h.nodup⟩
      have := h.count
      simp only [List.length_append, List.length_singleton]; omega
    · have hc := h.count
      rw [genId_small (by omega)]
      refine ⟨?_, ?_, h.nodup⟩
      · simp only; omega
      · intro n c dl hm
        have := h.made n c dl hm
        simp only; omega
  | sendInsert fut now =>
    simp only [P.step, P.sendInsert]
    split
    · exact h
    · rename_i id hw
      have hmem : (fut, id) ∈ s.checked := AMap.get_some_mem hw
      have hid := hl.checked fut id hmem
      have hlen : (AMap.del s.checked fut).length + 1 ≤ s.checked.length := by
        have hf : fut ∈ s.checked.map (·.1) := List.mem_map.2 ⟨_, hmem, rfl⟩
        unfold AMap.del
        have : ∀ l : List (Nat × RpcId), (fut, id) ∈ l → (l.filter (fun p => decide (p.1 ≠ fut))).length + 1 ≤ l.length := by
          intro l
          induction l with
          | nil => intro h; cases h
          | cons a l ih =>
            intro hm
            by_cases ha : a.1 = fut
            · rw [List.filter_cons_of_neg (by simp [ha])]
              simp only [List.length_cons]
              have := List.length_filter_le (fun p : Nat × RpcId => decide (p.1 ≠ fut)) l
              omega
            · have : (fut, id) ∈ l := by
                rcases List.mem_cons.1 hm with h1 | h1
                · exact absurd (by rw [← h1]) ha
                · exact h1
              have := ih this
              rw [List.filter_cons_of_pos (by simp [ha])]
              simp only [List.length_cons]; omega
        exact this _ hmem
      have hc := h.count
      have hnext : s.nextFut < 2 ^ 32 := by rw [hl.next]; exact hown.few
      have hnot : ∀ k dl, (fut, k, dl) ∉ s.sent := fun k dl hm => hi.sentChecked _ hm (List.mem_map.2 ⟨_, hmem, rfl⟩)
      by_cases ht : idText id = []
      · -- an id is made
        have hck : chooseKey id s.counter = (lit "req-" ++ natDec (s.counter + 1), s.counter + 1) := by
          rw [← genId_small (by omega)]
          unfold chooseKey
          cases id with
          | str t => simp only [idText] at ht; simp [ht]
          | int i => exact absurd ht (by have := chooseKey_ne_nil (.int i) 0; exact this)
          | null => rfl
        rw [hck]
        refine ⟨?_, ?_, ?_⟩
        · simp only; omega
        · intro n c dl hm
          simp only [List.mem_append, List.mem_singleton, Prod.mk.injEq] at hm
          rcases hm with h1 | ⟨-, h1, -⟩
          · have := h.made n c dl h1; simp only; omega
          · have := reqKey_inj h1; simp only; omega
        · simp only [List.map_append, List.map_cons, List.map_nil]
          rw [List.nodup_append]
          refine ⟨h.nodup, by simp, ?_⟩
          intro a ha b hb e
          simp only [List.mem_singleton] at hb
          subst hb; subst e
          obtain ⟨⟨n, k, dl⟩, hm, hk⟩ := List.mem_map.1 ha
          simp only at hk
          subst hk
          have := h.made n _ dl hm
          omega
      · -- the id is the caller's
        have hck : chooseKey id s.counter = (idText id, s.counter) := by
          unfold chooseKey
          cases id with
          | str t => simp only [idText] at ht; simp [ht, idText]
          | int i => rfl
          | null => exact absurd rfl ht
        rw [hck]
        refine ⟨?_, ?_, ?_⟩
        · simp only; omega
        · intro n c dl hm
          simp only [List.mem_append, List.mem_singleton, Prod.mk.injEq] at hm
          rcases hm with h1 | ⟨-, h1, -⟩
          · exact h.made n c dl h1
          · exact absurd h1.symm (hown.foreign id (List.mem_of_getElem? hid) c)
        · simp only [List.map_append, List.map_cons, List.map_nil]
          rw [List.nodup_append]
          refine ⟨h.nodup, by simp, ?_⟩
          intro a ha b hb e
          simp only [List.mem_singleton] at hb
          subst hb; subst e
          obtain ⟨⟨n, k, dl⟩, hm, hk⟩ := List.mem_map.1 ha
          simp only at hk
          subst hk
          obtain ⟨id', h1, h2⟩ := hl.sent n _ dl hm
          by_cases ht' : idText id' = []
          · obtain ⟨c, hc'⟩ := h2.2 ht'
            exact hown.foreign id (List.mem_of_getElem? hid) c hc'
          · have e := h2.1 ht'
            have := hown.distinct _ _ _ _ hid h1 e ht
            subst this
            exact hnot _ _ hm
  | response r => exact keyed_complete h _ _
  | sweep now =>
    simp only [P.step, P.sweep]
    split
    · have : ∀ (ks : List Bytes) (s : P D), Keyed s → Keyed (ks.foldl (fun s k => s.complete k (.timeout k now)) s) := by
        intro ks
        induction ks with
        | nil => intro s h; exact h
        | cons k ks ih => intro s h; exact ih _ (keyed_complete h _ _)
      exact this _ _ h
    · exact h
  | disconnect => exact ⟨h.count, h.made, h.nodup⟩
  | close => exact ⟨h.count, h.made, h.nodup⟩
  | setTimeout t => exact ⟨h.count, h.made, h.nodup⟩

theorem keyed_run (ops : List (POp D)) (ho : OwnTexts (reqIds ops)) : Keyed ((P.init : P D).run ops) := by
  have key : ∀ l : List (POp D), OwnTexts (reqIds l.reverse) → Keyed ((P.init : P D).run l.reverse) := by
    intro l
    induction l with
    | nil => intro _; exact ⟨by simp [P.run, P.init], by simp [P.run, P.init], by simp [P.run, P.init]⟩
    | cons op l ih =>
      intro ho
      rw [List.reverse_cons] at *
      have hpre : reqIds l.reverse <+: reqIds (l.reverse ++ [op]) := by rw [reqIds_snoc]; exact List.prefix_append _ _
      rw [run_snoc]
      exact keyed_step (inv_run _ inv_init) (linked_run _) (ih (ownTexts_prefix hpre ho)) op ho
  have := key ops.reverse
  rw [List.reverse_reverse] at this
  exact this ho

theorem Base.keyed {e : End D} {w : W} (h : Base e w) (ho : OwnTexts (e.given.map (·.id))) : Keyed e.p := by
  obtain ⟨pops, hh⟩ := h.hist
  rw [hh.run]
  exact keyed_run pops (by rw [hh.ids]; exact ho)

/-- Two calls filed under one key are one. -/
theorem key_fun {s : P D} (h : Keyed s) {n m : Nat} {k : Bytes} {d d' : Nat} (h1 : (n, k, d) ∈ s.sent) (h2 : (m, k, d') ∈ s.sent) : n = m := by
  have key : ∀ l : List (Nat × Bytes × Nat), (l.map (·.2.1)).Nodup → (n, k, d) ∈ l → (m, k, d') ∈ l → n = m := by
    intro l
    induction l with
    | nil => intro _ h; cases h
    | cons a l ih =>
      intro hn ha hb
      simp only [List.map_cons, List.nodup_cons] at hn
      rcases List.mem_cons.1 ha with ha | ha <;> rcases List.mem_cons.1 hb with hb | hb
      · rw [← ha] at hb; cases hb; rfl
      · exact absurd (List.mem_map.2 ⟨_, hb, by rw [← ha]⟩) hn.1
      · exact absurd (List.mem_map.2 ⟨_, ha, by rw [← hb]⟩) hn.1
      · exact ih hn.2 ha hb
  exact key _ h.nodup h1 h2

/-! ### Responses come from messages -/

theorem response_from (ops : List (POp D)) (n : Nat) (r : Response D) (h : (n, Outcome.response r) ∈ ((P.init : P D).run ops).outcomes) :
    POp.response r ∈ ops := by
  have key : ∀ l : List (POp D), (n, Outcome.response r) ∈ ((P.init : P D).run l.reverse).outcomes → POp.response r ∈ l.reverse := by
    intro l
    induction l with
    | nil => intro h; simp [P.run, P.init] at h
    | cons op l ih =>
      intro h
      rw [List.reverse_cons] at *
      rw [run_snoc] at h
      by_cases hop : ∀ r', op ≠ .response r'
      · have := no_new_response _ op hop n r h
        exact List.mem_append_left _ (ih this)
      · have ⟨r', hr'⟩ : ∃ r', op = .response r' := by
          apply Classical.byContradiction
          intro hne
          exact hop (fun r' e => hne ⟨r', e⟩)
        subst hr'
        simp only [P.step, P.complete] at h
        split at h
        · simp only [List.mem_append, List.mem_singleton, Prod.mk.injEq] at h
          rcases h with h | ⟨-, h⟩
          · exact List.mem_append_left _ (ih h)
          · cases h; simp
        · exact List.mem_append_left _ (ih h)
  have := key ops.reverse
  rw [List.reverse_reverse] at this
  exact this h

theorem mem_requestsIn {l : List Bytes} {q : Request D} (h : q ∈ requestsIn l) : ∃ m ∈ l, event m = .request q := by
  obtain ⟨m, hm, he⟩ := List.mem_filterMap.1 h
  split at he
  · rename_i q' hq'; cases he; exact ⟨m, hm, hq'⟩
  · cases he

/-- A request that was answered or is being handled is one the other side sent. -/
theorem taken_request {s : Pair D} (hg : Good s) (hp : PlainPair s) {y : Bool} {q : Request D} (hq : q ∈ requestsIn (s.get y).taken) :
    ∃ n k dl q0, (n, k, dl) ∈ (s.get (!y)).p.sent ∧ (s.get (!y)).given[n]? = some q0 ∧ idText q.id = k ∧ ArrivesAs q0 q := by
  obtain ⟨m, hm, hev⟩ := mem_requestsIn hq
  have hacc := (hg y).reads.order.subset hm
  have hbf := hg (!y)
  rcases origin_event hbf (hp (!y)) (hbf.origin m (.inl hacc)) with ⟨n, k, dl, q', h1, h2, h3, -, h5, h6⟩ | ⟨n, -, h3⟩ | ⟨q', o, -, h3⟩
  · rw [h3] at hev; cases hev
    exact ⟨n, k, dl, q', h1, h2, h5, h6⟩
  · rw [h3] at hev; cases hev
  · rw [h3] at hev; cases hev

theorem mem_served {e : End D} {w : W} (hb : Base e w) {q : Request D} {o : HandlerOutcome D} (h : (q, o) ∈ e.replies) : q ∈ requestsIn e.taken := by
  rw [hb.jobs]
  exact List.mem_append_left _ (List.mem_map.2 ⟨_, h, rfl⟩)

theorem answer_of {s : Pair D} (hg : Good s) (hpl : PlainPair s) (y : Bool) (ho : OwnTexts ((s.get y).given.map (·.id))) {n : Nat} {r : Response D}
    (hr : (n, Outcome.response r) ∈ (s.get y).p.outcomes) :
    ∃ given q o, (s.get y).given[n]? = some given ∧ ArrivesAs given q ∧ (q, o) ∈ (s.get (!y)).replies ∧ OwedResponse q o r ∧
      ∃ dl, (n, idText q.id, dl) ∈ (s.get y).p.sent := by
  have hb := hg y
  have hbf := hg (!y)
  obtain ⟨pops, hh⟩ := hb.hist
  have hr' := hr
  rw [hh.run] at hr'
  obtain ⟨m, hm, hev⟩ := hh.responses r (response_from pops n r hr')
  have hacc := hb.reads.order.subset hm
  rcases origin_event hbf (hpl (!y)) (hbf.origin m (.inl hacc)) with ⟨n', k, dl, q', -, -, h3, -⟩ | ⟨n', -, h3⟩ | ⟨q, o, h1, h3⟩
  · rw [h3] at hev; cases hev
  · rw [h3] at hev; cases hev
  · rw [h3] at hev; cases hev
    have hq := taken_request hg hpl (mem_served hbf h1)
    rw [Bool.not_not] at hq
    obtain ⟨n', k, dl, q0, h4, h5, h6, h7⟩ := hq
    obtain ⟨dl', h8⟩ := hb.pinv.match_ n _ hr
    rw [replyFor_id, h6] at h8
    have := key_fun (hb.keyed ho) h8 h4
    subst this
    refine ⟨q0, q, o, h5, h7, h1, ?_, dl, by rw [h6]; exact h4⟩
    cases o with
    | resp r => exact ⟨rfl, rfl, rfl⟩
    | nul => exact ⟨rfl, rfl, _, rfl⟩
    | threw m => exact ⟨rfl, rfl, rfl⟩

/-! ### The claims -/

/-- C114. The messages one side takes are those the other side queued, in that order, each once; the requests among them are answered in that order, each
once, but for the one at work, and the notifications among them handed on in that order. -/
theorem C114_in_order (c : Cfg D) (ops : List (Bool × EndOp D)) (y : Bool) :
    let s := (Pair.init : Pair D).run c ops
    (s.get y).taken <+: (s.get (!y)).w.accepted ∧
    requestsIn (s.get y).taken = (s.get y).replies.map (·.1) ++ ((s.get y).job.map (·.req)).toList ∧
    (s.get y).heard = notesIn (s.get y).taken := by
  intro s
  have hg := good_run c ops (good_init (D := D)) y
  exact ⟨hg.reads.order, hg.jobs, hg.heard⟩

/-- C114, partial. A future that was completed with a response was completed with what the handler of the other side answered to that very request, as it was
given. Missing: traffic the wire format does not carry (C04 to C06, C15), and callers that give two requests one id (C13). -/
theorem C114_answer_partial (c : Cfg D) (ops : List (Bool × EndOp D)) (hp : Plain c ops) (y : Bool) :
    let s := (Pair.init : Pair D).run c ops
    OwnTexts ((s.get y).given.map (·.id)) → ∀ n r, (n, Outcome.response r) ∈ (s.get y).p.outcomes →
      ∃ given q o, (s.get y).given[n]? = some given ∧ ArrivesAs given q ∧ (q, o) ∈ (s.get (!y)).replies ∧ OwedResponse q o r := by
  intro s ho n r hr
  obtain ⟨g, q, o, h1, h2, h3, h4, -⟩ := answer_of (good_run c ops (good_init (D := D))) (plain_run hp.handlers ops good_init plain_init hp.ops) y ho hr
  exact ⟨g, q, o, h1, h2, h3, h4⟩

end Verif.Duplex
