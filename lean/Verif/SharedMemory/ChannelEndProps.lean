import Verif.SharedMemory.ChannelProps
import Verif.SharedMemory.LifeEndProps

/-!
C120: the opener of a channel learns that the creator was closed.
-/

namespace Verif.Shm

/-! ### The thread of a transport that is connected -/

/-- As long as the transport is connected the thread of its last `Start` takes messages. -/
def SmLive (s : Sm) : Prop := s.connected = true → ∃ p, s.works[s.works.length - 1]? = some ⟨p, false⟩ ∧ p ≠ .leave ∧ p ≠ .ended

theorem smLive_run (b : Bool) (ops : List SmOp) : SmLive ((Sm.init b).run ops) := by
  have key : SmInv ((Sm.init b).run ops) ∧ SmLive ((Sm.init b).run ops) := by
    refine sm_run_inv (P := fun s => SmInv s ∧ SmLive s) ⟨smInv_init b, (nomatch ·)⟩ fun s op _ ⟨hi, h⟩ => ⟨smInv_step hi op, ?_⟩
    have ask : ∀ j (t : Sm), t.works = (s.askStop j).works → t.connected = s.connected → j + 1 ≠ s.works.length → SmLive t := by
      intro j t hw hc hj e
      obtain ⟨p, h1, h2⟩ := h (hc ▸ e)
      refine ⟨p, ?_, h2⟩
      rw [hw, smStop_len]
      unfold Sm.askStop
      dsimp only
      have hne : 0 < s.works.length := by have := (List.getElem?_eq_some_iff.mp h1).1; omega
      rw [List.getElem?_modify, h1]
      exact congrArg some (if_neg (by omega))
    have set : ∀ (j : Nat) (w w' : SmWork) (t : Sm), s.works[j]? = some w → t.works = s.works.set j w' → (t.connected = true → s.connected = true ∧ (w.stop = false → w.pos ≠ .leave → w.pos ≠ .ended → w'.stop = false ∧ w'.pos ≠ .leave ∧ w'.pos ≠ .ended)) → SmLive t := by
      intro j w w' t hj hw hc e
      obtain ⟨c1, c2⟩ := hc e
      obtain ⟨p, h1, h2, h3⟩ := h c1
      rw [hw, List.length_set, List.getElem?_set]
      split
      · rename_i he
        subst he
        rw [if_pos (List.getElem?_eq_some_iff.mp hj).1]
        rw [h1] at hj
        cases hj
        obtain ⟨d1, d2, d3⟩ := c2 rfl h2 h3
        exact ⟨w'.pos, by rw [← d1], d2, d3⟩
      · exact ⟨p, h1, h2, h3⟩
    unfold Sm.step
    split
    · exact h
    · cases op with
      | start r =>
        dsimp only
        split
        · cases r with
          | none => exact h
          | first q => exact h
          | both q p =>
            have new : ∀ t : Sm, t.works = s.works ++ [⟨.test, false⟩] → SmLive t := by
              intro t e _
              refine ⟨.test, ?_, (nomatch ·), (nomatch ·)⟩
              rw [e]
              simp
            unfold Sm.start
            dsimp only
            cases s.th with
            | none => exact new _ rfl
            | some j => exact new _ rfl
        · exact h
      | close self => cases self <;> dsimp only <;> split <;> exact h
      | destroy => dsimp only; split; exact (nomatch ·); exact h
      | caller =>
        dsimp only
        unfold Sm.goCaller
        cases hc : s.call with
        | idle => exact h
        | destroyed => exact h
        | swap =>
          obtain ⟨j, hj, hlen⟩ := hi.lastButOne (by rw [hc]; rfl)
          dsimp only
          rw [hj]
          exact ask j _ rfl rfl (by omega)
        | swapJoin => dsimp only; split <;> (try split) <;> exact h
        | cBye => exact h
        | cFlag => exact (nomatch ·)
        | cStop => have ho := hi.off (by rw [hc]; rfl); dsimp only; split <;> (intro e; have e' : s.connected = true := e; rw [ho] at e'; cases e')
        | cJoin => have ho := hi.off (by rw [hc]; rfl); dsimp only; split <;> (try split) <;> (intro e; have e' : s.connected = true := e; rw [ho] at e'; cases e')
        | cRemove => exact h
        | cFail => exact h
        | dStop => have ho := hi.off (by rw [hc]; rfl); dsimp only; split <;> (intro e; have e' : s.connected = true := e; rw [ho] at e'; cases e')
        | dJoin => have ho := hi.off (by rw [hc]; rfl); dsimp only; split <;> (try split) <;> (intro e; have e' : s.connected = true := e; rw [ho] at e'; cases e')
        | dRemove => exact h
      | work j o =>
        dsimp only
        split
        · exact h
        · unfold Sm.goWork
          cases hj : s.works[j]? with
          | none => exact h
          | some w =>
            obtain ⟨p, st⟩ := w
            cases p with
            | test =>
              refine set j _ _ _ hj rfl fun (e : s.connected = true) => ⟨e, fun hst _ _ => ?_⟩
              have hst : st = false := hst
              subst hst
              refine ⟨rfl, ?_⟩
              show (if s.connected = true ∧ false = false then SmAt.recv s.gen else .leave) ≠ _ ∧ (if s.connected = true ∧ false = false then SmAt.recv s.gen else .leave) ≠ _
              rw [if_pos ⟨e, rfl⟩]
              exact ⟨(nomatch ·), (nomatch ·)⟩
            | recv g =>
              dsimp only
              split
              · exact h
              · cases o with
                | timeout => exact set j _ _ _ hj rfl fun e => ⟨e, fun hst _ _ => ⟨hst, (nomatch ·), (nomatch ·)⟩⟩
                | throws => exact (nomatch ·)
                | got m =>
                  cases m with
                  | bye => exact (nomatch ·)
                  | answer i => exact set j _ _ _ hj rfl fun e => ⟨e, fun hst _ _ => ⟨hst, (nomatch ·), (nomatch ·)⟩⟩
                  | request => exact set j _ _ _ hj rfl fun e => ⟨e, fun hst _ _ => ⟨hst, (nomatch ·), (nomatch ·)⟩⟩
                  | note => exact set j _ _ _ hj rfl fun e => ⟨e, fun hst _ _ => ⟨hst, (nomatch ·), (nomatch ·)⟩⟩
            | busy => exact h
            | leave => exact (nomatch ·)
            | ended => exact h
      | handled j =>
        dsimp only
        split
        · rename_i hj
          split
          · exact h
          · exact set j _ _ _ hj rfl fun e => ⟨e, fun hst _ _ => ⟨hst, (nomatch ·), (nomatch ·)⟩⟩
        · exact h
      | answered i => dsimp only; split <;> (try split) <;> exact h
      | send r => dsimp only; split <;> exact h
  exact key.2

/-! ### One creator and one opener -/

/-- The creator does not read what the opener reads. -/
structure ChPair (c : Chan) (a b : Sm) : Prop where
  ts : c.ts = [a, b]
  create : a.create = true
  opens : b.create = false
  apart : ∀ x, a.recv = some x → b.recv ≠ some x
  name : ∀ x, c.s2c = some x → a.recv ≠ some x
  nameLt : ∀ x, c.s2c = some x → x < c.queues.length
  recvLt : ∀ x, a.recv = some x → x < c.queues.length
  sendLt : ∀ x, a.send = some x → x < c.queues.length
  readLt : ∀ x, b.recv = some x → x < c.queues.length

theorem fed_len {old new : List (List SmMsg)} {s : Option Nat} (h : Fed old new s) : new.length = old.length := by
  rcases h with h | ⟨k, m, -, h⟩ <;> rw [h]
  simp

theorem sm_start_maps (s : Sm) (r : SmQ) :
    ((s.step (.start r)).recv = s.recv ∧ (s.step (.start r)).send = s.send) ∨ (∃ q, r = .first q ∧ (s.step (.start r)).recv = some q ∧ (s.step (.start r)).send = s.send) ∨
      ∃ q p, r = .both q p ∧ (s.step (.start r)).recv = some q ∧ (s.step (.start r)).send = some p := by
  unfold Sm.step
  split
  · exact .inl ⟨rfl, rfl⟩
  · dsimp only
    split
    · cases r with
      | none => exact .inl ⟨rfl, rfl⟩
      | first q => exact .inr (.inl ⟨q, rfl, rfl, rfl⟩)
      | both q p =>
        refine .inr (.inr ⟨q, p, rfl, ?_⟩)
        unfold Sm.start
        dsimp only
        cases s.th <;> exact ⟨rfl, rfl⟩
    · exact .inl ⟨rfl, rfl⟩

theorem chPair_step {c : Chan} {a b : Sm} (h : ChPair c a b) (x : Nat × SmAct) : ∃ a' b', ChPair (c.step x) a' b' := by
  obtain ⟨i, act⟩ := x
  have hts := h.ts
  -- steps that keep mappings and names
  have keep : ∀ (d : Chan) (a' b' : Sm), d.ts = [a', b'] → (d.s2c = c.s2c ∨ d.s2c = none) → d.queues.length = c.queues.length → a'.create = a.create → b'.create = b.create → a'.recv = a.recv → a'.send = a.send → b'.recv = b.recv → ∃ a' b', ChPair d a' b' := by
    intro d a' b' e1 e2 e3 e4 e5 e6 e7 e8
    refine ⟨a', b', e1, by rw [e4]; exact h.create, by rw [e5]; exact h.opens, by rw [e6, e8]; exact h.apart, fun x hx => ?_, fun x hx => ?_, by rw [e6, e3]; exact h.recvLt, by rw [e7, e3]; exact h.sendLt, by rw [e8, e3]; exact h.readLt⟩
    · rcases e2 with e2 | e2
      · rw [e6]; exact h.name x (by rw [← e2]; exact hx)
      · rw [e2] at hx; cases hx
    · rcases e2 with e2 | e2
      · rw [e3]; exact h.nameLt x (by rw [← e2]; exact hx)
      · rw [e2] at hx; cases hx
  match i with
  | 0 =>
    have ht : c.ts[0]? = some a := by rw [hts]; rfl
    have hs := chan_step c 0 act a ht
    have loc : ∀ (d : Chan) op, d.ts = c.ts → (d.local 0 op).ts = [a.step op, b] := fun d op e => by unfold Chan.local; dsimp only; rw [e, hts]; rfl
    revert hs
    generalize c.step (0, act) = d
    intro hs
    cases hs with
    | fed _ e e1 e2 hq => exact keep _ a b (by rw [e]; exact hts) (.inl e2) (fed_len hq) rfl rfl rfl rfl rfl
    | plain d op e e1 e2 hq ho hw =>
      obtain ⟨m1, m2, -⟩ := sm_mapped a op (plain_start ho)
      exact keep _ _ b (loc d op e) (.inl e2) (fed_len hq) (sm_create a op) rfl m1 m2 rfl
    | took d q m l j e e1 e2 hr hq hd hp =>
      obtain ⟨m1, m2, -⟩ := sm_mapped a (.work j (.got m)) (fun _ => (nomatch ·))
      exact keep _ _ b (loc d _ e) (.inl e2) (by show d.queues.length = _; rw [hd]; simp) (sm_create a _) rfl m1 m2 rfl
    | removed d e e1 e2 hq hc hcall =>
      obtain ⟨m1, m2, -⟩ := sm_mapped a .caller (fun _ => (nomatch ·))
      exact keep _ _ b (loc d _ e) (.inr e2) (by show d.queues.length = _; rw [hq]) (sm_create a _) rfl m1 m2 rfl
    | made d r e hc hcall hr =>
      have hlen : c.queues.length ≤ d.queues.length := by
        rcases hr with ⟨-, -, -, x⟩ | ⟨-, -, -, x⟩ | ⟨-, -, -, x⟩ <;> rw [x]
        · exact Nat.le_refl _
        · simp
        · simp
      have rl : ∀ x, b.recv = some x → x < d.queues.length := fun x hx => Nat.lt_of_lt_of_le (h.readLt x hx) hlen
      have mk : (∀ x, (a.step (.start r)).recv = some x → b.recv ≠ some x) ∧ (∀ x, d.s2c = some x → (a.step (.start r)).recv ≠ some x) ∧ (∀ x, d.s2c = some x → x < d.queues.length) ∧
          (∀ x, (a.step (.start r)).recv = some x → x < d.queues.length) ∧ (∀ x, (a.step (.start r)).send = some x → x < d.queues.length) ∧ (∀ x, b.recv = some x → x < d.queues.length) →
          ∃ a' b', ChPair (d.local 0 (.start r)) a' b' :=
        fun ⟨k1, k2, k3, k4, k5, k6⟩ => ⟨a.step (.start r), b, loc d _ e, by rw [sm_create]; exact h.create, h.opens, k1, k2, k3, k4, k5, k6⟩
      apply mk
      clear mk
      rcases sm_start_maps a r with ⟨m1, m2⟩ | ⟨q, rfl, m1, m2⟩ | ⟨q, p, rfl, m1, m2⟩
      · rw [m1, m2]
        refine ⟨h.apart, fun x hx => ?_, fun x hx => ?_, fun x hx => Nat.lt_of_lt_of_le (h.recvLt x hx) hlen, fun x hx => Nat.lt_of_lt_of_le (h.sendLt x hx) hlen, rl⟩
        · have hx : d.s2c = some x := hx
          rcases hr with ⟨-, -, y, -⟩ | ⟨-, -, y, -⟩ | ⟨-, -, y, -⟩ <;> rw [y] at hx <;> cases hx
          intro e; have := h.recvLt _ e; omega
        · have hx : d.s2c = some x := hx
          show x < d.queues.length
          rcases hr with ⟨-, -, y, -⟩ | ⟨-, -, y, -⟩ | ⟨-, -, y, z⟩ <;> rw [y] at hx <;> cases hx
          rw [z]; simp
      · rcases hr with ⟨x, -⟩ | ⟨x, -, y, z⟩ | ⟨x, -⟩
        · cases x
        · cases x
          rw [m1, m2]
          refine ⟨fun x hx => ?_, fun x hx => ?_, fun x hx => ?_, fun x hx => ?_, fun x hx => Nat.lt_of_lt_of_le (h.sendLt x hx) hlen, rl⟩
          · cases hx; intro e; have := h.readLt _ e; omega
          · have hx : d.s2c = some x := hx; rw [y] at hx; cases hx
          · have hx : d.s2c = some x := hx; rw [y] at hx; cases hx
          · cases hx; show _ < d.queues.length; rw [z]; simp
        · cases x
      · rcases hr with ⟨x, -⟩ | ⟨x, -⟩ | ⟨x, -, y, z⟩
        · cases x
        · cases x
        · cases x
          rw [m1, m2]
          refine ⟨fun x hx => ?_, fun x hx => ?_, fun x hx => ?_, fun x hx => ?_, fun x hx => ?_, rl⟩
          · cases hx; intro e; have := h.readLt _ e; omega
          · have hx : d.s2c = some x := hx; rw [y] at hx; cases hx; intro e; have := Option.some.inj e; omega
          · have hx : d.s2c = some x := hx; rw [y] at hx; cases hx; show _ < d.queues.length; rw [z]; simp
          · cases hx; show _ < d.queues.length; rw [z]; simp
          · cases hx; show _ < d.queues.length; rw [z]; simp
    | opened r hc => rw [h.create] at hc; cases hc
  | 1 =>
    have ht : c.ts[1]? = some b := by rw [hts]; rfl
    have hs := chan_step c 1 act b ht
    have loc : ∀ (d : Chan) op, d.ts = c.ts → (d.local 1 op).ts = [a, b.step op] := fun d op e => by unfold Chan.local; dsimp only; rw [e, hts]; rfl
    revert hs
    generalize c.step (1, act) = d
    intro hs
    cases hs with
    | fed _ e e1 e2 hq => exact keep _ a b (by rw [e]; exact hts) (.inl e2) (fed_len hq) rfl rfl rfl rfl rfl
    | plain d op e e1 e2 hq ho hw => exact keep _ a _ (loc d op e) (.inl e2) (fed_len hq) rfl (sm_create b op) rfl rfl (sm_mapped b op (plain_start ho)).1
    | took d q m l j e e1 e2 hr hq hd hp => exact keep _ a _ (loc d _ e) (.inl e2) (by show d.queues.length = _; rw [hd]; simp) rfl (sm_create b _) rfl rfl (sm_mapped b (.work j (.got m)) (fun _ => (nomatch ·))).1
    | removed d e e1 e2 hq hc hcall => rw [h.opens] at hc; cases hc
    | made d r e hc hcall hr => rw [h.opens] at hc; cases hc
    | opened r hc hcall hr =>
      rcases sm_start_maps b r with ⟨m1, m2⟩ | ⟨q, rfl, m1, m2⟩ | ⟨q, p, rfl, m1, m2⟩
      · exact keep _ a _ (loc c _ rfl) (.inl rfl) rfl rfl (sm_create b _) rfl rfl m1
      · have hq : c.s2c = some q := by
          rcases hr with ⟨x, -⟩ | ⟨q', x, y, -⟩ | ⟨q', p', x, -⟩
          · cases x
          · cases x; exact y
          · cases x
        refine ⟨a, _, loc c _ rfl, h.create, by rw [sm_create]; exact h.opens, fun x hx e => ?_, h.name, h.nameLt, h.recvLt, h.sendLt, fun x hx => ?_⟩
        · rw [m1] at e; cases e; exact h.name _ hq hx
        · rw [m1] at hx; cases hx; exact h.nameLt _ hq
      · have hq : c.s2c = some q := by
          rcases hr with ⟨x, -⟩ | ⟨q', x, -⟩ | ⟨q', p', x, y, -⟩
          · cases x
          · cases x
          · cases x; exact y
        refine ⟨a, _, loc c _ rfl, h.create, by rw [sm_create]; exact h.opens, fun x hx e => ?_, h.name, h.nameLt, h.recvLt, h.sendLt, fun x hx => ?_⟩
        · rw [m1] at e; cases e; exact h.name _ hq hx
        · rw [m1] at hx; cases hx; exact h.nameLt _ hq
  | n + 2 =>
    rw [chan_none c (n + 2) act (by rw [hts]; rfl)]
    exact ⟨a, b, h⟩

theorem chPair_run (as : List (Nat × SmAct)) : ∃ a b, ChPair ((Chan.init [true, false]).run as) a b :=
  chan_run_inv (P := fun c => ∃ a b, ChPair c a b)
    ⟨_, _, rfl, rfl, rfl, fun _ => (nomatch ·), fun _ => (nomatch ·), fun _ => (nomatch ·), fun _ => (nomatch ·), fun _ => (nomatch ·), fun _ => (nomatch ·)⟩ fun _ x _ ⟨_, _, h⟩ => chPair_step h x

/-! ### The opener -/

/-- How far the thread of the opener is from its next receive. -/
def SmAt.near : SmAt → Nat
  | .recv _ => 0
  | .test => 1
  | _ => 2

def byeAt (l : List SmMsg) : Nat := l.findIdx fun m => decide (m = .bye)

/-- The opener is to learn it: the message is in its queue, or it says already that it is not connected but has not yet told those who wait. -/
structure Told (c : Chan) (a b : Sm) (j : Nat) (p : SmAt) (q : Nat) (l : List SmMsg) : Prop where
  pair : ChPair c a b
  inv : SmInv b
  call : b.call = .idle
  self : b.self = none
  ub : b.ub = false
  th : b.th = some j
  at_ : ∃ st, b.works[j]? = some ⟨p, st⟩ ∧ (b.connected = true → st = false)
  pos : p ≠ .ended ∧ (b.connected = true → p ≠ .leave)
  recv : b.recv = some q
  queue : c.queues[q]? = some l
  bye : b.connected = true → SmMsg.bye ∈ l

def Chan.far (c : Chan) : Nat :=
  match c.ts[1]? with
  | none => 0
  | some b =>
    match b.th.bind (fun j => b.works[j]?) with
    | none => 0
    | some w => if b.connected then 10 + 10 * ((b.recv.bind (fun q => c.queues[q]?)).map byeAt).getD 0 + w.pos.near else w.pos.far

def Chan.turn (c : Chan) : SmTurn :=
  match c.ts[1]? with
  | none => .caller
  | some b =>
    match b.th with
    | none => .caller
    | some j => if (b.works[j]?).map SmWork.pos = some .busy then .handled j else .work j

/-- A turn of the opener. -/
def SmTurn.isAct : SmTurn → Nat × SmAct → Prop
  | .caller, _ => False
  | .work j, x => ∃ ok, x = (1, .work j ok)
  | .handled j, x => x = (1, .handled j)

/-- The opener says that it is not connected, and every request has got its answer. -/
def ToldGoal (c : Chan) : Prop := ∃ b, c.ts[1]? = some b ∧ ((b.connected = false ∧ b.pending = []) ∨ b.ub = true)

theorem Told.far {c : Chan} {a b : Sm} {j : Nat} {p : SmAt} {q : Nat} {l : List SmMsg} (h : Told c a b j p q l) : c.far = if b.connected then 10 + 10 * byeAt l + p.near else p.far := by
  obtain ⟨st, hw, -⟩ := h.at_
  unfold Chan.far
  rw [h.pair.ts]
  show (match b.th.bind (fun j => b.works[j]?) with | none => 0 | some w => _) = _
  rw [h.th, Option.bind_some, hw, h.recv, Option.bind_some, h.queue]
  rfl

theorem Told.turn {c : Chan} {a b : Sm} {j : Nat} {p : SmAt} {q : Nat} {l : List SmMsg} (h : Told c a b j p q l) : c.turn = if p = .busy then .handled j else .work j := by
  obtain ⟨st, hw, -⟩ := h.at_
  unfold Chan.turn
  rw [h.pair.ts]
  show (match b.th with | none => SmTurn.caller | some j => _) = _
  rw [h.th]
  dsimp only
  rw [hw]
  by_cases e : p = .busy
  · rw [if_pos e, if_pos (by rw [e]; rfl)]
  · rw [if_neg e, if_neg (by intro x; exact e (Option.some.inj x))]

/-- The calls of `Start`, `Close` and the destructor. -/
def SmAct.calls : SmAct → Bool
  | .start _ | .close _ | .destroy | .caller _ => true
  | _ => false

theorem byeAt_append {l : List SmMsg} (h : SmMsg.bye ∈ l) (m : SmMsg) : byeAt (l ++ [m]) = byeAt l := by
  unfold byeAt
  rw [List.findIdx_append, if_pos]
  exact List.findIdx_lt_length_of_exists ⟨_, h, by simp⟩

/-- A step that leaves the opener as it is; messages may be added to its queue. -/
theorem told_quiet {c d : Chan} {a b : Sm} {j : Nat} {p : SmAt} {q : Nat} {l : List SmMsg} (h : Told c a b j p q l) (a' b' : Sm) (hp : ChPair d a' b') (hi : SmInv b')
    (hb : b'.call = b.call ∧ b'.self = b.self ∧ b'.ub = b.ub ∧ b'.th = b.th ∧ b'.works = b.works ∧ b'.connected = b.connected ∧ b'.recv = b.recv) (hq : ∃ m, d.queues[q]? = some (l ++ m) ∧ m.length ≤ 1) :
    ∃ l', Told d a' b' j p q l' ∧ d.far = c.far ∧ d.turn = c.turn := by
  obtain ⟨h1, h2, h3, h4, h5, h6, h7⟩ := hb
  obtain ⟨m, hq, hm⟩ := hq
  have t : Told d a' b' j p q (l ++ m) := ⟨hp, hi, h1.trans h.call, h2.trans h.self, h3.trans h.ub, h4.trans h.th, by rw [h5, h6]; exact h.at_, by rw [h6]; exact h.pos, h7.trans h.recv, hq,
    fun e => List.mem_append_left _ (h.bye (by rw [← h6]; exact e))⟩
  refine ⟨_, t, ?_, by rw [t.turn, h.turn]⟩
  rw [t.far, h.far, h6]
  cases hc : b.connected with
  | false => rfl
  | true =>
    match m, hm with
    | [], _ => rw [List.append_nil]
    | [x], _ => rw [byeAt_append (h.bye hc)]

theorem fed_queue {old new : List (List SmMsg)} {s : Option Nat} (h : Fed old new s) {q : Nat} {l : List SmMsg} (hq : old[q]? = some l) : ∃ m : List SmMsg, new[q]? = some (l ++ m) ∧ m.length ≤ 1 := by
  rcases h with h | ⟨k, m, -, h⟩
  · exact ⟨[], by rw [h, List.append_nil]; exact hq, by simp⟩
  · by_cases e : k = q
    · subst e
      exact ⟨[m], by rw [h, List.getElem?_modify_eq, hq]; rfl, by simp⟩
    · refine ⟨[], ?_, by simp⟩
      rw [h, List.getElem?_modify, hq, List.append_nil]
      exact congrArg some (if_neg e)

/-- A step of the creator. -/
theorem told_creator {c : Chan} {a b : Sm} {j : Nat} {p : SmAt} {q : Nat} {l : List SmMsg} (h : Told c a b j p q l) (act : SmAct) :
    ∃ a' l', Told (c.step (0, act)) a' b j p q l' ∧ (c.step (0, act)).far = c.far ∧ (c.step (0, act)).turn = c.turn := by
  have hts := h.pair.ts
  obtain ⟨a', b', hp⟩ := chPair_step h.pair (0, act)
  have ht : c.ts[0]? = some a := by rw [hts]; rfl
  have hs := chan_step c 0 act a ht
  have hb : b' = b := by
    have := (hs.ts ht).1 1 (by decide)
    rw [hp.ts, hts] at this
    exact Option.some.inj this
  subst hb
  have hq : ∃ m : List SmMsg, (c.step (0, act)).queues[q]? = some (l ++ m) ∧ m.length ≤ 1 := by
    clear hp
    revert hs
    generalize c.step (0, act) = d
    intro hs
    cases hs with
    | fed _ e e1 e2 hq => exact fed_queue hq h.queue
    | plain d op e e1 e2 hq ho hw => exact fed_queue hq h.queue
    | took d k m l' i e e1 e2 hr hq hd hp =>
      refine ⟨[], ?_, by simp⟩
      show d.queues[q]? = _
      rw [hd, List.getElem?_set, if_neg, List.append_nil]
      · exact h.queue
      · intro e; subst e; exact h.pair.apart _ hr h.recv
    | removed d e e1 e2 hq hc hcall => exact ⟨[], by show d.queues[q]? = _; rw [hq, List.append_nil]; exact h.queue, by simp⟩
    | made d r e hc hcall hr =>
      have hlt := h.pair.readLt q h.recv
      refine ⟨[], ?_, by simp⟩
      show d.queues[q]? = _
      rw [List.append_nil]
      rcases hr with ⟨-, -, -, x⟩ | ⟨-, -, -, x⟩ | ⟨-, -, -, x⟩ <;> rw [x]
      · exact h.queue
      · rw [List.getElem?_append_left hlt]; exact h.queue
      · rw [List.getElem?_append_left hlt]; exact h.queue
    | opened r hc => rw [h.pair.create] at hc; cases hc
  obtain ⟨l', t, e1, e2⟩ := told_quiet h a' b' hp h.inv ⟨rfl, rfl, rfl, rfl, rfl, rfl, rfl⟩ hq
  exact ⟨a', l', t, e1, e2⟩

/-- Some thread of the opener other than the last has ended. -/
theorem Told.others {c : Chan} {a b : Sm} {j : Nat} {p : SmAt} {q : Nat} {l : List SmMsg} (h : Told c a b j p q l) (i : Nat) (hi : i ≠ j) : b.works[i]? = none ∨ ∃ st, b.works[i]? = some ⟨.ended, st⟩ := by
  rcases Nat.lt_or_ge i b.works.length with lt | ge
  · right
    rcases h.inv.others i lt with e | e | ⟨e, -⟩
    · unfold Sm.posAt at e
      cases hw : b.works[i]? with
      | none => rw [hw] at e; cases e
      | some w =>
        rw [hw] at e
        obtain ⟨p', st⟩ := w
        have e : p' = .ended := Option.some.inj e
        subst e
        exact ⟨st, rfl⟩
    · rw [h.th] at e; cases e; exact absurd rfl hi
    · rw [h.call] at e; cases e
  · exact .inl (List.getElem?_eq_none ge)

theorem Told.alive {c : Chan} {a b : Sm} {j : Nat} {p : SmAt} {q : Nat} {l : List SmMsg} (h : Told c a b j p q l) : b.gone = false := by
  cases hg : b.gone with
  | false => rfl
  | true => have := h.inv.gone.mp hg; rw [h.call] at this; cases this

/-- A step of the opener. -/
theorem told_opener {c : Chan} {a b : Sm} {j : Nat} {p : SmAt} {q : Nat} {l : List SmMsg} (h : Told c a b j p q l) (act : SmAct) (hact : act.calls = false) :
    ToldGoal (c.step (1, act)) ∨ ∃ b' p' l', Told (c.step (1, act)) a b' j p' q l' ∧
      ((c.step (1, act)).far < c.far ∨ ((c.step (1, act)).far = c.far ∧ (c.step (1, act)).turn = c.turn ∧ ¬ c.turn.isAct (1, act))) := by
  have hts := h.pair.ts
  have ht : c.ts[1]? = some b := by rw [hts]; rfl
  have hg := h.alive
  have loc : ∀ (d : Chan) op, d.ts = c.ts → (d.local 1 op).ts = [a, b.step op] := fun d op e => by unfold Chan.local; dsimp only; rw [e, hts]; rfl
  obtain ⟨a₀, b₀, hp⟩ := chPair_step h.pair (1, act)
  have pairOf : ∀ (d : Chan) op, c.step (1, act) = d.local 1 op → d.ts = c.ts → ChPair (d.local 1 op) a (b.step op) := fun d op e1 e2 => by
    rw [e1] at hp
    have := hp.ts
    rw [loc d op e2] at this
    cases this
    exact hp
  obtain ⟨st, hw, hst⟩ := h.at_
  have hj := (List.getElem?_eq_some_iff.mp hw).1
  have hub : b.ub ≠ true := by rw [h.ub]; exact (nomatch ·)
  have noturn : (∀ i ok, act ≠ .work i ok) → (∀ i, act ≠ .handled i) → ¬ c.turn.isAct (1, act) := fun h1 h2 => by
    rw [h.turn]
    split
    · intro e; exact h2 j (Prod.mk.inj e).2
    · rintro ⟨ok, e⟩; exact h1 j ok (Prod.mk.inj e).2
  -- steps with the opener unchanged as far as it matters
  have quiet : ∀ (d : Chan) op, c.step (1, act) = d.local 1 op → d.ts = c.ts → ((b.step op).call = b.call ∧ (b.step op).self = b.self ∧ (b.step op).ub = b.ub ∧ (b.step op).th = b.th ∧ (b.step op).works = b.works ∧ (b.step op).connected = b.connected ∧ (b.step op).recv = b.recv) →
      (∃ m : List SmMsg, d.queues[q]? = some (l ++ m) ∧ m.length ≤ 1) → ¬ c.turn.isAct (1, act) → ToldGoal (c.step (1, act)) ∨ ∃ b' p' l', Told (c.step (1, act)) a b' j p' q l' ∧
      ((c.step (1, act)).far < c.far ∨ ((c.step (1, act)).far = c.far ∧ (c.step (1, act)).turn = c.turn ∧ ¬ c.turn.isAct (1, act))) := by
    intro d op e1 e2 e3 e4 e5
    obtain ⟨l', t, f1, f2⟩ := told_quiet h a (b.step op) (pairOf d op e1 e2) (smInv_step h.inv op) e3 e4
    rw [e1]
    exact .inr ⟨_, p, l', t, .inr ⟨f1, f2, e5⟩⟩
  have zero : ∃ m : List SmMsg, c.queues[q]? = some (l ++ m) ∧ m.length ≤ 1 := ⟨[], by rw [List.append_nil]; exact h.queue, by simp⟩
  cases act with
  | work i ok =>
    have est : c.step (1, .work i ok) = if b.gone then c.local 1 (.work i .timeout) else { c with queues := (c.take b i ok).2 }.local 1 (.work i (c.take b i ok).1) := by unfold Chan.step; dsimp only; rw [ht]; dsimp only; rw [if_neg hub]
    rw [if_neg (by rw [hg]; exact (nomatch ·))] at est
    by_cases hi : i = j
    · subst hi
      -- the thread itself
      have bstep : ∀ o, b.step (.work i o) = b.goWork i o := fun o => by
        unfold Sm.step
        rw [if_neg hub]
        dsimp only
        rw [if_neg (by rw [hg]; rintro ⟨e, -⟩; cases e)]
      have tk : ∀ o qs, c.take b i ok = (o, qs) → c.step (1, .work i ok) = ({ c with queues := qs } : Chan).local 1 (.work i o) := fun o qs e => by rw [est, e]
      have pr : ∀ o qs, c.take b i ok = (o, qs) → ChPair (({ c with queues := qs } : Chan).local 1 (.work i o)) a (b.step (.work i o)) := fun o qs e => pairOf _ _ (tk o qs e) rfl
      -- what is told of the next state
      have next : ∀ o qs p' l', c.take b i ok = (o, qs) → qs[q]? = some l' → (b.step (.work i o)).ub = false → (b.step (.work i o)).works[i]? = some ⟨p', st⟩ →
          p' ≠ .ended → ((b.step (.work i o)).connected = true → b.connected = true ∧ p' ≠ .leave ∧ SmMsg.bye ∈ l') → Told (({ c with queues := qs } : Chan).local 1 (.work i o)) a (b.step (.work i o)) i p' q l' := by
        intro o qs p' l' e1 e2 e3 e4 e5 e6
        have as := smAside_step b (.work i o) rfl
        exact ⟨pr o qs e1, smInv_step h.inv _, as.call.trans h.call, as.self.trans h.self, e3, as.th.trans h.th, ⟨st, e4, fun e => hst (e6 e).1⟩, ⟨e5, fun e => (e6 e).2.1⟩, as.recv.trans h.recv, e2, fun e => (e6 e).2.2⟩
      have finish : ∀ o qs p' l', c.take b i ok = (o, qs) → Told (({ c with queues := qs } : Chan).local 1 (.work i o)) a (b.step (.work i o)) i p' q l' →
          (if (b.step (.work i o)).connected then 10 + 10 * byeAt l' + p'.near else p'.far) < (if b.connected then 10 + 10 * byeAt l + p.near else p.far) →
          ToldGoal (c.step (1, .work i ok)) ∨ ∃ b' p' l', Told (c.step (1, .work i ok)) a b' i p' q l' ∧
            ((c.step (1, .work i ok)).far < c.far ∨ ((c.step (1, .work i ok)).far = c.far ∧ (c.step (1, .work i ok)).turn = c.turn ∧ ¬ c.turn.isAct (1, .work i ok))) := by
        intro o qs p' l' e1 e2 e3
        rw [tk o qs e1]
        exact .inr ⟨_, p', l', e2, .inl (by rw [e2.far, h.far]; exact e3)⟩
      have goal : ∀ o qs, c.take b i ok = (o, qs) → ((b.step (.work i o)).connected = false ∧ (b.step (.work i o)).pending = []) ∨ (b.step (.work i o)).ub = true → ToldGoal (c.step (1, .work i ok)) := by
        intro o qs e1 e2
        rw [tk o qs e1]
        exact ⟨_, by rw [loc ({ c with queues := qs } : Chan) _ rfl]; rfl, e2⟩
      have stay : ∀ o, o = SmIn.timeout ∨ o = .throws → (∀ g, p ≠ .recv g) → c.take b i ok = ((c.take b i ok).1, c.queues) ∧ ((c.take b i ok).1 = .timeout ∨ (c.take b i ok).1 = .throws) := by
        intro _ _ hp
        unfold Chan.take
        split
        · exact ⟨rfl, .inr rfl⟩
        · rw [hw]
          cases p with
          | recv g => exact absurd rfl (hp g)
          | _ => exact ⟨rfl, .inl rfl⟩
      have gowork : ∀ o, b.goWork i o = match (some ⟨p, st⟩ : Option SmWork) with
          | some ⟨.test, st⟩ => { b with works := b.works.set i ⟨if b.connected = true ∧ st = false then .recv b.gen else .leave, st⟩ }
          | some ⟨.recv g, st⟩ =>
            if g ≠ b.gen then { b with ub := true } else
            match o with
            | .timeout => { b with works := b.works.set i ⟨.test, st⟩ }
            | .throws => { b with connected := false, works := b.works.set i ⟨.leave, st⟩ }
            | .got (.answer k) => { b with pending := b.pending.eraseIdx k, works := b.works.set i ⟨.test, st⟩ }
            | .got .request => { b with handlers := b.handlers ++ [true], works := b.works.set i ⟨.test, st⟩ }
            | .got .note => { b with works := b.works.set i ⟨.busy, st⟩ }
            | .got .bye => { b.failAll with connected := false, works := b.works.set i ⟨.busy, st⟩ }
          | some ⟨.leave, st⟩ => { b.failAll with connected := false, works := b.works.set i ⟨.ended, st⟩ }
          | _ => b := fun o => by unfold Sm.goWork; rw [hw]; rfl
      have hset : ∀ w, (b.works.set i w)[i]? = some w := fun w => List.getElem?_set_self hj
      cases p with
      | ended => exact absurd rfl h.pos.1
      | busy =>
        obtain ⟨e1, -⟩ := stay .timeout (.inl rfl) (fun _ => (nomatch ·))
        have e : b.step (.work i (c.take b i ok).1) = b := by rw [bstep, gowork]
        refine quiet ({ c with queues := (c.take b i ok).2 } : Chan) (.work i (c.take b i ok).1) est rfl (by rw [e]; exact ⟨rfl, rfl, rfl, rfl, rfl, rfl, rfl⟩) ?_ (by rw [h.turn, if_pos rfl]; exact (nomatch ·))
        show ∃ m : List SmMsg, (c.take b i ok).2[q]? = _ ∧ _
        rw [e1]
        exact zero
      | leave =>
        obtain ⟨e1, -⟩ := stay .timeout (.inl rfl) (fun _ => (nomatch ·))
        left
        refine goal _ _ e1 (.inl ?_)
        rw [bstep, gowork]
        exact ⟨rfl, rfl⟩
      | test =>
        obtain ⟨e1, -⟩ := stay .timeout (.inl rfl) (fun _ => (nomatch ·))
        have eb : b.step (.work i (c.take b i ok).1) = { b with works := b.works.set i ⟨if b.connected = true ∧ st = false then .recv b.gen else .leave, st⟩ } := by rw [bstep, gowork]
        cases hc : b.connected with
        | true =>
          have hst' := hst hc
          have t := next _ _ (.recv b.gen) l e1 h.queue (by rw [eb]; exact h.ub) (by rw [eb]; show (b.works.set i _)[i]? = _; rw [hset, if_pos ⟨hc, hst'⟩]) (nomatch ·) (fun _ => ⟨hc, (nomatch ·), h.bye hc⟩)
          refine finish _ _ _ _ e1 t ?_
          have ec : (b.step (.work i (c.take b i ok).1)).connected = true := by rw [eb]; exact hc
          rw [ec, hc]
          show 10 + 10 * byeAt l + 0 < 10 + 10 * byeAt l + 1
          omega
        | false =>
          have t := next _ _ .leave l e1 h.queue (by rw [eb]; exact h.ub) (by rw [eb]; show (b.works.set i _)[i]? = _; rw [hset, if_neg (by rw [hc]; rintro ⟨e, -⟩; cases e)]) (nomatch ·)
            (fun e => by rw [eb] at e; have e : b.connected = true := e; rw [hc] at e; cases e)
          refine finish _ _ _ _ e1 t ?_
          have ec : (b.step (.work i (c.take b i ok).1)).connected = false := by rw [eb]; exact hc
          rw [ec, hc]
          show 1 < 2
          decide
      | recv g =>
        by_cases hgen : g ≠ b.gen
        · left
          refine goal _ _ rfl (.inr ?_)
          rw [bstep, gowork]
          dsimp only
          rw [if_pos hgen]
        · have hgen' : g = b.gen := by simpa using hgen
          have eb : ∀ o, b.step (.work i o) = match o with
            | .timeout => { b with works := b.works.set i ⟨.test, st⟩ }
            | .throws => { b with connected := false, works := b.works.set i ⟨.leave, st⟩ }
            | .got (.answer k) => { b with pending := b.pending.eraseIdx k, works := b.works.set i ⟨.test, st⟩ }
            | .got .request => { b with handlers := b.handlers ++ [true], works := b.works.set i ⟨.test, st⟩ }
            | .got .note => { b with works := b.works.set i ⟨.busy, st⟩ }
            | .got .bye => { b.failAll with connected := false, works := b.works.set i ⟨.busy, st⟩ } := fun o => by
              rw [bstep, gowork]; dsimp only; rw [if_neg hgen]
          cases ok with
          | false =>
            have e1 : c.take b i false = (.throws, c.queues) := by unfold Chan.take; rw [if_pos rfl]
            have t := next _ _ .leave l e1 h.queue (by rw [eb]; exact h.ub) (by rw [eb]; exact hset _) (nomatch ·) (fun e => by rw [eb] at e; cases e)
            refine finish _ _ _ _ e1 t ?_
            have ec : (b.step (.work i .throws)).connected = false := by rw [eb]
            rw [ec]
            show 1 < _
            split
            · omega
            · show 1 < 4; decide
          | true =>
            have tk0 : c.take b i true = match c.queues[q]? with | some (m :: l) => (SmIn.got m, c.queues.set q l) | _ => (.timeout, c.queues) := by
              unfold Chan.take
              rw [if_neg (by simp), hw, h.recv]
              show (if g ≠ b.gen then _ else _) = _
              rw [if_neg hgen]
              rfl
            rw [h.queue] at tk0
            have hqlt := (List.getElem?_eq_some_iff.mp h.queue).1
            cases l with
            | nil =>
              have e1 : c.take b i true = (.timeout, c.queues) := tk0
              have hcf : b.connected = false := by
                cases hc : b.connected with
                | false => rfl
                | true => exact absurd (h.bye hc) (by simp)
              have t := next _ _ .test [] e1 h.queue (by rw [eb]; exact h.ub) (by rw [eb]; exact hset _) (nomatch ·) (fun e => by rw [eb] at e; have e : b.connected = true := e; rw [hcf] at e; cases e)
              refine finish _ _ _ _ e1 t ?_
              have ec : (b.step (.work i .timeout)).connected = false := by rw [eb]; exact hcf
              rw [ec, hcf]
              show 2 < 4
              decide
            | cons m l =>
              have e1 : c.take b i true = (.got m, c.queues.set q l) := tk0
              have eq : (c.queues.set q l)[q]? = some l := List.getElem?_set_self hqlt
              have go : ∀ p', m ≠ .bye → (b.step (.work i (.got m))).ub = false → (b.step (.work i (.got m))).works = b.works.set i ⟨p', st⟩ → (b.step (.work i (.got m))).connected = b.connected → p' ≠ .ended → p' ≠ .leave → p'.far < 4 →
                  ToldGoal (c.step (1, .work i true)) ∨ ∃ b' p' l', Told (c.step (1, .work i true)) a b' i p' q l' ∧
                    ((c.step (1, .work i true)).far < c.far ∨ ((c.step (1, .work i true)).far = c.far ∧ (c.step (1, .work i true)).turn = c.turn ∧ ¬ c.turn.isAct (1, .work i true))) := by
                intro p' hm h1 h2 h3 h4 h5 h6
                have t := next _ _ p' l e1 eq h1 (by rw [h2]; exact hset _) h4 (fun e => ⟨h3 ▸ e, h5, by
                  have := h.bye (h3 ▸ e)
                  rcases List.mem_cons.mp this with x | x
                  · exact absurd x.symm hm
                  · exact x⟩)
                refine finish _ _ _ _ e1 t ?_
                rw [h3]
                cases hc : b.connected with
                | false => exact h6
                | true =>
                  have : byeAt (m :: l) = byeAt l + 1 := by unfold byeAt; rw [List.findIdx_cons]; simp [hm]
                  rw [this]
                  have hn : p'.near ≤ 2 := by cases p' <;> simp [SmAt.near]
                  show 10 + 10 * byeAt l + p'.near < 10 + 10 * (byeAt l + 1) + 0
                  omega
              cases m with
              | bye => left; refine goal _ _ e1 (.inl ?_); rw [eb]; exact ⟨rfl, rfl⟩
              | answer k => exact go .test (nomatch ·) (by rw [eb]; exact h.ub) (by rw [eb]) (by rw [eb]) (nomatch ·) (nomatch ·) (by decide)
              | request => exact go .test (nomatch ·) (by rw [eb]; exact h.ub) (by rw [eb]) (by rw [eb]) (nomatch ·) (nomatch ·) (by decide)
              | note => exact go .busy (nomatch ·) (by rw [eb]; exact h.ub) (by rw [eb]) (by rw [eb]) (nomatch ·) (nomatch ·) (by decide)
    · -- another thread
      have ho := h.others i hi
      have e1 : (c.take b i ok).2 = c.queues := by
        unfold Chan.take
        split
        · rfl
        · rcases ho with e | ⟨st, e⟩ <;> rw [e] <;> rfl
      have e2 : ∀ o, b.step (.work i o) = b := fun o => by
        unfold Sm.step
        rw [if_neg hub]
        dsimp only
        rw [if_neg (by rw [hg]; rintro ⟨e, -⟩; cases e)]
        unfold Sm.goWork
        rcases ho with e | ⟨st, e⟩ <;> rw [e]
      refine quiet _ _ est rfl (by rw [e2]; exact ⟨rfl, rfl, rfl, rfl, rfl, rfl, rfl⟩) (by show ∃ m : List SmMsg, (c.take b i ok).2[q]? = _ ∧ _; rw [e1]; exact zero) ?_
      rw [h.turn]
      split
      · exact (nomatch ·)
      · rintro ⟨ok', e⟩
        cases e
        exact hi rfl
  | handled i =>
    have est : c.step (1, .handled i) = c.local 1 (.handled i) := by unfold Chan.step; dsimp only; rw [ht]; dsimp only; rw [if_neg hub]
    by_cases hi : i = j ∧ p = .busy
    · obtain ⟨rfl, rfl⟩ := hi
      have eb : b.step (.handled i) = { b with works := b.works.set i ⟨.test, st⟩ } := by
        unfold Sm.step
        rw [if_neg hub]
        dsimp only
        rw [hw]
        dsimp only
        rw [if_neg (by rw [h.self]; exact (nomatch ·))]
      have as := smAside_step b (.handled i) rfl
      have t : Told (c.local 1 (.handled i)) a (b.step (.handled i)) i .test q l :=
        ⟨pairOf c _ est rfl, smInv_step h.inv _, as.call.trans h.call, as.self.trans h.self, by rw [eb]; exact h.ub, as.th.trans h.th, ⟨st, by rw [eb]; exact List.getElem?_set_self hj, by rw [eb]; exact hst⟩,
          ⟨(nomatch ·), fun _ => (nomatch ·)⟩, as.recv.trans h.recv, h.queue, by rw [eb]; exact h.bye⟩
      rw [est]
      refine .inr ⟨_, _, _, t, .inl ?_⟩
      have ec : (b.step (.handled i)).connected = b.connected := by rw [eb]
      rw [t.far, h.far, ec]
      split
      · show 10 + 10 * byeAt l + 1 < 10 + 10 * byeAt l + 2; omega
      · decide
    · have eb : b.step (.handled i) = b := by
        unfold Sm.step
        rw [if_neg hub]
        dsimp only
        by_cases e : i = j
        · subst e
          rw [hw]
          cases p with
          | busy => exact absurd ⟨rfl, rfl⟩ hi
          | _ => rfl
        · rcases h.others i e with e | ⟨st, e⟩ <;> rw [e]
      refine quiet c _ est rfl (by rw [eb]; exact ⟨rfl, rfl, rfl, rfl, rfl, rfl, rfl⟩) zero ?_
      rw [h.turn]
      split
      · rename_i e
        intro x
        cases x
        exact hi ⟨rfl, e⟩
      · rintro ⟨ok, x⟩
        cases x
  | answered k n ok =>
    have est : c.step (1, .answered k n ok) = (if ok = true ∧ b.handlers[k]? = some true ∧ b.gone = false then c.push b.send (.answer n) else c).local 1 (.answered k) := by unfold Chan.step; dsimp only; rw [ht]; dsimp only; rw [if_neg hub]
    have eb : (b.step (.answered k)).call = b.call ∧ (b.step (.answered k)).self = b.self ∧ (b.step (.answered k)).ub = b.ub ∧ (b.step (.answered k)).th = b.th ∧ (b.step (.answered k)).works = b.works ∧
        (b.step (.answered k)).connected = b.connected ∧ (b.step (.answered k)).recv = b.recv := by
      unfold Sm.step
      rw [if_neg hub]
      dsimp only
      rw [if_neg (c := b.gone = true) (by rw [hg]; exact (nomatch ·))]
      split <;> exact ⟨rfl, rfl, rfl, rfl, rfl, rfl, rfl⟩
    refine quiet _ _ est ?_ eb ?_ (noturn (fun _ _ => (nomatch ·)) (fun _ => (nomatch ·)))
    · split
      · exact (push_fed c b.send _).1
      · rfl
    · split
      · exact fed_queue (push_fed c b.send _).2.2.2 h.queue
      · exact zero
  | send r ok =>
    have est : c.step (1, .send r ok) = if ok = true ∧ b.connected = true ∧ b.gone = false then (c.push b.send .request).local 1 (.send r) else c := by unfold Chan.step; dsimp only; rw [ht]; dsimp only; rw [if_neg hub]
    have nt := noturn (fun _ _ => (nomatch ·)) (fun _ => (nomatch ·))
    by_cases hc : ok = true ∧ b.connected = true ∧ b.gone = false
    · rw [if_pos hc] at est
      have eb : (b.step (.send r)).call = b.call ∧ (b.step (.send r)).self = b.self ∧ (b.step (.send r)).ub = b.ub ∧ (b.step (.send r)).th = b.th ∧ (b.step (.send r)).works = b.works ∧
          (b.step (.send r)).connected = b.connected ∧ (b.step (.send r)).recv = b.recv := by
        unfold Sm.step
        rw [if_neg hub]
        dsimp only
        split <;> exact ⟨rfl, rfl, rfl, rfl, rfl, rfl, rfl⟩
      exact quiet _ _ est (push_fed c b.send _).1 eb (fed_queue (push_fed c b.send _).2.2.2 h.queue) nt
    · rw [if_neg hc] at est
      rw [est]
      exact .inr ⟨b, p, l, h, .inr ⟨rfl, rfl, nt⟩⟩
  | note ok =>
    have est : c.step (1, .note ok) = if ok = true ∧ b.gone = false then c.push b.send .note else c := by unfold Chan.step; dsimp only; rw [ht]; dsimp only; rw [if_neg hub]
    have nt := noturn (fun _ _ => (nomatch ·)) (fun _ => (nomatch ·))
    by_cases hc : ok = true ∧ b.gone = false
    · rw [if_pos hc] at est
      obtain ⟨f1, f2, f3, f4⟩ := push_fed c b.send .note
      have hpp : ChPair (c.push b.send .note) a b := by
        rw [est] at hp
        have := hp.ts
        rw [f1, hts] at this
        cases this
        exact hp
      obtain ⟨l', t, g1, g2⟩ := told_quiet h a b hpp h.inv ⟨rfl, rfl, rfl, rfl, rfl, rfl, rfl⟩ (fed_queue f4 h.queue)
      rw [est]
      exact .inr ⟨b, p, l', t, .inr ⟨g1, g2, nt⟩⟩
    · rw [if_neg hc] at est
      rw [est]
      exact .inr ⟨b, p, l, h, .inr ⟨rfl, rfl, nt⟩⟩
  | _ => cases hact

/-- No transport or mapping that is gone was used, and the threads wait on the queue that the transport is mapped to. -/
def Sm.sound (s : Sm) : Prop := s.ub = false ∧ s.gone = false ∧ ∀ w ∈ s.works, ∀ g, w.pos = .recv g → g = s.gen

theorem sound_aside {s : Sm} (h : s.sound) (op : SmOp) (ha : op.aside = true) : (s.step op).sound := by
  obtain ⟨hu, hg, hm⟩ := h
  have hset : ∀ (j : Nat) (q : SmAt) (st : Bool), (∀ g, q = .recv g → g = s.gen) → ∀ w ∈ s.works.set j ⟨q, st⟩, ∀ g, w.pos = .recv g → g = s.gen := by
    intro j q st hq w hw g e
    rcases List.mem_or_eq_of_mem_set hw with hw | rfl
    · exact hm w hw g e
    · exact hq g e
  unfold Sm.step
  rw [if_neg (by simp [hu])]
  cases op with
  | work j o =>
    dsimp only
    rw [if_neg (by rw [hg]; rintro ⟨e, -⟩; cases e)]
    unfold Sm.goWork
    cases hj : s.works[j]? with
    | none => exact ⟨hu, hg, hm⟩
    | some w =>
      obtain ⟨p, st⟩ := w
      cases p with
      | test => exact ⟨hu, hg, hset j _ _ fun g e => by split at e <;> cases e; rfl⟩
      | recv g =>
        have := hm _ (List.mem_of_getElem? hj) g rfl
        dsimp only
        rw [if_neg (by simp [this])]
        cases o with
        | timeout => exact ⟨hu, hg, hset j _ _ fun g e => nomatch e⟩
        | throws => exact ⟨hu, hg, hset j _ _ fun g e => nomatch e⟩
        | got m => cases m <;> exact ⟨hu, hg, hset j _ _ fun g e => nomatch e⟩
      | busy => exact ⟨hu, hg, hm⟩
      | leave => exact ⟨hu, hg, hset j _ _ fun g e => nomatch e⟩
      | ended => exact ⟨hu, hg, hm⟩
  | handled j =>
    dsimp only
    split
    · split
      · exact ⟨hu, hg, hm⟩
      · exact ⟨hu, hg, hset j _ _ fun g e => nomatch e⟩
    · exact ⟨hu, hg, hm⟩
  | answered h =>
    dsimp only
    rw [if_neg (c := s.gone = true) (by rw [hg]; exact (nomatch ·))]
    split <;> exact ⟨hu, hg, hm⟩
  | send r => dsimp only; split <;> exact ⟨hu, hg, hm⟩
  | _ => cases ha

theorem sound_step {c : Chan} {i : Nat} (h : ∃ b, c.ts[i]? = some b ∧ b.sound) (x : Nat × SmAct) (hx : x.1 = i → x.2.calls = false) : ∃ b, (c.step x).ts[i]? = some b ∧ b.sound := by
  obtain ⟨b, h1, h2⟩ := h
  obtain ⟨k, act⟩ := x
  by_cases e : k = i
  · subst e
    have hx : act.calls = false := hx rfl
    have loc : ∀ (d : Chan) op, d.ts = c.ts → op.aside = true → ∃ b, (d.local k op).ts[k]? = some b ∧ b.sound := fun d op e ho => ⟨_, local_at e k op b h1, sound_aside h2 op ho⟩
    unfold Chan.step
    dsimp only
    rw [h1]
    dsimp only
    rw [if_neg (by simp [h2.1])]
    cases act with
    | work j ok => dsimp only; split; exact loc c _ rfl rfl; exact loc { c with queues := _ } _ rfl rfl
    | handled j => exact loc c _ rfl rfl
    | answered h n ok => dsimp only; split; exact loc _ _ (push_fed c b.send _).1 rfl; exact loc c _ rfl rfl
    | send r ok => dsimp only; split; exact loc _ _ (push_fed c b.send _).1 rfl; exact ⟨b, h1, h2⟩
    | note ok => dsimp only; split; exact ⟨b, by rw [(push_fed c b.send _).1]; exact h1, h2⟩; exact ⟨b, h1, h2⟩
    | _ => cases hx
  · cases hk : c.ts[k]? with
    | none => rw [chan_none c k act hk]; exact ⟨b, h1, h2⟩
    | some u => exact ⟨b, by rw [((chan_step c k act u hk).ts hk).1 i (fun x => e x.symm)]; exact h1, h2⟩

/-- The opener makes no call; its threads get a turn again and again and its handlers of notifications return. -/
structure ChFair (f : Nat → Nat × SmAct) : Prop where
  calls : ∀ t act, f t = (1, act) → act.calls = false
  work : ∀ j T, ∃ t ok, T ≤ t ∧ f t = (1, .work j ok)
  handled : ∀ j T, ∃ t, T ≤ t ∧ f t = (1, .handled j)

/-- C120. On a channel with one opener, joined to the creator: when `Close` of the creator has sent its message, the opener says after a time that it is not connected, and every request it has made has
got its answer. Missing: more than one opener; a message that cannot be sent; a creator that is destroyed without `Close`. -/
theorem C120_told_partial (as : List (Nat × SmAct)) (a b : Sm) (h : ((Chan.init [true, false]).run as).ts = [a, b]) (ha : a.call = .cBye) (hau : a.ub = false) (hb : b.connected = true) (hbc : b.call = .idle)
    (hbs : b.sound) (hjoin : b.recv = a.send) (hsome : a.send ≠ none) (f : Nat → Nat × SmAct) (hf : ChFair f) :
    ∃ t b', (statesOf Chan.step ((Chan.init [true, false]).run (as ++ [(0, .caller true)])) f t).ts[1]? = some b' ∧ b'.connected = false ∧ b'.pending = [] := by
  obtain ⟨a₁, b₁, hp⟩ := chPair_run as
  have e := hp.ts
  rw [h] at e
  cases e
  have hbu := hbs.1
  obtain ⟨bb, ops, -, eb⟩ := C120_each [true, false] as 1 b (by rw [h]; rfl)
  have hinv : SmInv b := by rw [eb]; exact smInv_run bb ops
  have hmore : SmMore b := by rw [eb]; exact smMore_run bb ops (by rw [← eb]; exact hbu)
  have hlive : SmLive b := by rw [eb]; exact smLive_run bb ops
  obtain ⟨p, hw, hp1, hp2⟩ := hlive hb
  have hth : ∃ j, b.th = some j := by
    cases hth : b.th with
    | none => have := hinv.loose hth; rw [hb] at this; cases this
    | some j => exact ⟨j, rfl⟩
  obtain ⟨j, hth⟩ := hth
  have hlast := hinv.last (by rw [hbc]; rfl) j hth
  have hjj : b.works.length - 1 = j := by omega
  rw [hjj] at hw
  cases hs : a.send with
  | none => exact absurd hs hsome
  | some q =>
    rw [hs] at hjoin
    -- the message is in the queue
    have hstep : (Chan.init [true, false]).run (as ++ [(0, .caller true)]) = (((Chan.init [true, false]).run as).push (some q) .bye).local 0 .caller := by
      have e1 : (Chan.init [true, false]).run (as ++ [(0, .caller true)]) = ((Chan.init [true, false]).run as).step (0, .caller true) := by simp [Chan.run]
      rw [e1]
      unfold Chan.step
      dsimp only
      rw [h]
      show (if a.ub = true then _ else _) = _
      rw [if_neg (by simp [hau])]
      rw [ha, hp.create, hs]
      rfl
    have hlt := hp.sendLt q hs
    obtain ⟨a', b', hp'⟩ := chPair_step hp (0, .caller true)
    have e1 : ((Chan.init [true, false]).run as).step (0, .caller true) = (Chan.init [true, false]).run (as ++ [(0, .caller true)]) := by simp [Chan.run]
    rw [e1] at hp'
    have hb' : b' = b := by
      have := (chan_step ((Chan.init [true, false]).run as) 0 (.caller true) a (by rw [h]; rfl)).ts (by rw [h]; rfl)
      have := this.1 1 (by decide)
      rw [e1, hp'.ts, h] at this
      exact Option.some.inj this
    subst hb'
    have hq : ((Chan.init [true, false]).run (as ++ [(0, .caller true)])).queues[q]? = some (((Chan.init [true, false]).run as).queues[q] ++ [.bye]) := by
      rw [hstep]
      show (((Chan.init [true, false]).run as).queues.modify q _)[q]? = _
      rw [List.getElem?_modify_eq, List.getElem?_eq_getElem hlt]
      rfl
    have start : Told ((Chan.init [true, false]).run (as ++ [(0, .caller true)])) a' b' j p q (((Chan.init [true, false]).run as).queues[q] ++ [.bye]) :=
      ⟨hp', hinv, hbc, hmore.self.resolve_right (by rw [hbc]; exact (nomatch ·)), hbu, hth, ⟨false, hw, fun _ => rfl⟩, ⟨hp2, fun _ => hp1⟩, hjoin, hq, fun _ => by simp⟩
    have hub : ∀ t b', (statesOf Chan.step ((Chan.init [true, false]).run (as ++ [(0, .caller true)])) f t).ts[1]? = some b' → b'.ub = false := by
      intro t
      have key : ∃ b, (statesOf Chan.step ((Chan.init [true, false]).run (as ++ [(0, .caller true)])) f t).ts[1]? = some b ∧ b.sound := by
        induction t with
        | zero => exact ⟨b', by show ((Chan.init [true, false]).run (as ++ [(0, .caller true)])).ts[1]? = _; rw [hp'.ts]; rfl, hbs⟩
        | succ t ih => exact sound_step ih (f t) (fun e => hf.calls t (f t).2 (by rw [← e]))
      obtain ⟨b, h1, h2⟩ := key
      intro b' h
      rw [h1] at h
      cases h
      exact h2.1
    generalize (Chan.init [true, false]).run (as ++ [(0, .caller true)]) = c at *
    -- steps of the execution only: others are put in its place
    let guard : Nat × SmAct → Nat × SmAct := fun x => if x.1 = 1 ∧ x.2.calls = true then (0, .note false) else x
    have hguard : ∀ t, guard (f t) = f t := by
      intro t
      show (if _ then _ else _) = _
      rw [if_neg]
      rintro ⟨h1, h2⟩
      have := hf.calls t (f t).2 (by rw [← h1])
      rw [this] at h2
      cases h2
    have est : ∀ t, statesOf Chan.step c f t = statesOf (fun c x => c.step (guard x)) c f t := by
      intro t
      induction t with
      | zero => rfl
      | succ t ih =>
        show (statesOf Chan.step c f t).step (f t) = (statesOf (fun c x => c.step (guard x)) c f t).step (guard (f t))
        rw [ih, hguard]
    obtain ⟨t, b'', g1, g2⟩ := leads (fun c x => Chan.step c (guard x)) c f (fun c => ∃ a b j p q l, Told c a b j p q l) ToldGoal Chan.far Chan.turn (fun k x => k.isAct (guard x))
      (fun c x ⟨a, b, j, p, q, l, h⟩ => by
        show ToldGoal (c.step (guard x)) ∨ ((∃ a b j p q l, Told (c.step (guard x)) a b j p q l) ∧ ((c.step (guard x)).far < c.far ∨ ((c.step (guard x)).far = c.far ∧ (c.step (guard x)).turn = c.turn ∧ ¬ c.turn.isAct (guard x))))
        have hg : ∀ act, guard x = (1, act) → act.calls = false := by
          intro act e
          have e : (if x.1 = 1 ∧ x.2.calls = true then ((0, SmAct.note false) : Nat × SmAct) else x) = (1, act) := e
          split at e
          · cases e
          · rename_i hn
            rw [e] at hn
            cases hc : act.calls with
            | false => rfl
            | true => exact absurd ⟨rfl, hc⟩ hn
        generalize guard x = y at *
        obtain ⟨i, act⟩ := y
        match i with
        | 0 =>
          obtain ⟨a', l', t, e1, e2⟩ := told_creator h act
          refine .inr ⟨⟨a', b, j, p, q, l', t⟩, .inr ⟨e1, e2, ?_⟩⟩
          cases c.turn with
          | caller => exact id
          | work j => rintro ⟨ok, e⟩; cases e
          | handled j => exact (nomatch ·)
        | 1 =>
          rcases told_opener h act (hg act rfl) with g | ⟨b', p', l', t, e⟩
          · exact .inl g
          · exact .inr ⟨⟨a, b', j, p', q, l', t⟩, e⟩
        | n + 2 =>
          rw [chan_none c (n + 2) act (by rw [h.pair.ts]; rfl)]
          refine .inr ⟨⟨a, b, j, p, q, l, h⟩, .inr ⟨rfl, rfl, ?_⟩⟩
          cases c.turn with
          | caller => exact id
          | work j => rintro ⟨ok, e⟩; cases e
          | handled j => exact (nomatch ·))
      (fun c ⟨a, b, j, p, q, l, h⟩ T => by
        rw [h.turn]
        split
        · obtain ⟨t, h1, h2⟩ := hf.handled j T
          exact ⟨t, h1, by show guard (f t) = _; rw [hguard]; exact h2⟩
        · obtain ⟨t, ok, h1, h2⟩ := hf.work j T
          exact ⟨t, h1, ok, by rw [hguard]; exact h2⟩) ⟨a', b', j, p, q, _, start⟩
    refine ⟨t, b'', by rw [est]; exact g1, ?_⟩
    rcases g2 with g2 | g2
    · exact g2
    · have := hub t b'' (by rw [est]; exact g1)
      rw [g2] at this
      cases this

/-- A fair execution: the opener works on. -/
def chTurns (t : Nat) : Nat × SmAct := match (spiralAt t).1 % 2, (spiralAt t).1 / 2 with
  | 0, j => (1, .work j true)
  | _, j => (1, .handled j)

theorem chTurns_fair : ChFair chTurns := by
  refine ⟨fun t act h => ?_, fun j T => ?_, fun j T => ?_⟩
  · unfold chTurns at h
    split at h <;> cases h <;> rfl
  · obtain ⟨u, h1, h2⟩ := spiral_again T (2 * j)
    refine ⟨u, true, h1, ?_⟩
    have e1 : (2 * j) % 2 = 0 := by omega
    have e2 : (2 * j) / 2 = j := by omega
    unfold chTurns; rw [h2, e1, e2]; rfl
  · obtain ⟨u, h1, h2⟩ := spiral_again T (2 * j + 1)
    refine ⟨u, h1, ?_⟩
    have e1 : (2 * j + 1) % 2 = 1 := by omega
    have e2 : (2 * j + 1) / 2 = j := by omega
    unfold chTurns; rw [h2, e1, e2]; rfl

/-- The opener waits for the answer to a request, a notification is in its queue, and `Close` of the creator has begun. -/
example : ∃ a b, ((Chan.init [true, false]).run [(0, .start 2), (1, .start 0), (1, .send 7 true), (1, .work 0 true), (0, .note true), (0, .close none)]).ts = [a, b] ∧ a.call = .cBye ∧ a.ub = false ∧ b.connected = true ∧
    b.call = .idle ∧ b.sound ∧ b.recv = a.send ∧ a.send ≠ none ∧ b.pending = [7] := by
  refine ⟨_, _, rfl, by decide +kernel, by decide +kernel, by decide +kernel, by decide +kernel, ⟨by decide +kernel, by decide +kernel, ?_⟩, by decide +kernel, by decide +kernel, by decide +kernel⟩
  intro w hw g e
  have hw : w ∈ [(⟨.recv 1, false⟩ : SmWork)] := hw
  rw [List.mem_singleton] at hw
  subst hw
  cases e
  decide +kernel

end Verif.Shm
