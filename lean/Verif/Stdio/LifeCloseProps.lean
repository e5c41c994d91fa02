import Verif.Stdio.LifeEndProps

/-!
C118, third part: `Close` returns.
-/

namespace Verif.Stdio

/-! ### More that holds in every state -/

/-- `Close` has set `connected` to false and has not returned. -/
def SlCall.closing : SlCall → Bool
  | .notify | .rWait | .rJoin | .wNotify | .wWait | .wJoin | .tJoin | .fail => true
  | _ => false

structure SlMore (s : Sl) : Prop where
  off : s.call.closing = true → s.connected = false
  exited : s.readerExited = true → ∃ i : Nat, s.readers[i]? = some SlRead.ended
  wrote : (∀ j, SlThread.writer j ∉ s.left) → s.writerExited = true → ∀ j : Nat, s.wr = some j → s.writers[j]? = some SlWrite.ended ∨ s.writers[j]? = some SlWrite.entry
  wJoin : (∀ j, SlThread.writer j ∉ s.left) → s.call = .wJoin →
    ∀ j : Nat, s.wr = some j → s.writers[j]? = some SlWrite.ended ∨ s.writers[j]? = some SlWrite.entry ∨ s.writers[j]? = some SlWrite.test
  rJoin : s.call = .rJoin → s.readerExited = true ∧ ∀ j, s.rd = some j → s.self ≠ some j

/-- A step that touches neither the writers nor what is told of them. -/
theorem SlMore.beside {s t : Sl} (h : SlMore s) (a : Aside s t) (hcon : s.connected = false → t.connected = false) (hex : t.readerExited = s.readerExited) (hw : t.writers = s.writers)
    (hwe : t.writerExited = s.writerExited) : SlMore t where
  off e := by rw [a.call] at e; exact hcon (h.off e)
  exited e := by rw [hex] at e; obtain ⟨i, hi⟩ := h.exited e; exact ⟨i, a.readers i hi⟩
  wrote := by rw [a.left, a.wr, hw, hwe]; exact h.wrote
  wJoin := by rw [a.left, a.wr, hw, a.call]; exact h.wJoin
  rJoin := by rw [a.call, a.rd, a.self, hex]; exact h.rJoin

theorem slMore_aside {s : Sl} (hi : SlInv s) (h : SlMore s) (op : SlOp) (ha : op.aside = true) : SlMore (s.step op) := by
  have a := aside_step s op ha
  revert a
  unfold Sl.step
  split
  · exact fun _ => h
  · cases op with
    | reader j o =>
      dsimp only
      split
      · exact fun a => h.beside a id rfl rfl rfl
      · unfold Sl.goReader
        cases hp : s.readers[j]? with
        | none => exact fun _ => h
        | some p =>
          have hlt : j < s.readers.length := (List.getElem?_eq_some_iff.mp hp).1
          cases p with
          | test => exact fun a => h.beside a id rfl rfl rfl
          | wait => cases o <;> exact fun a => h.beside a id rfl rfl rfl
          | handle => exact fun _ => h
          | leaving =>
            intro a
            have e : (s.readers.set j SlRead.ended)[j]? = some SlRead.ended := by rw [List.getElem?_set_self hlt]
            exact ⟨fun _ => rfl, fun _ => ⟨j, e⟩, h.wrote, h.wJoin, fun e => ⟨rfl, (h.rJoin e).2⟩⟩
          | ended => exact fun _ => h
    | handled j => dsimp only; split <;> first | exact fun _ => h | exact fun a => h.beside a id rfl rfl rfl
    | timer j k =>
      dsimp only
      split
      · exact fun a => h.beside a id rfl rfl rfl
      · unfold Sl.goTimer
        split <;> first | exact fun _ => h | exact fun a => h.beside a id rfl rfl rfl | (split <;> exact fun a => h.beside a id rfl rfl rfl)
    | answer i => dsimp only; split <;> first | exact fun _ => h | exact fun a => h.beside a id rfl rfl rfl
    | send f =>
      dsimp only
      split
      · rename_i hs
        intro a
        have keep : ∀ (j : Nat) (p : SlWrite), p ≠ SlWrite.asleep → s.writers[j]? = some p → (s.wakeTimers.wakeWriters).writers[j]? = some p := by
          intro j p hp e
          show (s.writers.map _)[j]? = _
          rw [List.getElem?_map, e, Option.map_some, if_neg hp]
        refine ⟨h.off, ?_, fun e1 e2 j e3 => ?_, fun e1 e2 j e3 => ?_, h.rJoin⟩
        · exact h.exited
        · exact (h.wrote e1 e2 j e3).imp (keep j _ (nomatch ·)) (keep j _ (nomatch ·))
        · exact (h.wJoin e1 e2 j e3).imp (keep j _ (nomatch ·)) (.imp (keep j _ (nomatch ·)) (keep j _ (nomatch ·)))
      · exact fun _ => h
    | writer j o =>
      dsimp only
      split
      · exact fun a => h.beside a id rfl rfl rfl
      · -- the new place of a thread that writes
        have upd : ∀ (t : Sl) (p q : SlWrite), Aside s t → s.writers[j]? = some p → p ≠ .ended → t.writers = s.writers.set j q → (s.connected = false → t.connected = false) →
            t.readerExited = s.readerExited →
            (t.writerExited = true → (q = .ended ∨ q = .entry) ∨ (s.writerExited = true ∧ p ≠ .entry)) →
            (s.connected = false → p = .entry ∨ p = .test → q = .ended ∨ q = .entry ∨ q = .test) → SlMore t := by
          intro t p q a hp hne hw hcon hex hq1 hq2
          have hlt : j < s.writers.length := (List.getElem?_eq_some_iff.mp hp).1
          have here : (∀ i, SlThread.writer i ∉ s.left) → s.wr = some j := by
            intro hn
            rcases hi.writers j hlt with e | e | e
            · rw [hp] at e; exact absurd (Option.some.inj e) hne
            · exact e
            · exact absurd e (hn j)
          have hset : t.writers[j]? = some q := by rw [hw, List.getElem?_set_self hlt]
          refine ⟨fun e => by rw [a.call] at e; exact hcon (h.off e), ?_, ?_, ?_, ?_⟩
          · intro e; rw [hex] at e; obtain ⟨i, hi⟩ := h.exited e; exact ⟨i, a.readers i hi⟩
          · intro hn he i hwr
            rw [a.left] at hn
            rw [a.wr, here hn] at hwr
            cases hwr
            rw [hset]
            rcases hq1 he with (e | e) | ⟨e, e'⟩
            · exact .inl (by rw [e])
            · exact .inr (by rw [e])
            · rcases h.wrote hn e j (here hn) with r | r
              · rw [hp] at r; exact absurd (Option.some.inj r) hne
              · rw [hp] at r; exact absurd (Option.some.inj r) e'
          · intro hn he i hwr
            rw [a.left] at hn
            rw [a.call] at he
            rw [a.wr, here hn] at hwr
            cases hwr
            rw [hset]
            have hpp : p = .entry ∨ p = .test := by
              rcases h.wJoin hn he j (here hn) with r | r | r
              · rw [hp] at r; exact absurd (Option.some.inj r) hne
              · rw [hp] at r; exact .inl (Option.some.inj r)
              · rw [hp] at r; exact .inr (Option.some.inj r)
            rcases hq2 (h.off (by rw [he]; rfl)) hpp with e | e | e
            · exact .inl (by rw [e])
            · exact .inr (.inl (by rw [e]))
            · exact .inr (.inr (by rw [e]))
          · rw [a.call, a.rd, a.self, hex]; exact h.rJoin
        unfold Sl.goWriter
        cases hp : s.writers[j]? with
        | none => exact fun _ => h
        | some p =>
          cases p with
          | entry => exact fun a => upd _ _ _ a hp (nomatch ·) rfl id rfl (nomatch ·) (fun _ _ => .inr (.inr rfl))
          | test =>
            dsimp only
            split
            · rename_i hcon
              exact fun a => upd _ _ _ a hp (nomatch ·) rfl id rfl (fun e => .inr ⟨e, (nomatch ·)⟩) (fun e _ => by rw [hcon] at e; cases e)
            · exact fun a => upd _ _ _ a hp (nomatch ·) rfl id rfl (fun _ => .inl (.inl rfl)) (fun _ _ => .inl rfl)
          | look =>
            dsimp only
            split
            · exact fun a => upd _ _ _ a hp (nomatch ·) rfl id rfl (fun e => .inr ⟨e, (nomatch ·)⟩) (fun _ e => by rcases e with e | e <;> cases e)
            · split
              · exact fun a => upd _ _ _ a hp (nomatch ·) rfl id rfl (fun e => .inr ⟨e, (nomatch ·)⟩) (fun _ e => by rcases e with e | e <;> cases e)
              · exact fun a => upd _ _ _ a hp (nomatch ·) rfl id rfl (fun _ => .inl (.inl rfl)) (fun _ e => by rcases e with e | e <;> cases e)
          | decided => exact fun a => upd _ _ _ a hp (nomatch ·) rfl id rfl (fun e => .inr ⟨e, (nomatch ·)⟩) (fun _ e => by rcases e with e | e <;> cases e)
          | asleep => exact fun _ => h
          | write rest =>
            dsimp only
            split
            · exact fun a => upd _ _ _ a hp (nomatch ·) rfl id rfl (fun e => .inr ⟨e, (nomatch ·)⟩) (fun _ e => by rcases e with e | e <;> cases e)
            · cases o with
              | some n => exact fun a => upd _ _ _ a hp (nomatch ·) rfl id rfl (fun e => .inr ⟨e, (nomatch ·)⟩) (fun _ e => by rcases e with e | e <;> cases e)
              | none => exact fun a => upd _ _ _ a hp (nomatch ·) rfl (fun _ => rfl) rfl (fun e => .inr ⟨e, (nomatch ·)⟩) (fun _ e => by rcases e with e | e <;> cases e)
          | ended => exact fun _ => h
    | _ => cases ha

/-- A step of the call that leaves the threads as they are, except that it may wake some or let go of some. -/
theorem SlMore.call {s t : Sl} (h : SlMore s) (hoff : t.call.closing = true → t.connected = false) (hr : t.readers = s.readers) (hre : t.readerExited = s.readerExited)
    (hwe : t.writerExited = s.writerExited) (hwr : ∀ j, t.wr = some j → s.wr = some j) (hl : (∀ j, SlThread.writer j ∉ t.left) → ∀ j, SlThread.writer j ∉ s.left)
    (hw : ∀ (j : Nat) (p : SlWrite), p ≠ SlWrite.asleep → s.writers[j]? = some p → t.writers[j]? = some p)
    (hj : t.call = .wJoin → s.call = .wJoin ∨ s.writerExited = true) (hrj : t.call = .rJoin → s.readerExited = true ∧ ∀ j, t.rd = some j → t.self ≠ some j) : SlMore t where
  off := hoff
  exited := by rw [hr, hre]; exact h.exited
  wrote e1 e2 j e3 := by rw [hwe] at e2; exact (h.wrote (hl e1) e2 j (hwr j e3)).imp (hw j _ (nomatch ·)) (hw j _ (nomatch ·))
  wJoin e1 e2 j e3 := by
    rcases hj e2 with e | e
    · exact (h.wJoin (hl e1) e j (hwr j e3)).imp (hw j _ (nomatch ·)) (.imp (hw j _ (nomatch ·)) (hw j _ (nomatch ·)))
    · rcases h.wrote (hl e1) e j (hwr j e3) with r | r
      · exact .inl (hw j _ (nomatch ·) r)
      · exact .inr (.inl (hw j _ (nomatch ·) r))
  rJoin e := by rw [hre]; exact hrj e

theorem sl_left_reader {l : List SlThread} {i : Nat} (h : ∀ j, SlThread.writer j ∉ l ++ [.reader i]) : ∀ j, SlThread.writer j ∉ l := fun j hj => h j (List.mem_append_left _ hj)

theorem slMore_step {s : Sl} (hi : SlInv s) (h : SlMore s) (op : SlOp) : SlMore (s.step op) := by
  by_cases ha : op.aside = true
  · exact slMore_aside hi h op ha
  · have k : ∀ (j : Nat) (p : SlWrite), p ≠ SlWrite.asleep → s.writers[j]? = some p → s.writers[j]? = some p := fun _ _ _ e => e
    unfold Sl.step
    split
    · exact h
    · cases op with
      | start =>
        dsimp only
        split
        · rename_i hc
          unfold Sl.start
          split
          · refine ⟨fun e => ?_, fun e => ?_, fun _ _ j e => ?_, fun _ e => ?_, fun e => ?_⟩
            · have e' : s.call.closing = true := e
              rw [hc] at e'
              cases e'
            · obtain ⟨i, hi⟩ := h.exited e
              refine ⟨i, ?_⟩
              show (s.readers ++ [_])[i]? = _
              rw [List.getElem?_append_left (List.getElem?_eq_some_iff.mp hi).1]
              exact hi
            · injection e with e
              subst e
              exact .inr (by show (s.writers ++ [SlWrite.entry])[s.writers.length]? = _; simp)
            · have e' : s.call = .wJoin := e
              rw [hc] at e'
              cases e'
            · have e' : s.call = .rJoin := e
              rw [hc] at e'
              cases e'
          · exact h.call (fun e => by have e' : s.call.closing = true := e; rw [hc] at e'; cases e') rfl rfl rfl (fun _ e => e) id k .inl h.rJoin
        · exact h
      | destroy => dsimp only; split <;> first | exact h | exact h.call (nomatch ·) rfl rfl rfl (fun _ e => e) id k (nomatch ·) (nomatch ·)
      | close self =>
        dsimp only
        split
        · cases self with
          | none => exact h.call (nomatch ·) rfl rfl rfl (fun _ e => e) id k (nomatch ·) (nomatch ·)
          | some j => dsimp only; split <;> first | exact h | exact h.call (nomatch ·) rfl rfl rfl (fun _ e => e) id k (nomatch ·) (nomatch ·)
        · exact h
      | caller =>
        dsimp only
        unfold Sl.goCaller
        have ho := h.off
        cases hc : s.call with
        | idle => exact h
        | flag => exact h.call (fun _ => rfl) rfl rfl rfl (fun _ e => e) id k (nomatch ·) (nomatch ·)
        | notify => rw [hc] at ho; exact h.call (fun _ => ho rfl) rfl rfl rfl (fun _ e => e) id k (nomatch ·) (nomatch ·)
        | rWait =>
          rw [hc] at ho
          dsimp only
          cases hrd : s.rd with
          | none => exact h.call (fun _ => ho rfl) rfl rfl rfl (fun _ e => e) id k (nomatch ·) (nomatch ·)
          | some j =>
            dsimp only
            split
            · exact h.call (fun _ => ho rfl) rfl rfl rfl (fun _ e => e) sl_left_reader k (nomatch ·) (nomatch ·)
            · rename_i hs
              split
              · rename_i hx
                exact h.call (fun _ => ho rfl) rfl rfl rfl (fun _ e => e) id k (nomatch ·) (fun _ => ⟨hx, fun i e => by cases e; exact hs⟩)
              · exact h
        | rJoin =>
          rw [hc] at ho
          dsimp only
          split <;> (try split) <;> first | exact h | exact h.call (fun _ => ho rfl) rfl rfl rfl (fun _ e => e) id k (nomatch ·) (nomatch ·)
        | wNotify =>
          rw [hc] at ho
          dsimp only
          split
          · exact h.call (fun _ => ho rfl) rfl rfl rfl (fun _ e => e) id k (nomatch ·) (nomatch ·)
          · refine h.call (fun _ => ho rfl) rfl rfl rfl (fun _ e => e) id ?_ (nomatch ·) (nomatch ·)
            intro j p hp e
            show (s.writers.map _)[j]? = _
            rw [List.getElem?_map, e, Option.map_some, if_neg hp]
        | wWait =>
          rw [hc] at ho
          dsimp only
          split
          · rename_i hx
            exact h.call (fun _ => ho rfl) rfl rfl rfl (fun _ e => e) id k (fun _ => .inr hx) (nomatch ·)
          · exact h
        | wJoin =>
          rw [hc] at ho
          dsimp only
          cases hwr : s.wr with
          | none => exact h.call (fun _ => ho rfl) rfl rfl rfl (fun _ e => by cases e) id k (nomatch ·) (nomatch ·)
          | some j => dsimp only; split <;> first | exact h | exact h.call (fun _ => ho rfl) rfl rfl rfl (fun _ e => by cases e) id k (nomatch ·) (nomatch ·)
        | tJoin =>
          rw [hc] at ho
          dsimp only
          split <;> (try split) <;> first | exact h | exact h.call (fun _ => ho rfl) rfl rfl rfl (fun _ e => e) id k (nomatch ·) (nomatch ·)
        | fail => exact h.call (nomatch ·) rfl rfl rfl (fun _ e => e) id k (nomatch ·) (nomatch ·)
        | dRead =>
          dsimp only
          split <;> (try split) <;> first | exact h.call (nomatch ·) rfl rfl rfl (fun _ e => e) id k (nomatch ·) (nomatch ·) |
            exact h.call (nomatch ·) rfl rfl rfl (fun _ e => e) sl_left_reader k (nomatch ·) (nomatch ·)
        | dRJoin => dsimp only; split <;> (try split) <;> first | exact h | exact h.call (nomatch ·) rfl rfl rfl (fun _ e => e) id k (nomatch ·) (nomatch ·)
        | dTJoin => dsimp only; split <;> (try split) <;> exact h.call (nomatch ·) rfl rfl rfl (fun _ e => e) id k (nomatch ·) (nomatch ·)
        | dMembers => dsimp only; split <;> exact h.call (nomatch ·) rfl rfl rfl (fun _ e => e) id k (nomatch ·) (nomatch ·)
        | destroyed => exact h
      | giveUp =>
        dsimp only
        unfold Sl.giveUp
        have ho := h.off
        cases hc : s.call with
        | rWait =>
          rw [hc] at ho
          dsimp only
          cases hrd : s.rd with
          | none => exact h
          | some j =>
            dsimp only
            split
            · exact h
            · rename_i hs
              split
              · rename_i hx
                exact h.call (fun _ => ho rfl) rfl rfl rfl (fun _ e => e) id k (nomatch ·) (fun _ => ⟨hx, fun i e => by cases e; exact hs⟩)
              · exact h.call (fun _ => ho rfl) rfl rfl rfl (fun _ e => e) sl_left_reader k (nomatch ·) (nomatch ·)
        | wWait =>
          rw [hc] at ho
          dsimp only
          cases hwr : s.wr with
          | none => exact h
          | some j =>
            dsimp only
            split
            · rename_i hx
              exact h.call (fun _ => ho rfl) rfl rfl rfl (fun i e => by rw [hwr]; exact e) id k (fun _ => .inr hx) (nomatch ·)
            · exact h.call (fun _ => ho rfl) rfl rfl rfl (fun _ e => (nomatch e)) (fun e i hi => e i (List.mem_append_left _ hi)) k (nomatch ·) (nomatch ·)
        | _ => exact h
      | _ => exact absurd rfl ha

theorem slMore_run (ops : List SlOp) : SlMore (Sl.init.run ops) :=
  (sl_run_inv (P := fun s => SlInv s ∧ SlMore s) ⟨slInv_init, ⟨(nomatch ·), (nomatch ·), fun _ e => (nomatch e), fun _ e => (nomatch e), (nomatch ·)⟩⟩
    fun _ op _ h => ⟨slInv_step h.1 op, slMore_step h.1 h.2 op⟩).2

/-! ### Turns -/

/-- Who has to get a turn for the call to go on. -/
inductive SlTurn where
  | caller | giveUp
  | reader (j : Nat)
  | handled (j : Nat)
  | writer (j : Nat)
  | timer (j : Nat)
  deriving DecidableEq

/-- The steps that give a turn. -/
def SlTurn.by : SlTurn → SlOp → Prop
  | .caller, op => op = .caller
  | .giveUp, op => op = .giveUp
  | .reader j, op => ∃ o, op = .reader j o
  | .handled j, op => op = .handled j
  | .writer j, op => ∃ o, op = .writer j o
  | .timer j, op => ∃ k, op = .timer j k

def SlRead.far : SlRead → Nat
  | .wait => 4
  | .handle => 3
  | .test => 2
  | .leaving => 1
  | .ended => 0

def SlRead.turn (j : Nat) : SlRead → SlTurn
  | .ended => .caller
  | .handle => .handled j
  | _ => .reader j

def SlWrite.far : SlWrite → Nat
  | .entry => 2
  | .test => 1
  | _ => 0

def SlWrite.turn (j : Nat) : SlWrite → SlTurn
  | .ended => .caller
  | _ => .writer j

def SlTimer.far : SlTimer → Nat
  | .ended => 0
  | _ => 1

def SlTimer.turn (j : Nat) : SlTimer → SlTurn
  | .ended => .caller
  | _ => .timer j

theorem set_other {α : Type} {l : List α} {i j : Nat} {x : α} (h : i ≠ j) : (l.set i x)[j]? = l[j]? := List.getElem?_set_ne h

theorem reader_turn {s : Sl} (hd : s.dead = false) (hu : s.ub = false) (hg : s.gone = false) (hcon : s.connected = false) {j : Nat} (hself : s.self ≠ some j) {p : SlRead}
    (hp : s.readers[j]? = some p) (op : SlOp) (ha : op.aside = true) :
    ∃ q, (s.step op).readers[j]? = some q ∧ (q.far < p.far ∨ (q = p ∧ ¬ (p.turn j).by op)) := by
  have hlt : j < s.readers.length := (List.getElem?_eq_some_iff.mp hp).1
  unfold Sl.step
  rw [if_neg (by simp [hd, hu])]
  cases op with
  | reader i o =>
    dsimp only
    rw [if_neg (by simp [hg])]
    by_cases hij : i = j
    · subst hij
      unfold Sl.goReader
      rw [hp]
      cases p with
      | test =>
        rw [hcon]
        exact ⟨.leaving, List.getElem?_set_self hlt, .inl (by decide)⟩
      | wait =>
        cases o with
        | nothing => exact ⟨.test, List.getElem?_set_self hlt, .inl (by decide)⟩
        | bytes c whole =>
          cases whole with
          | true => exact ⟨.handle, List.getElem?_set_self hlt, .inl (by decide)⟩
          | false => exact ⟨.test, List.getElem?_set_self hlt, .inl (by decide)⟩
        | eof => exact ⟨.leaving, List.getElem?_set_self hlt, .inl (by decide)⟩
      | handle => exact ⟨_, hp, .inr ⟨rfl, (nomatch ·)⟩⟩
      | leaving => exact ⟨.ended, List.getElem?_set_self hlt, .inl (by decide)⟩
      | ended => exact ⟨_, hp, .inr ⟨rfl, (nomatch ·)⟩⟩
    · refine ⟨p, ?_, .inr ⟨rfl, ?_⟩⟩
      · unfold Sl.goReader
        cases hq : s.readers[i]? with
        | none => exact hp
        | some q =>
          cases q with
          | wait => cases o <;> exact (set_other hij).trans hp
          | handle => exact hp
          | ended => exact hp
          | _ => exact (set_other hij).trans hp
      · cases p <;> first | (rintro ⟨o', e⟩; cases e; exact hij rfl) | exact (nomatch ·)
  | handled i =>
    by_cases hij : i = j
    · subst hij
      by_cases hh : p = .handle
      · subst hh
        dsimp only
        rw [if_pos ⟨hp, hself⟩]
        exact ⟨.test, List.getElem?_set_self hlt, .inl (by decide)⟩
      · dsimp only
        rw [if_neg (by rw [hp]; rintro ⟨e, -⟩; exact hh (Option.some.inj e))]
        refine ⟨p, hp, .inr ⟨rfl, ?_⟩⟩
        cases p <;> first | exact absurd rfl hh | exact (nomatch ·) | (rintro ⟨o', e⟩; cases e)
    · refine ⟨p, ?_, .inr ⟨rfl, ?_⟩⟩
      · dsimp only
        split
        · exact (set_other hij).trans hp
        · exact hp
      · cases p <;> first | (intro e; cases e; exact hij rfl) | (rintro ⟨o', e⟩; cases e) | exact (nomatch ·)
  | writer i o =>
    refine ⟨p, ?_, .inr ⟨rfl, ?_⟩⟩
    · dsimp only
      rw [if_neg (by simp [hg])]
      unfold Sl.goWriter
      split
      · exact hp
      · split <;> exact hp
      · split
        · exact hp
        · split <;> exact hp
      · exact hp
      · split
        · exact hp
        · split <;> exact hp
      · exact hp
    · cases p <;> first | exact (nomatch ·) | (rintro ⟨o', e⟩; cases e)
  | timer i k =>
    refine ⟨p, ?_, .inr ⟨rfl, ?_⟩⟩
    · dsimp only
      rw [if_neg (by simp [hg])]
      unfold Sl.goTimer
      split <;> first | exact hp | (split <;> exact hp)
    · cases p <;> first | exact (nomatch ·) | (rintro ⟨o', e⟩; cases e)
  | send f =>
    refine ⟨p, ?_, .inr ⟨rfl, ?_⟩⟩
    · dsimp only; split <;> exact hp
    · cases p <;> first | exact (nomatch ·) | (rintro ⟨o', e⟩; cases e)
  | answer i =>
    refine ⟨p, ?_, .inr ⟨rfl, ?_⟩⟩
    · dsimp only; split <;> exact hp
    · cases p <;> first | exact (nomatch ·) | (rintro ⟨o', e⟩; cases e)
  | _ => cases ha

theorem writer_turn {s : Sl} (hd : s.dead = false) (hu : s.ub = false) (hg : s.gone = false) (hcon : s.connected = false) {j : Nat} {p : SlWrite}
    (hp : s.writers[j]? = some p) (hp' : p = .ended ∨ p = .entry ∨ p = .test) (op : SlOp) (ha : op.aside = true) :
    ∃ q, (s.step op).writers[j]? = some q ∧ (q.far < p.far ∨ (q = p ∧ ¬ (p.turn j).by op)) := by
  have hlt : j < s.writers.length := (List.getElem?_eq_some_iff.mp hp).1
  unfold Sl.step
  rw [if_neg (by simp [hd, hu])]
  cases op with
  | reader i o =>
    refine ⟨p, ?_, .inr ⟨rfl, ?_⟩⟩
    · dsimp only
      rw [if_neg (by simp [hg])]
      unfold Sl.goReader
      split <;> first | exact hp | (split <;> exact hp)
    · cases p <;> first | exact (nomatch ·) | (rintro ⟨o', e⟩; cases e)
  | handled i =>
    refine ⟨p, ?_, .inr ⟨rfl, ?_⟩⟩
    · dsimp only; split <;> exact hp
    · cases p <;> first | exact (nomatch ·) | (rintro ⟨o', e⟩; cases e)
  | writer i o =>
    dsimp only
    rw [if_neg (by simp [hg])]
    by_cases hij : i = j
    · subst hij
      unfold Sl.goWriter
      rw [hp]
      rcases hp' with rfl | rfl | rfl
      · exact ⟨_, hp, .inr ⟨rfl, (nomatch ·)⟩⟩
      · exact ⟨.test, List.getElem?_set_self hlt, .inl (by decide)⟩
      · rw [hcon]
        exact ⟨.ended, List.getElem?_set_self hlt, .inl (by decide)⟩
    · refine ⟨p, ?_, .inr ⟨rfl, ?_⟩⟩
      · unfold Sl.goWriter
        split
        · exact (set_other hij).trans hp
        · split <;> exact (set_other hij).trans hp
        · split
          · exact (set_other hij).trans hp
          · split <;> exact (set_other hij).trans hp
        · exact (set_other hij).trans hp
        · split
          · exact (set_other hij).trans hp
          · split <;> exact (set_other hij).trans hp
        · exact hp
      · cases p <;> first | (rintro ⟨o', e⟩; cases e; exact hij rfl) | exact (nomatch ·)
  | timer i k =>
    refine ⟨p, ?_, .inr ⟨rfl, ?_⟩⟩
    · dsimp only
      rw [if_neg (by simp [hg])]
      unfold Sl.goTimer
      split <;> first | exact hp | (split <;> exact hp)
    · cases p <;> first | exact (nomatch ·) | (rintro ⟨o', e⟩; cases e)
  | send f =>
    refine ⟨p, ?_, .inr ⟨rfl, ?_⟩⟩
    · dsimp only
      rw [if_neg (by simp [hcon])]
      exact hp
    · cases p <;> first | exact (nomatch ·) | (rintro ⟨o', e⟩; cases e)
  | answer i =>
    refine ⟨p, ?_, .inr ⟨rfl, ?_⟩⟩
    · dsimp only; split <;> exact hp
    · cases p <;> first | exact (nomatch ·) | (rintro ⟨o', e⟩; cases e)
  | _ => cases ha

theorem timer_turn {s : Sl} (hd : s.dead = false) (hu : s.ub = false) (hg : s.gone = false) (hcon : s.connected = false) {j : Nat} {p : SlTimer}
    (hp : s.timers[j]? = some p) (hp1 : p ≠ .decided) (op : SlOp) (ha : op.aside = true) :
    ∃ q, (s.step op).timers[j]? = some q ∧ q ≠ .decided ∧ (q = .asleep → p = .asleep) ∧ (p ≠ .asleep → q.far < p.far ∨ (q = p ∧ ¬ (p.turn j).by op)) := by
  have hlt : j < s.timers.length := (List.getElem?_eq_some_iff.mp hp).1
  unfold Sl.step
  rw [if_neg (by simp [hd, hu])]
  cases op with
  | reader i o =>
    refine ⟨p, ?_, hp1, id, fun _ => .inr ⟨rfl, ?_⟩⟩
    · dsimp only
      rw [if_neg (by simp [hg])]
      unfold Sl.goReader
      split <;> first | exact hp | (split <;> exact hp)
    · cases p <;> first | exact (nomatch ·) | (rintro ⟨o', e⟩; cases e)
  | handled i =>
    refine ⟨p, ?_, hp1, id, fun _ => .inr ⟨rfl, ?_⟩⟩
    · dsimp only; split <;> exact hp
    · cases p <;> first | exact (nomatch ·) | (rintro ⟨o', e⟩; cases e)
  | writer i o =>
    refine ⟨p, ?_, hp1, id, fun _ => .inr ⟨rfl, ?_⟩⟩
    · dsimp only
      rw [if_neg (by simp [hg])]
      unfold Sl.goWriter
      split
      · exact hp
      · split <;> exact hp
      · split
        · exact hp
        · split <;> exact hp
      · exact hp
      · split
        · exact hp
        · split <;> exact hp
      · exact hp
    · cases p <;> first | exact (nomatch ·) | (rintro ⟨o', e⟩; cases e)
  | timer i k =>
    dsimp only
    rw [if_neg (by simp [hg])]
    by_cases hij : i = j
    · subst hij
      unfold Sl.goTimer
      rw [hp]
      cases p with
      | test => rw [hcon]; exact ⟨.ended, List.getElem?_set_self hlt, (nomatch ·), (nomatch ·), fun _ => .inl (by decide)⟩
      | decided => exact absurd rfl hp1
      | asleep => exact ⟨_, hp, hp1, id, fun e => absurd rfl e⟩
      | dated =>
        rw [hcon]
        exact ⟨.ended, List.getElem?_set_self hlt, (nomatch ·), (nomatch ·), fun _ => .inl (by decide)⟩
      | ended => exact ⟨_, hp, hp1, id, fun _ => .inr ⟨rfl, (nomatch ·)⟩⟩
    · refine ⟨p, ?_, hp1, id, fun _ => .inr ⟨rfl, ?_⟩⟩
      · unfold Sl.goTimer
        split <;> first | exact (set_other hij).trans hp | exact hp | (split <;> exact (set_other hij).trans hp)
      · cases p <;> first | (rintro ⟨o', e⟩; cases e; exact hij rfl) | exact (nomatch ·)
  | send f =>
    refine ⟨p, ?_, hp1, id, fun _ => .inr ⟨rfl, ?_⟩⟩
    · dsimp only
      rw [if_neg (by simp [hcon])]
      exact hp
    · cases p <;> first | exact (nomatch ·) | (rintro ⟨o', e⟩; cases e)
  | answer i =>
    refine ⟨p, ?_, hp1, id, fun _ => .inr ⟨rfl, ?_⟩⟩
    · dsimp only; split <;> exact hp
    · cases p <;> first | exact (nomatch ·) | (rintro ⟨o', e⟩; cases e)
  | _ => cases ha

/-! ### Close returns -/

/-- How far the call is from its end. -/
def Sl.far (s : Sl) : Nat :=
  match s.call with
  | .notify => 80
  | .rWait => 70
  | .rJoin => 60 + ((s.rd.bind fun j => s.readers[j]?).map SlRead.far).getD 0
  | .wNotify => 50
  | .wWait => 40
  | .wJoin => 30 + ((s.wr.bind fun j => s.writers[j]?).map SlWrite.far).getD 0
  | .tJoin => 10 + ((s.tm.bind fun j => s.timers[j]?).map SlTimer.far).getD 0
  | .fail => 5
  | _ => 0

/-- Whose turn it needs. -/
def Sl.turn (s : Sl) : SlTurn :=
  match s.call with
  | .rWait => if s.rd = none ∨ s.self = s.rd then .caller else .giveUp
  | .rJoin => (s.rd.bind fun j => (s.readers[j]?).map fun p => p.turn j).getD .caller
  | .wWait => .giveUp
  | .wJoin => (s.wr.bind fun j => (s.writers[j]?).map fun p => p.turn j).getD .caller
  | .tJoin => (s.tm.bind fun j => (s.timers[j]?).map fun p => p.turn j).getD .caller
  | _ => .caller

/-- `Close` is under way, and nothing stands in its way. -/
structure SlGoing (H : Prop) (s : Sl) : Prop where
  inv : SlInv s
  more : SlMore s
  dead : s.dead = false
  ub : s.ub = false
  gone : s.gone = false
  closing : s.call.closing = true
  decided : ∀ j : Nat, s.timers[j]? ≠ some SlTimer.decided
  asleep : s.call ≠ .notify → ∀ j : Nat, s.timers[j]? ≠ some SlTimer.asleep
  writers : s.call ≠ .tJoin → s.call ≠ .fail → ∀ j, SlThread.writer j ∉ s.left
  handlers : s.readers.length ≤ 1 ∨ H

theorem getElem?_of_length {α : Type} {l l' : List α} (h : l'.length = l.length) {j : Nat} {q : α} (hq : l'[j]? = some q) : ∃ p, l[j]? = some p := by
  have hlt : j < l'.length := (List.getElem?_eq_some_iff.mp hq).1
  exact ⟨l[j], List.getElem?_eq_getElem (h ▸ hlt)⟩

theorem SlGoing.aside {H : Prop} {s : Sl} (g : SlGoing H s) (op : SlOp) (ha : op.aside = true) : SlGoing H (s.step op) := by
  have a := aside_step s op ha
  have hcon := g.more.off g.closing
  refine ⟨slInv_step g.inv op, slMore_step g.inv g.more op, by rw [a.dead]; exact g.dead, ?_, by rw [a.gone]; exact g.gone, by rw [a.call]; exact g.closing, ?_, ?_, ?_, ?_⟩
  · have hg := g.gone
    unfold Sl.step
    rw [if_neg (by simp [g.dead, g.ub])]
    cases op with
    | reader j o =>
      dsimp only
      rw [if_neg (by simp [hg])]
      unfold Sl.goReader
      split <;> first | exact g.ub | (split <;> exact g.ub)
    | writer j o =>
      dsimp only
      rw [if_neg (by simp [hg])]
      unfold Sl.goWriter
      split
      · exact g.ub
      · split <;> exact g.ub
      · split
        · exact g.ub
        · split <;> exact g.ub
      · exact g.ub
      · split
        · exact g.ub
        · split <;> exact g.ub
      · exact g.ub
    | timer j k =>
      dsimp only
      rw [if_neg (by simp [hg])]
      unfold Sl.goTimer
      split <;> first | exact g.ub | (split <;> exact g.ub)
    | handled j => dsimp only; split <;> exact g.ub
    | send f => dsimp only; split <;> exact g.ub
    | answer i => dsimp only; split <;> exact g.ub
    | _ => cases ha
  · intro j hj
    obtain ⟨p, hp⟩ := getElem?_of_length a.timersLen hj
    obtain ⟨q, hq, hq1, -, -⟩ := timer_turn g.dead g.ub g.gone hcon hp (fun e => g.decided j (by rw [hp, e])) op ha
    rw [hq] at hj
    exact hq1 (Option.some.inj hj)
  · intro hn j hj
    rw [a.call] at hn
    obtain ⟨p, hp⟩ := getElem?_of_length a.timersLen hj
    obtain ⟨q, hq, -, hq2, -⟩ := timer_turn g.dead g.ub g.gone hcon hp (fun e => g.decided j (by rw [hp, e])) op ha
    rw [hq] at hj
    exact g.asleep hn j (by rw [hp, hq2 (Option.some.inj hj)])
  · rw [a.call, a.left]; exact g.writers
  · rw [a.readersLen]; exact g.handlers

theorem slGoing_step {H : Prop} {s : Sl} (op : SlOp) (g : SlGoing H s) :
    (s.step op).call = .idle ∨ (SlGoing H (s.step op) ∧ ((s.step op).far < s.far ∨ ((s.step op).far = s.far ∧ (s.step op).turn = s.turn ∧ ¬ s.turn.by op))) := by
  have hcon := g.more.off g.closing
  have hph := g.inv.phase
  unfold SlPhase at hph
  by_cases ha : op.aside = true
  · right
    have a := aside_step s op ha
    refine ⟨g.aside op ha, ?_⟩
    have plain : ∀ k : SlTurn, k = .caller ∨ k = .giveUp → ¬ k.by op := by
      intro k hk
      rcases hk with rfl | rfl <;> (intro e; have e' : op = _ := e; rw [e'] at ha; cases ha)
    have hc := g.closing
    unfold Sl.far Sl.turn
    rw [a.call, a.rd, a.wr, a.tm, a.self]
    cases hcall : s.call with
    | notify => exact .inr ⟨rfl, rfl, plain _ (.inl rfl)⟩
    | rWait => refine .inr ⟨rfl, rfl, ?_⟩; dsimp only; split; exact plain _ (.inl rfl); exact plain _ (.inr rfl)
    | wNotify => exact .inr ⟨rfl, rfl, plain _ (.inl rfl)⟩
    | wWait => exact .inr ⟨rfl, rfl, plain _ (.inr rfl)⟩
    | fail => exact .inr ⟨rfl, rfl, plain _ (.inl rfl)⟩
    | rJoin =>
      dsimp only
      cases hrd : s.rd with
      | none => exact .inr ⟨rfl, rfl, plain _ (.inl rfl)⟩
      | some j =>
        have hlast := g.inv.rdLast j hrd
        have hp : s.readers[j]? = some s.readers[j] := List.getElem?_eq_getElem (by omega)
        generalize s.readers[j] = p at hp
        obtain ⟨q, hq, hor⟩ := reader_turn g.dead g.ub g.gone hcon ((g.more.rJoin hcall).2 j hrd) hp op ha
        rw [Option.bind_some, Option.bind_some, Option.bind_some, Option.bind_some, hp, hq]
        rcases hor with lt | ⟨rfl, hn⟩
        · exact .inl (by show 60 + q.far < 60 + p.far; omega)
        · exact .inr ⟨rfl, rfl, hn⟩
    | wJoin =>
      dsimp only
      cases hwr : s.wr with
      | none => exact .inr ⟨rfl, rfl, plain _ (.inl rfl)⟩
      | some j =>
        have hlast := g.inv.wrLast j hwr
        have hp : s.writers[j]? = some s.writers[j] := List.getElem?_eq_getElem (by omega)
        generalize s.writers[j] = p at hp
        have hcase := g.more.wJoin (g.writers (by rw [hcall]; exact (nomatch ·)) (by rw [hcall]; exact (nomatch ·))) hcall j hwr
        rw [hp] at hcase
        obtain ⟨q, hq, hor⟩ := writer_turn g.dead g.ub g.gone hcon hp (hcase.imp Option.some.inj (.imp Option.some.inj Option.some.inj)) op ha
        rw [Option.bind_some, Option.bind_some, Option.bind_some, Option.bind_some, hp, hq]
        rcases hor with lt | ⟨rfl, hn⟩
        · exact .inl (by show 30 + q.far < 30 + p.far; omega)
        · exact .inr ⟨rfl, rfl, hn⟩
    | tJoin =>
      dsimp only
      cases htm : s.tm with
      | none => exact .inr ⟨rfl, rfl, plain _ (.inl rfl)⟩
      | some j =>
        have hlast := g.inv.tmLast j htm
        have hp : s.timers[j]? = some s.timers[j] := List.getElem?_eq_getElem (by omega)
        generalize s.timers[j] = p at hp
        obtain ⟨q, hq, -, -, hor⟩ := timer_turn g.dead g.ub g.gone hcon hp (fun e => g.decided j (by rw [hp, e])) op ha
        rw [Option.bind_some, Option.bind_some, Option.bind_some, Option.bind_some, hp, hq]
        rcases hor (fun e => g.asleep (by rw [hcall]; exact (nomatch ·)) j (by rw [hp, e])) with lt | ⟨rfl, hn⟩
        · exact .inl (by show 10 + q.far < 10 + p.far; omega)
        · exact .inr ⟨rfl, rfl, hn⟩
    | _ => rw [hcall] at hc; cases hc
  · have hinv := slInv_step g.inv op
    have hmore := slMore_step g.inv g.more op
    have hni : s.call ≠ .idle := by intro e; have := g.closing; rw [e] at this; cases this
    have htw : ∀ (x : SlTimer), x ≠ .asleep → x ≠ .test → ∀ (j : Nat), (s.wakeTimers).timers[j]? = some x → s.timers[j]? = some x := by
      intro x hx1 hx2 j hj
      have hj' : (s.timers.map fun t => if t = .asleep then .test else t)[j]? = some x := hj
      rw [List.getElem?_map] at hj'
      cases e : s.timers[j]? with
      | none => rw [e] at hj'; cases hj'
      | some y =>
        rw [e, Option.map_some] at hj'
        have := Option.some.inj hj'
        split at this
        · exact absurd this.symm hx2
        · rw [this]
    have hnoasleep : ∀ (j : Nat), (s.wakeTimers).timers[j]? ≠ some SlTimer.asleep := by
      intro j hj
      have hj' : (s.timers.map fun t => if t = .asleep then .test else t)[j]? = some SlTimer.asleep := hj
      rw [List.getElem?_map] at hj'
      cases e : s.timers[j]? with
      | none => rw [e] at hj'; cases hj'
      | some y =>
        rw [e, Option.map_some] at hj'
        have := Option.some.inj hj'
        split at this
        · cases this
        · rename_i hne; exact hne this
    -- what a step of the call keeps
    have mk : ∀ t : Sl, SlInv t → SlMore t → t.dead = s.dead → t.ub = s.ub → t.gone = s.gone → t.call.closing = true → t.timers = s.timers → s.call ≠ .notify →
        (t.call ≠ .tJoin → t.call ≠ .fail → ∀ j, SlThread.writer j ∉ t.left) → t.readers = s.readers → SlGoing H t :=
      fun t h1 h2 h3 h4 h5 h6 h7 h8 h9 h10 => ⟨h1, h2, h3.trans g.dead, h4.trans g.ub, h5.trans g.gone, h6, by rw [h7]; exact g.decided, fun _ => by rw [h7]; exact g.asleep h8, h9,
        by rw [h10]; exact g.handlers⟩
    have leftR : ∀ i, (∀ j, SlThread.writer j ∉ s.left) → ∀ j, SlThread.writer j ∉ s.left ++ [.reader i] := by
      intro i hn j hj
      rcases List.mem_append.mp hj with e | e
      · exact hn j e
      · simp at e
    have far_le : ∀ p : SlRead, p.far ≤ 4 := by intro p; cases p <;> decide
    have farw_le : ∀ p : SlWrite, p.far ≤ 2 := by intro p; cases p <;> simp [SlWrite.far]
    have fart_le : ∀ p : SlTimer, p.far ≤ 1 := by intro p; cases p <;> decide
    have optR : ∀ x : Option SlRead, (x.map SlRead.far).getD 0 ≤ 4 := by intro x; cases x with | none => exact Nat.zero_le _ | some p => exact far_le p
    have optW : ∀ x : Option SlWrite, (x.map SlWrite.far).getD 0 ≤ 2 := by intro x; cases x with | none => exact Nat.zero_le _ | some p => exact farw_le p
    have optT : ∀ x : Option SlTimer, (x.map SlTimer.far).getD 0 ≤ 1 := by intro x; cases x with | none => exact Nat.zero_le _ | some p => exact fart_le p
    have stay : ∀ k : SlTurn, s.turn = k → ¬ k.by op → s.step op = s →
        (s.step op).call = .idle ∨ (SlGoing H (s.step op) ∧ ((s.step op).far < s.far ∨ ((s.step op).far = s.far ∧ (s.step op).turn = s.turn ∧ ¬ s.turn.by op))) := by
      intro k hk hn e
      right
      rw [e]
      exact ⟨g, .inr ⟨rfl, rfl, by rw [hk]; exact hn⟩⟩
    have notBy : op ≠ .caller → op ≠ .giveUp → ¬ s.turn.by op := by
      intro h1 h2 e
      cases hk : s.turn with
      | caller => rw [hk] at e; exact h1 e
      | giveUp => rw [hk] at e; exact h2 e
      | reader j => rw [hk] at e; obtain ⟨o, rfl⟩ := e; exact ha rfl
      | handled j => rw [hk] at e; have e' : op = _ := e; rw [e'] at ha; exact ha rfl
      | writer j => rw [hk] at e; obtain ⟨o, rfl⟩ := e; exact ha rfl
      | timer j => rw [hk] at e; obtain ⟨o, rfl⟩ := e; exact ha rfl
    have live : ¬ (s.dead || s.ub) = true := by simp [g.dead, g.ub]
    cases op with
    | start =>
      refine stay _ rfl (notBy (nomatch ·) (nomatch ·)) ?_
      unfold Sl.step
      rw [if_neg live]
      exact if_neg hni
    | destroy =>
      refine stay _ rfl (notBy (nomatch ·) (nomatch ·)) ?_
      unfold Sl.step
      rw [if_neg live]
      exact if_neg hni
    | close self =>
      refine stay _ rfl (notBy (nomatch ·) (nomatch ·)) ?_
      unfold Sl.step
      rw [if_neg live]
      exact if_neg hni
    | caller =>
      have hs : s.step .caller = s.goCaller := by unfold Sl.step; rw [if_neg live]
      have hfar : s.far = s.far := rfl
      rw [hs] at hinv hmore
      cases hcall : s.call with
      | notify =>
        right
        have e : s.goCaller = { s.wakeTimers with call := .rWait } := by unfold Sl.goCaller; rw [hcall]
        have f1 : s.far = 80 := by unfold Sl.far; rw [hcall]
        rw [hs, e, f1]
        rw [e] at hinv hmore
        refine ⟨⟨hinv, hmore, g.dead, g.ub, g.gone, rfl, fun j hj => g.decided j (htw SlTimer.decided (nomatch ·) (nomatch ·) j hj), fun _ => hnoasleep, fun _ _ => ?_, g.handlers⟩, .inl (by show 70 < 80; omega)⟩
        exact g.writers (by rw [hcall]; exact (nomatch ·)) (by rw [hcall]; exact (nomatch ·))
      | rWait =>
        have f1 : s.far = 70 := by unfold Sl.far; rw [hcall]
        have hw := g.writers (by rw [hcall]; exact (nomatch ·)) (by rw [hcall]; exact (nomatch ·))
        have hnn : s.call ≠ .notify := by rw [hcall]; exact (nomatch ·)
        cases hrd : s.rd with
        | none =>
          right
          have e : s.goCaller = { s with call := .wNotify } := by unfold Sl.goCaller; rw [hcall, hrd]
          rw [hs, e, f1]
          rw [e] at hinv hmore
          exact ⟨mk _ hinv hmore rfl rfl rfl rfl rfl hnn (fun _ _ => hw) rfl, .inl (by show 50 < 70; omega)⟩
        | some j =>
          by_cases hself : s.self = some j
          · right
            have e : s.goCaller = { s with rd := none, left := s.left ++ [.reader j], call := .wNotify } := by unfold Sl.goCaller; rw [hcall, hrd]; exact if_pos hself
            rw [hs, e, f1]
            rw [e] at hinv hmore
            exact ⟨mk _ hinv hmore rfl rfl rfl rfl rfl hnn (fun _ _ => leftR j hw) rfl, .inl (by show 50 < 70; omega)⟩
          · by_cases hex : s.readerExited = true
            · right
              have e : s.goCaller = { s with call := .rJoin } := by unfold Sl.goCaller; rw [hcall, hrd]; dsimp only; rw [if_neg hself, if_pos hex]
              rw [hs, e, f1]
              rw [e] at hinv hmore
              refine ⟨mk _ hinv hmore rfl rfl rfl rfl rfl hnn (fun _ _ => hw) rfl, .inl ?_⟩
              show 60 + _ < 70
              have := optR (s.rd.bind fun j => s.readers[j]?)
              exact Nat.lt_of_le_of_lt (Nat.add_le_add_left this 60) (by omega)
            · refine stay .giveUp ?_ (nomatch ·) ?_
              · unfold Sl.turn
                rw [hcall]
                dsimp only
                rw [if_neg]
                rintro (e | e)
                · rw [hrd] at e; cases e
                · rw [hrd] at e; exact hself e
              · rw [hs]; unfold Sl.goCaller; rw [hcall, hrd]; dsimp only; rw [if_neg hself, if_neg hex]
      | rJoin =>
        have hw := g.writers (by rw [hcall]; exact (nomatch ·)) (by rw [hcall]; exact (nomatch ·))
        have hnn : s.call ≠ .notify := by rw [hcall]; exact (nomatch ·)
        have f1 : 60 ≤ s.far := by unfold Sl.far; rw [hcall]; exact Nat.le_add_right _ _
        cases hrd : s.rd with
        | none =>
          right
          have e : s.goCaller = { s with call := .wNotify } := by unfold Sl.goCaller; rw [hcall, hrd]
          rw [hs, e]
          rw [e] at hinv hmore
          exact ⟨mk _ hinv hmore rfl rfl rfl rfl rfl hnn (fun _ _ => hw) rfl, .inl (Nat.lt_of_lt_of_le (by decide : 50 < 60) f1)⟩
        | some j =>
          by_cases hend : s.readers[j]? = some .ended
          · right
            have e : s.goCaller = { s with rd := none, call := .wNotify } := by unfold Sl.goCaller; rw [hcall, hrd]; exact if_pos hend
            rw [hs, e]
            rw [e] at hinv hmore
            exact ⟨mk _ hinv hmore rfl rfl rfl rfl rfl hnn (fun _ _ => hw) rfl, .inl (Nat.lt_of_lt_of_le (by decide : 50 < 60) f1)⟩
          · have hlast := g.inv.rdLast j hrd
            have hp : s.readers[j]? = some s.readers[j] := List.getElem?_eq_getElem (by omega)
            generalize s.readers[j] = p at hp
            refine stay (p.turn j) ?_ ?_ ?_
            · unfold Sl.turn; rw [hcall]; dsimp only; rw [hrd, Option.bind_some, hp]; rfl
            · cases p <;> first | exact absurd hp hend | exact (nomatch ·) | (rintro ⟨o', e⟩; cases e)
            · rw [hs]; unfold Sl.goCaller; rw [hcall, hrd]; exact if_neg hend
      | wNotify =>
        have hw := g.writers (by rw [hcall]; exact (nomatch ·)) (by rw [hcall]; exact (nomatch ·))
        have hnn : s.call ≠ .notify := by rw [hcall]; exact (nomatch ·)
        have f1 : s.far = 50 := by unfold Sl.far; rw [hcall]
        right
        by_cases hwr : s.wr = none
        · have e : s.goCaller = { s with call := .tJoin } := by unfold Sl.goCaller; rw [hcall]; exact if_pos hwr
          rw [hs, e, f1]
          rw [e] at hinv hmore
          refine ⟨mk _ hinv hmore rfl rfl rfl rfl rfl hnn (fun _ _ => hw) rfl, .inl ?_⟩
          show 10 + _ < 50
          exact Nat.lt_of_le_of_lt (Nat.add_le_add_left (optT _) 10) (by omega)
        · have e : s.goCaller = { s.wakeWriters with call := .wWait } := by unfold Sl.goCaller; rw [hcall]; exact if_neg hwr
          rw [hs, e, f1]
          rw [e] at hinv hmore
          exact ⟨mk _ hinv hmore rfl rfl rfl rfl rfl hnn (fun _ _ => hw) rfl, .inl (by show 40 < 50; omega)⟩
      | wWait =>
        have hw := g.writers (by rw [hcall]; exact (nomatch ·)) (by rw [hcall]; exact (nomatch ·))
        have hnn : s.call ≠ .notify := by rw [hcall]; exact (nomatch ·)
        have f1 : s.far = 40 := by unfold Sl.far; rw [hcall]
        by_cases hex : s.writerExited = true
        · right
          have e : s.goCaller = { s with call := .wJoin } := by unfold Sl.goCaller; rw [hcall]; exact if_pos hex
          rw [hs, e, f1]
          rw [e] at hinv hmore
          refine ⟨mk _ hinv hmore rfl rfl rfl rfl rfl hnn (fun _ _ => hw) rfl, .inl ?_⟩
          show 30 + _ < 40
          exact Nat.lt_of_le_of_lt (Nat.add_le_add_left (optW _) 30) (by omega)
        · refine stay .giveUp ?_ (nomatch ·) ?_
          · unfold Sl.turn; rw [hcall]
          · rw [hs]; unfold Sl.goCaller; rw [hcall]; exact if_neg hex
      | wJoin =>
        have hw := g.writers (by rw [hcall]; exact (nomatch ·)) (by rw [hcall]; exact (nomatch ·))
        have hnn : s.call ≠ .notify := by rw [hcall]; exact (nomatch ·)
        have f1 : 30 ≤ s.far := by unfold Sl.far; rw [hcall]; exact Nat.le_add_right _ _
        have f2 : ∀ x : Option SlTimer, 10 + (x.map SlTimer.far).getD 0 < 30 := fun x => Nat.lt_of_le_of_lt (Nat.add_le_add_left (optT x) 10) (by omega)
        cases hwr : s.wr with
        | none =>
          right
          have e : s.goCaller = { s with call := .tJoin } := by unfold Sl.goCaller; rw [hcall, hwr]
          rw [hs, e]
          rw [e] at hinv hmore
          exact ⟨mk _ hinv hmore rfl rfl rfl rfl rfl hnn (fun _ _ => hw) rfl, .inl (Nat.lt_of_lt_of_le (f2 _) f1)⟩
        | some j =>
          by_cases hend : s.writers[j]? = some .ended
          · right
            have e : s.goCaller = { s with wr := none, call := .tJoin } := by unfold Sl.goCaller; rw [hcall, hwr]; exact if_pos hend
            rw [hs, e]
            rw [e] at hinv hmore
            exact ⟨mk _ hinv hmore rfl rfl rfl rfl rfl hnn (fun _ _ => hw) rfl, .inl (Nat.lt_of_lt_of_le (f2 _) f1)⟩
          · have hlast := g.inv.wrLast j hwr
            have hp : s.writers[j]? = some s.writers[j] := List.getElem?_eq_getElem (by omega)
            generalize s.writers[j] = p at hp
            refine stay (p.turn j) ?_ ?_ ?_
            · unfold Sl.turn; rw [hcall]; dsimp only; rw [hwr, Option.bind_some, hp]; rfl
            · cases p <;> first | exact absurd hp hend | exact (nomatch ·) | (rintro ⟨o', e⟩; cases e)
            · rw [hs]; unfold Sl.goCaller; rw [hcall, hwr]; exact if_neg hend
      | tJoin =>
        have hnn : s.call ≠ .notify := by rw [hcall]; exact (nomatch ·)
        have f1 : 10 ≤ s.far := by unfold Sl.far; rw [hcall]; exact Nat.le_add_right _ _
        cases htm : s.tm with
        | none =>
          right
          have e : s.goCaller = { s with call := .fail } := by unfold Sl.goCaller; rw [hcall, htm]
          rw [hs, e]
          rw [e] at hinv hmore
          exact ⟨mk _ hinv hmore rfl rfl rfl rfl rfl hnn (fun _ e => absurd rfl e) rfl, .inl (Nat.lt_of_lt_of_le (by decide : 5 < 10) f1)⟩
        | some j =>
          by_cases hend : s.timers[j]? = some .ended
          · right
            have e : s.goCaller = { s with tm := none, call := .fail } := by unfold Sl.goCaller; rw [hcall, htm]; exact if_pos hend
            rw [hs, e]
            rw [e] at hinv hmore
            exact ⟨mk _ hinv hmore rfl rfl rfl rfl rfl hnn (fun _ e => absurd rfl e) rfl, .inl (Nat.lt_of_lt_of_le (by decide : 5 < 10) f1)⟩
          · have hlast := g.inv.tmLast j htm
            have hp : s.timers[j]? = some s.timers[j] := List.getElem?_eq_getElem (by omega)
            generalize s.timers[j] = p at hp
            refine stay (p.turn j) ?_ ?_ ?_
            · unfold Sl.turn; rw [hcall]; dsimp only; rw [htm, Option.bind_some, hp]; rfl
            · cases p <;> first | exact absurd hp hend | exact (nomatch ·) | (rintro ⟨o', e⟩; cases e)
            · rw [hs]; unfold Sl.goCaller; rw [hcall, htm]; exact if_neg hend
      | fail =>
        left
        rw [hs]
        unfold Sl.goCaller
        rw [hcall]
      | _ => have := g.closing; rw [hcall] at this; cases this
    | giveUp =>
      have hs : s.step .giveUp = s.giveUp := by unfold Sl.step; rw [if_neg live]
      rw [hs] at hinv hmore
      cases hcall : s.call with
      | rWait =>
        have f1 : s.far = 70 := by unfold Sl.far; rw [hcall]
        have hw := g.writers (by rw [hcall]; exact (nomatch ·)) (by rw [hcall]; exact (nomatch ·))
        have hnn : s.call ≠ .notify := by rw [hcall]; exact (nomatch ·)
        cases hrd : s.rd with
        | none =>
          refine stay .caller ?_ (nomatch ·) ?_
          · unfold Sl.turn; rw [hcall]; exact if_pos (.inl hrd)
          · rw [hs]; unfold Sl.giveUp; rw [hcall, hrd]
        | some j =>
          by_cases hself : s.self = some j
          · refine stay .caller ?_ (nomatch ·) ?_
            · unfold Sl.turn; rw [hcall]; exact if_pos (.inr (hself.trans hrd.symm))
            · rw [hs]; unfold Sl.giveUp; rw [hcall, hrd]; exact if_pos hself
          · right
            by_cases hex : s.readerExited = true
            · have e : s.giveUp = { s with call := .rJoin } := by unfold Sl.giveUp; rw [hcall, hrd]; dsimp only; rw [if_neg hself, if_pos hex]
              rw [hs, e, f1]
              rw [e] at hinv hmore
              refine ⟨mk _ hinv hmore rfl rfl rfl rfl rfl hnn (fun _ _ => hw) rfl, .inl ?_⟩
              show 60 + _ < 70
              exact Nat.lt_of_le_of_lt (Nat.add_le_add_left (optR _) 60) (by omega)
            · have e : s.giveUp = { s with rd := none, left := s.left ++ [.reader j], call := .wNotify } := by unfold Sl.giveUp; rw [hcall, hrd]; dsimp only; rw [if_neg hself, if_neg hex]
              rw [hs, e, f1]
              rw [e] at hinv hmore
              exact ⟨mk _ hinv hmore rfl rfl rfl rfl rfl hnn (fun _ _ => leftR j hw) rfl, .inl (by show 50 < 70; omega)⟩
      | wWait =>
        have hw := g.writers (by rw [hcall]; exact (nomatch ·)) (by rw [hcall]; exact (nomatch ·))
        have hnn : s.call ≠ .notify := by rw [hcall]; exact (nomatch ·)
        have f1 : s.far = 40 := by unfold Sl.far; rw [hcall]
        rw [hcall] at hph
        cases hwr : s.wr with
        | none => rw [hwr] at hph; cases hph.2.1
        | some j =>
          right
          by_cases hex : s.writerExited = true
          · have e : s.giveUp = { s with call := .wJoin } := by unfold Sl.giveUp; rw [hcall, hwr]; exact if_pos hex
            rw [hs, e, f1]
            rw [e] at hinv hmore
            refine ⟨mk _ hinv hmore rfl rfl rfl rfl rfl hnn (fun _ _ => hw) rfl, .inl ?_⟩
            show 30 + _ < 40
            exact Nat.lt_of_le_of_lt (Nat.add_le_add_left (optW _) 30) (by omega)
          · have e : s.giveUp = { s with wr := none, left := s.left ++ [.writer j], call := .tJoin } := by unfold Sl.giveUp; rw [hcall, hwr]; exact if_neg hex
            rw [hs, e, f1]
            rw [e] at hinv hmore
            refine ⟨mk _ hinv hmore rfl rfl rfl rfl rfl hnn (fun e _ => absurd rfl e) rfl, .inl ?_⟩
            show 10 + _ < 40
            exact Nat.lt_of_le_of_lt (Nat.add_le_add_left (optT _) 10) (by omega)
      | notify =>
        refine stay .caller ?_ (nomatch ·) ?_
        · unfold Sl.turn; rw [hcall]
        · rw [hs]; unfold Sl.giveUp; rw [hcall]
      | wNotify =>
        refine stay .caller ?_ (nomatch ·) ?_
        · unfold Sl.turn; rw [hcall]
        · rw [hs]; unfold Sl.giveUp; rw [hcall]
      | fail =>
        refine stay .caller ?_ (nomatch ·) ?_
        · unfold Sl.turn; rw [hcall]
        · rw [hs]; unfold Sl.giveUp; rw [hcall]
      | rJoin =>
        refine stay s.turn rfl ?_ ?_
        · unfold Sl.turn
          rw [hcall]
          dsimp only
          cases s.rd with
          | none => exact (nomatch ·)
          | some j =>
            rw [Option.bind_some]
            cases s.readers[j]? with
            | none => exact (nomatch ·)
            | some p => cases p <;> first | exact (nomatch ·) | (rintro ⟨o', e⟩; cases e)
        · rw [hs]; unfold Sl.giveUp; rw [hcall]
      | wJoin =>
        refine stay s.turn rfl ?_ ?_
        · unfold Sl.turn
          rw [hcall]
          dsimp only
          cases s.wr with
          | none => exact (nomatch ·)
          | some j =>
            rw [Option.bind_some]
            cases s.writers[j]? with
            | none => exact (nomatch ·)
            | some p => cases p <;> first | exact (nomatch ·) | (rintro ⟨o', e⟩; cases e)
        · rw [hs]; unfold Sl.giveUp; rw [hcall]
      | tJoin =>
        refine stay s.turn rfl ?_ ?_
        · unfold Sl.turn
          rw [hcall]
          dsimp only
          cases s.tm with
          | none => exact (nomatch ·)
          | some j =>
            rw [Option.bind_some]
            cases s.timers[j]? with
            | none => exact (nomatch ·)
            | some p => cases p <;> first | exact (nomatch ·) | (rintro ⟨o', e⟩; cases e)
        · rw [hs]; unfold Sl.giveUp; rw [hcall]
      | _ => have := g.closing; rw [hcall] at this; cases this
    | _ => exact absurd rfl ha

/-- Each thread gets a turn again and again, and the 500 ms go by. -/
structure SlFair (f : Nat → SlOp) : Prop where
  caller : ∀ T, ∃ t, T ≤ t ∧ f t = .caller
  giveUp : ∀ T, ∃ t, T ≤ t ∧ f t = .giveUp
  reader : ∀ j T, ∃ t o, T ≤ t ∧ f t = .reader j o
  writer : ∀ j T, ∃ t o, T ≤ t ∧ f t = .writer j o
  timer : ∀ j T, ∃ t k, T ≤ t ∧ f t = .timer j k

/-- C118. `Close` returns when each thread gets a turn again and again, on the first `Start` whatever the handlers do, later when they return; provided that the thread that watches the deadlines is
not about to sleep when `Close` wakes it, and that no thread that writes was let go before. Missing: that thread about to sleep (C58); handlers that do not return, after a second `Start`; threads that write that were let go. -/
theorem C118_close_returns_partial (ops : List SlOp) (hc : (Sl.init.run ops).call = .notify) (hd : ∀ t ∈ (Sl.init.run ops).timers, t ≠ .decided)
    (hw : ∀ j, SlThread.writer j ∉ (Sl.init.run ops).left) (f : Nat → SlOp) (hf : SlFair f)
    (hh : (Sl.init.run ops).readers.length ≤ 1 ∨ ∀ j T, ∃ t, T ≤ t ∧ f t = .handled j) : ∃ t, (statesOf Sl.step (Sl.init.run ops) f t).call = .idle := by
  have hinv := slInv_run ops
  have hmore := slMore_run ops
  have hcalm := slCalm_run ops
  have hdead : (Sl.init.run ops).dead = false := by
    cases e : (Sl.init.run ops).dead with
    | false => rfl
    | true =>
      exfalso
      have key : (Sl.init.run ops).dead = true → (Sl.init.run ops).call = .idle ∨ (Sl.init.run ops).call = .dMembers := by
        refine sl_run_inv (P := fun s => s.dead = true → s.call = .idle ∨ s.call = .dMembers) (nomatch ·) fun s op _ h => ?_
        by_cases hs : s.dead = true
        · have : s.step op = s := by unfold Sl.step; rw [if_pos (by simp [hs])]
          rw [this]; exact h
        · by_cases ha : op.aside = true
          · rw [(aside_step s op ha).dead]; exact fun e => absurd e hs
          · unfold Sl.step
            split
            · exact h
            · cases op with
              | start =>
                dsimp only
                split
                · rename_i hcc
                  unfold Sl.start
                  split
                  · exact fun e => absurd e hs
                  · exact fun _ => .inl hcc
                · exact h
              | destroy => dsimp only; split <;> exact fun e => absurd e hs
              | close self =>
                dsimp only
                split
                · cases self with
                  | none => exact fun e => absurd e hs
                  | some j => dsimp only; split <;> exact fun e => absurd e hs
                · exact h
              | caller =>
                dsimp only
                unfold Sl.goCaller
                cases hcc : s.call with
                | dMembers => dsimp only; split; exact fun e => absurd e hs; exact fun _ => .inr rfl
                | idle => exact fun e => absurd e hs
                | flag => exact fun e => absurd e hs
                | notify => exact fun e => absurd e hs
                | rWait => dsimp only; split <;> (try split) <;> (try split) <;> exact fun e => absurd e hs
                | rJoin => dsimp only; split <;> (try split) <;> exact fun e => absurd e hs
                | wNotify => dsimp only; split <;> exact fun e => absurd e hs
                | wWait => dsimp only; split <;> exact fun e => absurd e hs
                | wJoin => dsimp only; split <;> (try split) <;> exact fun e => absurd e hs
                | tJoin => dsimp only; split <;> (try split) <;> exact fun e => absurd e hs
                | fail => exact fun e => absurd e hs
                | dRead => dsimp only; split <;> (try split) <;> exact fun e => absurd e hs
                | dRJoin => dsimp only; split <;> (try split) <;> exact fun e => absurd e hs
                | dTJoin => dsimp only; split <;> (try split) <;> exact fun e => absurd e hs
                | destroyed => exact fun e => absurd e hs
              | giveUp =>
                dsimp only
                unfold Sl.giveUp
                split
                · split <;> (try split) <;> (try split) <;> exact fun e => absurd e hs
                · split <;> (try split) <;> exact fun e => absurd e hs
                · exact fun e => absurd e hs
              | _ => exact absurd rfl ha
      rcases key e with e' | e' <;> (rw [hc] at e'; cases e')
  have hgone : (Sl.init.run ops).gone = false := by
    cases e : (Sl.init.run ops).gone with
    | false => rfl
    | true => have := hcalm.gone e; rw [hc] at this; cases this
  have hub : (Sl.init.run ops).ub = false := by
    cases e : (Sl.init.run ops).ub with
    | false => rfl
    | true => have := hcalm.ub e; rw [hgone] at this; cases this
  refine leads (κ := SlTurn) Sl.step _ f (SlGoing (∀ j T, ∃ t, T ≤ t ∧ f t = .handled j)) (fun s => s.call = .idle) Sl.far Sl.turn SlTurn.by (fun s op g => slGoing_step op g) ?_
    ⟨hinv, hmore, hdead, hub, hgone, by rw [hc]; rfl, fun j hj => hd _ (List.mem_of_getElem? hj) rfl, fun e => absurd hc e, fun _ _ => hw, hh⟩
  intro s g T
  cases hk : s.turn with
  | caller => exact hf.caller T
  | giveUp => exact hf.giveUp T
  | reader j => obtain ⟨t, o, h1, h2⟩ := hf.reader j T; exact ⟨t, h1, o, h2⟩
  | writer j => obtain ⟨t, o, h1, h2⟩ := hf.writer j T; exact ⟨t, h1, o, h2⟩
  | timer j => obtain ⟨t, o, h1, h2⟩ := hf.timer j T; exact ⟨t, h1, o, h2⟩
  | handled j =>
    rcases g.handlers with hlen | hr
    · exfalso
      have hcj : s.call = .rJoin ∧ s.rd = some j ∧ s.readers[j]? = some .handle := by
        unfold Sl.turn at hk
        split at hk
        · split at hk <;> cases hk
        · rename_i hcall
          cases hrd : s.rd with
          | none => rw [hrd] at hk; cases hk
          | some i =>
            rw [hrd, Option.bind_some] at hk
            cases hp : s.readers[i]? with
            | none => rw [hp] at hk; cases hk
            | some p =>
              rw [hp] at hk
              have hk' : p.turn i = .handled j := hk
              cases p <;> cases hk'
              exact ⟨hcall, rfl, hp⟩
        · cases hk
        · cases hwr : s.wr with
          | none => rw [hwr] at hk; cases hk
          | some i =>
            rw [hwr, Option.bind_some] at hk
            cases hp : s.writers[i]? with
            | none => rw [hp] at hk; cases hk
            | some p =>
              rw [hp] at hk
              have hk' : p.turn i = .handled j := hk
              cases p <;> cases hk'
        · cases htm : s.tm with
          | none => rw [htm] at hk; cases hk
          | some i =>
            rw [htm, Option.bind_some] at hk
            cases hp : s.timers[i]? with
            | none => rw [hp] at hk; cases hk
            | some p =>
              rw [hp] at hk
              have hk' : p.turn i = .handled j := hk
              cases p <;> cases hk'
        · cases hk
      obtain ⟨i, hi⟩ := g.more.exited (g.more.rJoin hcj.1).1
      have h1 : i < s.readers.length := (List.getElem?_eq_some_iff.mp hi).1
      have h2 : j < s.readers.length := (List.getElem?_eq_some_iff.mp hcj.2.2).1
      have : i = j := by omega
      subst this
      rw [hi] at hcj
      cases hcj.2.2
    · exact hr j T

def slTurn (n : Nat) : SlOp :=
  if n = 0 then .caller
  else if n = 1 then .giveUp
  else match (n - 2) % 4 with
    | 0 => .reader ((n - 2) / 4) .nothing
    | 1 => .handled ((n - 2) / 4)
    | 2 => .writer ((n - 2) / 4) (some 1)
    | _ => .timer ((n - 2) / 4) 0

/-- There are such executions, and a `Close` with all threads at work. -/
example : SlFair (fun t => slTurn (spiralAt t).1) ∧ (∀ j T, ∃ t, T ≤ t ∧ slTurn (spiralAt t).1 = .handled j) ∧
    (Sl.init.run [.start, .writer 0 none, .writer 0 none, .writer 0 none, .writer 0 none, .timer 0 0, .timer 0 0, .reader 0 .nothing, .reader 0 (.bytes [1, 2] true), .close none, .caller]).call = .notify ∧
    (Sl.init.run [.start, .writer 0 none, .writer 0 none, .writer 0 none, .writer 0 none, .timer 0 0, .timer 0 0, .reader 0 .nothing, .reader 0 (.bytes [1, 2] true), .close none, .caller]).timers =
      [.asleep] := by
  have e : ∀ j r, 4 * j + r + 2 - 2 = 4 * j + r := fun j r => by omega
  have e0 : ∀ j, 4 * j + 2 - 2 = 4 * j := fun j => by omega
  refine ⟨⟨fun T => ?_, fun T => ?_, fun j T => ?_, fun j T => ?_, fun j T => ?_⟩, fun j T => ?_, by decide +kernel, by decide +kernel⟩
  · obtain ⟨u, h1, h2⟩ := spiral_again T 0; exact ⟨u, h1, by simp only [h2]; rfl⟩
  · obtain ⟨u, h1, h2⟩ := spiral_again T 1; exact ⟨u, h1, by simp only [h2]; rfl⟩
  · obtain ⟨u, h1, h2⟩ := spiral_again T (4 * j + 2)
    have m : (4 * j) % 4 = 0 := by omega
    have d : (4 * j) / 4 = j := by omega
    exact ⟨u, .nothing, h1, by simp only [h2, slTurn]; rw [if_neg (by omega), if_neg (by omega), e0, m, d]; rfl⟩
  · obtain ⟨u, h1, h2⟩ := spiral_again T (4 * j + 2 + 2)
    have m : (4 * j + 2) % 4 = 2 := by omega
    have d : (4 * j + 2) / 4 = j := by omega
    exact ⟨u, some 1, h1, (by simp only [h2, slTurn]; rw [if_neg (by omega), if_neg (by omega), e, m, d]; rfl)⟩
  · obtain ⟨u, h1, h2⟩ := spiral_again T (4 * j + 3 + 2)
    have m : (4 * j + 3) % 4 = 3 := by omega
    have d : (4 * j + 3) / 4 = j := by omega
    exact ⟨u, 0, h1, (by simp only [h2, slTurn]; rw [if_neg (by omega), if_neg (by omega), e, m, d]; rfl)⟩
  · obtain ⟨u, h1, h2⟩ := spiral_again T (4 * j + 1 + 2)
    have m : (4 * j + 1) % 4 = 1 := by omega
    have d : (4 * j + 1) / 4 = j := by omega
    exact ⟨u, h1, (by simp only [h2, slTurn]; rw [if_neg (by omega), if_neg (by omega), e, m, d]; rfl)⟩

/-- C118 fails: in a second life `Close` waits for a handler without a time limit, since `readerExited` is still true from the first. -/
theorem C118_second_close_counterexample :
    ∃ ops : List SlOp, (Sl.init.run ops).log = [.started, .closed, .started] ∧ (Sl.init.run ops).left = [] ∧ (Sl.init.run ops).call = .rJoin ∧
      ∀ more : List SlOp, .handled 1 ∉ more → ((Sl.init.run ops).run more).call = .rJoin := by
  refine ⟨[.start, .close none, .caller, .caller, .reader 0 .nothing, .reader 0 .nothing, .caller, .caller, .caller, .writer 0 none, .writer 0 none, .caller, .caller, .timer 0 0, .caller, .caller,
    .start, .reader 1 .nothing, .reader 1 (.bytes [1] true), .close none, .caller, .caller, .giveUp], by decide +kernel, by decide +kernel, by decide +kernel, fun more hm => ?_⟩
  let s := Sl.init.run [.start, .close none, .caller, .caller, .reader 0 .nothing, .reader 0 .nothing, .caller, .caller, .caller, .writer 0 none, .writer 0 none, .caller, .caller, .timer 0 0, .caller,
    .caller, .start, .reader 1 .nothing, .reader 1 (.bytes [1] true), .close none, .caller, .caller, .giveUp]
  have k0 : s.call = .rJoin ∧ s.rd = some 1 ∧ s.readers[1]? = some .handle := by decide +kernel
  have : (s.run more).call = .rJoin ∧ (s.run more).rd = some 1 ∧ (s.run more).readers[1]? = some .handle := by
    refine sl_run_inv (P := fun s => s.call = .rJoin ∧ s.rd = some 1 ∧ s.readers[1]? = some .handle) k0 fun t op hop ⟨k1, k2, k3⟩ => ?_
    by_cases ha : op.aside = true
    · have a := aside_step t op ha
      refine ⟨a.call.trans k1, a.rd.trans k2, ?_⟩
      unfold Sl.step
      split
      · exact k3
      · cases op with
        | reader i o =>
          dsimp only
          split
          · exact k3
          · unfold Sl.goReader
            by_cases hij : i = 1
            · subst hij; rw [k3]; exact k3
            · cases hq : t.readers[i]? with
              | none => exact k3
              | some q =>
                cases q with
                | wait => cases o <;> exact (set_other hij).trans k3
                | handle => exact k3
                | ended => exact k3
                | _ => exact (set_other hij).trans k3
        | handled i =>
          have hij : i ≠ 1 := by rintro rfl; exact hm hop
          dsimp only
          split
          · exact (set_other hij).trans k3
          · exact k3
        | writer i o =>
          dsimp only
          split
          · exact k3
          · unfold Sl.goWriter
            split
            · exact k3
            · split <;> exact k3
            · split
              · exact k3
              · split <;> exact k3
            · exact k3
            · split
              · exact k3
              · split <;> exact k3
            · exact k3
        | timer i k =>
          dsimp only
          split
          · exact k3
          · unfold Sl.goTimer
            split <;> first | exact k3 | (split <;> exact k3)
        | send f => dsimp only; split <;> exact k3
        | answer i => dsimp only; split <;> exact k3
        | _ => cases ha
    · have hst : t.step op = t := by
        unfold Sl.step
        split
        · rfl
        · cases op with
          | start => dsimp only; rw [if_neg (by rw [k1]; exact (nomatch ·))]
          | destroy => dsimp only; rw [if_neg (by rw [k1]; exact (nomatch ·))]
          | close self => dsimp only; rw [if_neg (by rw [k1]; exact (nomatch ·))]
          | caller => dsimp only; unfold Sl.goCaller; rw [k1, k2]; dsimp only; rw [if_neg (by rw [k3]; exact (nomatch ·))]
          | giveUp => dsimp only; unfold Sl.giveUp; rw [k1]
          | _ => exact absurd rfl ha
      rw [hst]; exact ⟨k1, k2, k3⟩
  exact this.1

end Verif.Stdio
