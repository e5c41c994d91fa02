import Verif.Http.Sessions
import Verif.Json.Props

/-!
C44: sessions are isolated; C81: which session the server's own messages go to.
-/

namespace Verif
open Http

variable {D : Type} [DblFmt D]

/-! ### What a step does to one object -/

/-- The objEffect of a step on the object `o`. -/
def objEffect (s : Hs D) (op : HsOp D) (o : Nat) (x : Sess D) : Sess D :=
  match op with
  | .remove sid => if AMap.get s.table sid = some o then x.close (lit "HTTP session closed") else x
  | .stop => if ∃ sid ∈ AMap.keys s.table, AMap.get s.table sid = some o then x.close (lit "Transport closed") else x
  | .answer f r => if s.finds[f]? = some (some o) then x.resolve r else x
  | .pump k _ => if s.streams[k]? = some o ∧ x.closed = false ∧ s.running = true then { x with queue := x.queue.tail } else x
  | .advance c =>
    match s.sends[c]? with
    | some (.found o' (.request r)) => if o' = o then { x with pend := x.pend.insert (keyText (s.withId r).1.id) .broken } else x
    | some (.found o' (.note n)) => if o' = o then x.push (serNotification n) else x
    | some (.filed o' p) => if o' = o then x.push p else x
    | _ => x
  | _ => x

theorem modify_get {α : Type} (l : List α) (i o : Nat) (f : α → α) : (l.modify i f)[o]? = (l[o]?).map (fun a => if i = o then f a else a) := by
  rw [List.getElem?_modify]
  rfl

theorem close_close (x : Sess D) (t : Bytes) : (x.close t).close t = x.close t := by
  simp [Sess.close, PTab.closeAll]

theorem stop_objs (table : List (Bytes × Nat)) (t : Bytes) (L : List Bytes) (l : List (Sess D)) (o : Nat) :
    (L.foldl (closeEntry table t) l)[o]? = (l[o]?).map (fun x => if ∃ sid ∈ L, AMap.get table sid = some o then x.close t else x) := by
  induction L generalizing l with
  | nil => simp
  | cons a L ih =>
    rw [List.foldl_cons, ih]
    unfold closeEntry
    cases hg : AMap.get table a with
    | none =>
      congr 1
      funext x
      simp [hg]
    | some o' =>
      simp only
      rw [modify_get]
      cases l[o]? with
      | none => rfl
      | some x =>
        simp only [Option.map_some]
        congr 1
        by_cases he : o' = o
        · subst he
          simp only [if_true]
          have hp : ∃ sid ∈ a :: L, AMap.get table sid = some o' := ⟨a, by simp, hg⟩
          rw [if_pos hp]
          split
          · exact close_close x t
          · rfl
        · rw [if_neg he]
          have : (∃ sid ∈ a :: L, AMap.get table sid = some o) ↔ ∃ sid ∈ L, AMap.get table sid = some o := by
            constructor
            · rintro ⟨sid, hs, h⟩
              rcases List.mem_cons.1 hs with rfl | hs
              · rw [hg] at h; exact absurd (Option.some.inj h) he
              · exact ⟨sid, hs, h⟩
            · rintro ⟨sid, hs, h⟩; exact ⟨sid, by simp [hs], h⟩
          simp only [this]

theorem stop_length (table : List (Bytes × Nat)) (t : Bytes) (L : List Bytes) (l : List (Sess D)) :
    (L.foldl (closeEntry table t) l).length = l.length := by
  induction L generalizing l with
  | nil => rfl
  | cons a L ih =>
    rw [List.foldl_cons, ih]
    unfold closeEntry
    cases AMap.get table a with
    | none => rfl
    | some o => exact List.length_modify _ _ _

/-- The object `o` after a step, if it existed before. -/
theorem step_obj (s : Hs D) (op : HsOp D) (o : Nat) (x : Sess D) (h : s.objs[o]? = some x) :
    (s.step op).objs[o]? = some (objEffect s op o x) := by
  have hlt : o < s.objs.length := (List.getElem?_eq_some_iff.1 h).1
  cases op with
  | create sid v =>
    show (s.objs ++ [_])[o]? = _
    rw [List.getElem?_append_left hlt, h]
    rfl
  | remove sid =>
    show (s.remove sid).objs[o]? = _
    unfold Hs.remove objEffect
    cases hg : AMap.get s.table sid with
    | none => simp [h, hg]
    | some o' =>
      simp only [modify_get, h, hg, Option.map_some, Option.some.injEq]
  | take m => exact h
  | advance c =>
    show (s.advance c).objs[o]? = _
    unfold Hs.advance objEffect
    cases hg : s.sends[c]? with
    | none => simp only [hg, h]
    | some st =>
      cases st with
      | found o' m =>
        cases m with
        | request r => simp only [modify_get, h, hg, Option.map_some]
        | note n => simp only [modify_get, h, hg, Option.map_some]
      | filed o' p => simp only [modify_get, h, hg, Option.map_some]
      | finished => simp only [hg, h]
      | refused => simp only [hg, h]
  | find sid => exact h
  | answer f r =>
    show (s.answer f r).objs[o]? = _
    unfold Hs.answer objEffect
    cases hg : s.finds[f]? with
    | none => simp [h, hg]
    | some q =>
      cases q with
      | none => simp [h, hg]
      | some o' => simp only [modify_get, h, hg, Option.map_some, Option.some.injEq]
  | openStream f =>
    show (s.openStream f).objs[o]? = _
    unfold Hs.openStream
    split <;> exact h
  | pump k ok =>
    show (s.pump k ok).objs[o]? = _
    unfold Hs.pump objEffect
    cases hk : s.streams[k]? with
    | none => simp [h, hk]
    | some o' =>
      simp only [hk]
      cases ho : s.objs[o']? with
      | none =>
        have hne : o' ≠ o := by intro e; rw [e, h] at ho; cases ho
        simp [hne, h]
      | some y =>
        simp only
        by_cases hne : o' = o
        · subst hne
          rw [h] at ho
          cases ho
          by_cases hc : x.closed || !s.running
          · rw [if_pos hc, if_neg, h]
            rintro ⟨_, h1, h2⟩
            rw [h1, h2] at hc
            cases hc
          · rw [if_neg hc]
            have hc' : x.closed = false ∧ s.running = true := by
              cases h1 : x.closed <;> cases h2 : s.running <;> simp [h1, h2] at hc ⊢
            rw [if_pos ⟨rfl, hc'⟩]
            cases hq : x.queue with
            | nil =>
              simp only [h, Option.some.injEq]
              cases x
              simp_all
            | cons e r => simp only [modify_get, h, Option.map_some, if_true, List.tail_cons]
        · have hn : ¬ (some o' = some o ∧ x.closed = false ∧ s.running = true) := fun hx => hne (Option.some.inj hx.1)
          rw [if_neg hn]
          split
          · exact h
          · split
            · exact h
            · simp only [modify_get, h, Option.map_some, if_neg hne]
  | stop =>
    show (Hs.stop s).objs[o]? = _
    unfold Hs.stop objEffect
    simp only [stop_objs, h, Option.map_some]

theorem step_objs_length (s : Hs D) (op : HsOp D) : s.objs.length ≤ (s.step op).objs.length := by
  cases op with
  | create sid v => show _ ≤ (s.objs ++ [_]).length; simp
  | remove sid => show _ ≤ (s.remove sid).objs.length; unfold Hs.remove; split <;> simp [List.length_modify]
  | take m => exact Nat.le_refl _
  | advance c => show _ ≤ (s.advance c).objs.length; unfold Hs.advance; split <;> simp [List.length_modify]
  | find sid => exact Nat.le_refl _
  | answer f r => show _ ≤ (s.answer f r).objs.length; unfold Hs.answer; split <;> simp [List.length_modify]
  | openStream f => show _ ≤ (s.openStream f).objs.length; unfold Hs.openStream; split <;> exact Nat.le_refl _
  | pump k ok =>
    show _ ≤ (s.pump k ok).objs.length
    unfold Hs.pump
    split
    · exact Nat.le_refl _
    · split
      · exact Nat.le_refl _
      · split
        · exact Nat.le_refl _
        · split <;> simp [List.length_modify]
  | stop => show _ ≤ (Hs.stop s).objs.length; unfold Hs.stop; simp [stop_length]

/-- The number of objects grows by creations only. -/
theorem step_objs_grow (s : Hs D) (op : HsOp D) : (s.step op).objs.length = s.objs.length + (match op with | .create _ _ => 1 | _ => 0) := by
  cases op with
  | create sid v => show (s.objs ++ [_]).length = _; simp
  | remove sid => show (s.remove sid).objs.length = _; unfold Hs.remove; split <;> simp [List.length_modify]
  | take m => rfl
  | advance c => show (s.advance c).objs.length = _; unfold Hs.advance; split <;> simp [List.length_modify]
  | find sid => rfl
  | answer f r => show (s.answer f r).objs.length = _; unfold Hs.answer; split <;> simp [List.length_modify]
  | openStream f => show (s.openStream f).objs.length = _; unfold Hs.openStream; split <;> rfl
  | pump k ok =>
    show (s.pump k ok).objs.length = _
    unfold Hs.pump
    split
    · rfl
    · split
      · rfl
      · split
        · rfl
        · split <;> simp [List.length_modify]
  | stop => show (Hs.stop s).objs.length = _; unfold Hs.stop; simp [stop_length]

/-! ### References are to existing objects -/

def stageObj : SendStage D → Option Nat
  | .found o _ => some o
  | .filed o _ => some o
  | _ => none

structure SessRefs (s : Hs D) : Prop where
  table : ∀ sid o, AMap.get s.table sid = some o → o < s.objs.length
  sends : ∀ (c : Nat) (st : SendStage D) (o : Nat), s.sends[c]? = some st → stageObj st = some o → o < s.objs.length
  finds : ∀ (f o : Nat), s.finds[f]? = some (some o) → o < s.objs.length
  streams : ∀ (k o : Nat), s.streams[k]? = some o → o < s.objs.length
  events : ∀ e ∈ s.events, e.1 < s.streams.length

theorem refs_init : SessRefs (Hs.init : Hs D) :=
  ⟨fun _ _ h => by simp [Hs.init, AMap.get] at h, fun _ _ _ h => by simp [Hs.init] at h, fun _ _ h => by simp [Hs.init] at h,
    fun _ _ h => by simp [Hs.init] at h, fun _ h => by simp [Hs.init] at h⟩

theorem getElem?_concat_cases {α : Type} {l : List α} {a b : α} {i : Nat} (h : (l ++ [a])[i]? = some b) : l[i]? = some b ∨ b = a := by
  by_cases hi : i < l.length
  · rw [List.getElem?_append_left hi] at h; exact .inl h
  · rw [List.getElem?_append_right (by omega)] at h
    cases hk : i - l.length with
    | zero => rw [hk] at h; simp at h; exact .inr h.symm
    | succ n => rw [hk] at h; simp at h

theorem getElem?_set_cases {α : Type} {l : List α} {a b : α} {i j : Nat} (h : (l.set j a)[i]? = some b) : l[i]? = some b ∨ b = a := by
  rw [List.getElem?_set] at h
  split at h
  · split at h
    · exact .inr (Option.some.inj h).symm
    · cases h
  · exact .inl h

theorem refs_step (s : Hs D) (op : HsOp D) (h : SessRefs s) : SessRefs (s.step op) := by
  have hl := step_objs_length s op
  cases op with
  | create sid v =>
    refine ⟨fun sid' o hg => ?_, fun c st o h1 h2 => Nat.lt_of_lt_of_le (h.sends c st o h1 h2) hl,
      fun f o h1 => Nat.lt_of_lt_of_le (h.finds f o h1) hl, fun k o h1 => Nat.lt_of_lt_of_le (h.streams k o h1) hl, h.events⟩
    show o < (s.objs ++ [_]).length
    have hg' : AMap.get (AMap.put s.table sid s.objs.length) sid' = some o := hg
    rw [AMap.get_put] at hg'
    split at hg'
    · cases hg'; simp
    · have := h.table sid' o hg'
      simp; omega
  | remove sid =>
    have e : (s.step (.remove sid)) = s.remove sid := rfl
    rw [e] at hl ⊢
    unfold Hs.remove at hl ⊢
    cases hg : AMap.get s.table sid with
    | none => exact h
    | some o' =>
      rw [hg] at hl
      refine ⟨fun sid' o h1 => Nat.lt_of_lt_of_le ?_ hl, fun c st o h1 h2 => Nat.lt_of_lt_of_le (h.sends c st o h1 h2) hl,
        fun f o h1 => Nat.lt_of_lt_of_le (h.finds f o h1) hl, fun k o h1 => Nat.lt_of_lt_of_le (h.streams k o h1) hl, h.events⟩
      have h1' : AMap.get (AMap.del s.table sid) sid' = some o := h1
      rw [AMap.get_del] at h1'
      split at h1'
      · cases h1'
      · exact h.table sid' o h1'
  | take m =>
    refine ⟨h.table, fun c st o h1 h2 => ?_, h.finds, h.streams, h.events⟩
    have h1' : (s.sends ++ [match s.activeObj with | some o => SendStage.found o m | none => .refused])[c]? = some st := h1
    rcases getElem?_concat_cases h1' with h3 | h3
    · exact h.sends c st o h3 h2
    · subst h3
      cases ha : s.activeObj with
      | none => rw [ha] at h2; cases h2
      | some o' => rw [ha] at h2; cases h2; exact h.table _ _ ha
  | advance c =>
    have e : (s.step (.advance c)) = s.advance c := rfl
    rw [e] at hl ⊢
    unfold Hs.advance at hl ⊢
    cases hg : s.sends[c]? with
    | none => exact h
    | some st =>
      rw [hg] at hl
      cases st with
      | found o' m =>
        cases m with
        | request r =>
          refine ⟨fun sid' o h1 => Nat.lt_of_lt_of_le (h.table sid' o h1) hl, fun c' st o h1 h2 => Nat.lt_of_lt_of_le ?_ hl,
            fun f o h1 => Nat.lt_of_lt_of_le (h.finds f o h1) hl, fun k o h1 => Nat.lt_of_lt_of_le (h.streams k o h1) hl, h.events⟩
          rcases getElem?_set_cases h1 with h3 | h3
          · exact h.sends c' st o h3 h2
          · subst h3; exact h.sends c _ o hg h2
        | note n =>
          refine ⟨fun sid' o h1 => Nat.lt_of_lt_of_le (h.table sid' o h1) hl, fun c' st o h1 h2 => Nat.lt_of_lt_of_le ?_ hl,
            fun f o h1 => Nat.lt_of_lt_of_le (h.finds f o h1) hl, fun k o h1 => Nat.lt_of_lt_of_le (h.streams k o h1) hl, h.events⟩
          rcases getElem?_set_cases h1 with h3 | h3
          · exact h.sends c' st o h3 h2
          · subst h3; cases h2
      | filed o' p =>
        refine ⟨fun sid' o h1 => Nat.lt_of_lt_of_le (h.table sid' o h1) hl, fun c' st o h1 h2 => Nat.lt_of_lt_of_le ?_ hl,
          fun f o h1 => Nat.lt_of_lt_of_le (h.finds f o h1) hl, fun k o h1 => Nat.lt_of_lt_of_le (h.streams k o h1) hl, h.events⟩
        rcases getElem?_set_cases h1 with h3 | h3
        · exact h.sends c' st o h3 h2
        · subst h3; cases h2
      | finished => exact h
      | refused => exact h
  | find sid =>
    refine ⟨h.table, h.sends, fun f o h1 => ?_, h.streams, h.events⟩
    have h1' : (s.finds ++ [s.lookup sid])[f]? = some (some o) := h1
    rcases getElem?_concat_cases h1' with h3 | h3
    · exact h.finds f o h3
    · exact h.table sid o h3.symm
  | answer f r =>
    have e : (s.step (.answer f r)) = s.answer f r := rfl
    rw [e] at hl ⊢
    unfold Hs.answer at hl ⊢
    cases hg : s.finds[f]? with
    | none => exact h
    | some q =>
      cases q with
      | none => exact h
      | some o' =>
        rw [hg] at hl
        exact ⟨fun sid' o h1 => Nat.lt_of_lt_of_le (h.table sid' o h1) hl, fun c' st o h1 h2 => Nat.lt_of_lt_of_le (h.sends c' st o h1 h2) hl,
          fun f o h1 => Nat.lt_of_lt_of_le (h.finds f o h1) hl, fun k o h1 => Nat.lt_of_lt_of_le (h.streams k o h1) hl, h.events⟩
  | openStream f =>
    have e : (s.step (.openStream f)) = s.openStream f := rfl
    rw [e]
    unfold Hs.openStream
    cases hg : s.finds[f]? with
    | none => exact h
    | some q =>
      cases q with
      | none => exact h
      | some o' =>
        refine ⟨h.table, h.sends, h.finds, fun k o h1 => ?_, fun e he => ?_⟩
        · rcases getElem?_concat_cases h1 with h3 | h3
          · exact h.streams k o h3
          · subst h3; exact h.finds f _ hg
        · have := h.events e he
          show _ < (s.streams ++ [o']).length
          simp; omega
  | pump k ok =>
    have e : (s.step (.pump k ok)) = s.pump k ok := rfl
    rw [e] at hl ⊢
    unfold Hs.pump at hl ⊢
    cases hk : s.streams[k]? with
    | none => exact h
    | some o' =>
      rw [hk] at hl
      simp only at hl ⊢
      cases ho : s.objs[o']? with
      | none => exact h
      | some x =>
        rw [ho] at hl
        simp only at hl ⊢
        split
        · exact h
        · next hc =>
          rw [if_neg hc] at hl
          cases hq : x.queue with
          | nil => exact h
          | cons e r =>
            rw [hq] at hl
            refine ⟨fun sid' o h1 => Nat.lt_of_lt_of_le (h.table sid' o h1) hl, fun c' st o h1 h2 => Nat.lt_of_lt_of_le (h.sends c' st o h1 h2) hl,
              fun f o h1 => Nat.lt_of_lt_of_le (h.finds f o h1) hl, fun k o h1 => Nat.lt_of_lt_of_le (h.streams k o h1) hl, fun y hy => ?_⟩
            rcases List.mem_append.1 hy with h1 | h1
            · exact h.events y h1
            · simp only [List.mem_singleton] at h1
              subst h1
              exact (List.getElem?_eq_some_iff.1 hk).1
  | stop =>
    exact ⟨fun _ _ h1 => (by cases h1), fun c' st o h1 h2 => Nat.lt_of_lt_of_le (h.sends c' st o h1 h2) hl,
      fun f o h1 => Nat.lt_of_lt_of_le (h.finds f o h1) hl, fun k o h1 => Nat.lt_of_lt_of_le (h.streams k o h1) hl, h.events⟩

theorem refs_run (s : Hs D) (ops : List (HsOp D)) (h : SessRefs s) : SessRefs (s.run ops) := by
  induction ops generalizing s with
  | nil => exact h
  | cons op ops ih => exact ih (s.step op) (refs_step s op h)

theorem hs_run_append (s : Hs D) (a b : List (HsOp D)) : s.run (a ++ b) = (s.run a).run b := List.foldl_append

/-! ### Delivery -/

/-- What the streams of the object `o` took from its queue, in order: event numbers and payloads. -/
def eventsOf (s : Hs D) (o : Nat) : List (Nat × Bytes) := (s.events.filter (fun e => decide (s.streams[e.1]? = some o))).map (·.2.1)

/-- What waits in the queue of the object `o`. -/
def waitingFor (s : Hs D) (o : Nat) : List (Nat × Bytes) := ((s.objs[o]?).map (·.queue)).getD []

/-- The call, the object and the payload a step queues. -/
def queuedBy (s : Hs D) : HsOp D → Option (Nat × Nat × Bytes)
  | .advance c =>
    match s.sends[c]? with
    | some (.found o (.note n)) => some (c, o, serNotification n)
    | some (.filed o p) => some (c, o, p)
    | _ => none
  | _ => none

/-- All that a history queues, in order. -/
def queuedAll (s : Hs D) : List (HsOp D) → List (Nat × Nat × Bytes)
  | [] => []
  | op :: ops => (queuedBy s op).toList ++ queuedAll (s.step op) ops

/-- The messages the server was given to send, in order. -/
def takes (ops : List (HsOp D)) : List (Outgoing D) := ops.filterMap (fun op => match op with | .take m => some m | _ => none)

/-- The payload carries the message: a notification as it is, a request with its own id if it has one. -/
inductive Carries : Outgoing D → Bytes → Prop where
  | note (n : Notification D) : Carries (.note n) (serNotification n)
  | request (r : Request D) : keyText r.id ≠ [] → Carries (.request r) (serRequest r)
  | assigned (r : Request D) (n : Nat) : keyText r.id = [] →
      Carries (.request r) (serRequest { r with id := .str (lit "http-server-req-" ++ natDec n) })

def allOf (s : Hs D) (o : Nat) : List (Nat × Bytes) := eventsOf s o ++ waitingFor s o

def nextOf (s : Hs D) (o : Nat) : Nat := ((s.objs[o]?).map (·.nextEvent)).getD 1

theorem waiting_of (s : Hs D) {o : Nat} {x : Sess D} (h : s.objs[o]? = some x) : waitingFor s o = x.queue := by
  simp [waitingFor, h]

theorem nextOf_of (s : Hs D) {o : Nat} {x : Sess D} (h : s.objs[o]? = some x) : nextOf s o = x.nextEvent := by
  simp [nextOf, h]

/-- The streams and events change by `openStream` and `pump` only. -/
theorem step_events (s : Hs D) (op : HsOp D) (hr : SessRefs s) (o : Nat) :
    eventsOf (s.step op) o = eventsOf s o ++ (match op with
      | .pump k _ => if s.streams[k]? = some o then (match s.objs[o]? with
          | some x => if x.closed = false ∧ s.running = true then x.queue.head?.toList else []
          | none => []) else []
      | _ => []) := by
  cases op with
  | create sid v => exact (List.append_nil _).symm
  | remove sid => simp only [Hs.step, Hs.remove, List.append_nil]; split <;> rfl
  | take m => exact (List.append_nil _).symm
  | advance c => simp only [Hs.step, Hs.advance, List.append_nil]; split <;> rfl
  | find sid => exact (List.append_nil _).symm
  | answer f r => simp only [Hs.step, Hs.answer, List.append_nil]; split <;> rfl
  | openStream f =>
    simp only [Hs.step, Hs.openStream, List.append_nil]
    split
    · next o' _ =>
      unfold eventsOf
      simp only
      congr 1
      apply List.filter_congr
      intro e he
      rw [List.getElem?_append_left (hr.events e he)]
    · rfl
  | stop => exact (List.append_nil _).symm
  | pump k ok =>
    simp only [Hs.step, Hs.pump]
    cases hk : s.streams[k]? with
    | none => simp
    | some o' =>
      simp only
      cases ho : s.objs[o']? with
      | none =>
        simp only
        split
        · next e => cases e; rw [ho]; simp
        · simp
      | some x =>
        simp only
        by_cases hc : x.closed || !s.running
        · rw [if_pos hc]
          split
          · next e =>
            cases e
            rw [ho]
            simp only
            rw [if_neg]
            · simp
            · rintro ⟨h1, h2⟩; rw [h1, h2] at hc; cases hc
          · simp
        · rw [if_neg hc]
          have hc' : x.closed = false ∧ s.running = true := by
            cases h1 : x.closed <;> cases h2 : s.running <;> simp [h1, h2] at hc ⊢
          cases hq : x.queue with
          | nil =>
            simp only
            split
            · next e => cases e; rw [ho]; simp [hq]
            · simp
          | cons e r =>
            simp only
            unfold eventsOf
            simp only
            rw [List.filter_append, List.map_append]
            congr 1
            by_cases he : o' = o
            · subst he
              rw [if_pos rfl, ho]
              simp only
              rw [if_pos hc', hq]
              simp [hk]
            · have hn : ¬ some o' = some o := fun h => he (Option.some.inj h)
              rw [if_neg hn]
              simp [hk, he]

theorem step_new_waiting (s : Hs D) (op : HsOp D) {o : Nat} (h : s.objs[o]? = none) : waitingFor (s.step op) o = [] ∧ nextOf (s.step op) o = 1 := by
  have hge : s.objs.length ≤ o := List.getElem?_eq_none_iff.1 h
  have hg := step_objs_grow s op
  cases op with
  | create sid v =>
    unfold waitingFor nextOf
    show (((s.objs ++ [_])[o]?).map _).getD [] = _ ∧ (((s.objs ++ [_])[o]?).map _).getD 1 = _
    rw [List.getElem?_append_right hge]
    cases hk : o - s.objs.length with
    | zero => simp [Sess.fresh]
    | succ n => simp
  | _ =>
    have : (s.step _).objs[o]? = none := List.getElem?_eq_none_iff.2 (by rw [hg]; exact hge)
    simp [waitingFor, nextOf, this]

/-- One step: what is queued is appended, under the next event number. -/
theorem step_all (s : Hs D) (op : HsOp D) (hr : SessRefs s) (o : Nat) :
    allOf (s.step op) o = allOf s o ++ (((queuedBy s op).toList.filter (fun q => decide (q.2.1 = o))).map (fun q => (nextOf s o, q.2.2))) ∧
    nextOf (s.step op) o = nextOf s o + ((queuedBy s op).toList.filter (fun q => decide (q.2.1 = o))).length := by
  unfold allOf
  rw [step_events s op hr o]
  cases ho : s.objs[o]? with
  | none =>
    have hge : s.objs.length ≤ o := List.getElem?_eq_none_iff.1 ho
    obtain ⟨h1, h2⟩ := step_new_waiting s op ho
    have h3 : waitingFor s o = [] := by simp [waitingFor, ho]
    have h4 : nextOf s o = 1 := by simp [nextOf, ho]
    have h5 : (queuedBy s op).toList.filter (fun q => decide (q.2.1 = o)) = [] := by
      cases op with
      | advance c =>
        simp only [queuedBy]
        cases hg : s.sends[c]? with
        | none => simp
        | some st =>
          cases st with
          | found o' m =>
            have := hr.sends c _ o' hg rfl
            have hne : o' ≠ o := by omega
            cases m <;> simp [hne]
          | filed o' p =>
            have := hr.sends c _ o' hg rfl
            have hne : o' ≠ o := by omega
            simp [hne]
          | _ => simp
      | _ => simp [queuedBy]
    rw [h1, h2, h3, h4, h5]
    refine ⟨?_, rfl⟩
    cases op with
    | pump k ok => simp
    | _ => simp
  | some x =>
    have hx := step_obj s op o x ho
    rw [waiting_of _ hx, waiting_of _ ho, nextOf_of _ hx, nextOf_of _ ho]
    cases op with
    | create sid v => simp [objEffect, queuedBy]
    | remove sid => simp only [objEffect, queuedBy]; split <;> simp [Sess.close]
    | take m => simp [objEffect, queuedBy]
    | find sid => simp [objEffect, queuedBy]
    | openStream f => simp [objEffect, queuedBy]
    | stop => simp only [objEffect, queuedBy]; split <;> simp [Sess.close]
    | answer f r =>
      simp only [objEffect, queuedBy]
      split
      · unfold Sess.resolve
        split <;> simp
      · simp
    | pump k ok =>
      simp only [objEffect, queuedBy]
      by_cases hk : s.streams[k]? = some o
      · rw [if_pos hk]
        by_cases hc : x.closed = false ∧ s.running = true
        · rw [if_pos hc, if_pos ⟨hk, hc⟩]
          cases hq : x.queue <;> simp [hq]
        · rw [if_neg hc, if_neg (fun h => hc h.2)]
          simp
      · rw [if_neg hk, if_neg (fun h => hk h.1)]
        simp
    | advance c =>
      simp only [objEffect, queuedBy]
      cases hg : s.sends[c]? with
      | none => simp
      | some st =>
        cases st with
        | found o' m =>
          cases m with
          | request r => simp only; split <;> simp
          | note n =>
            simp only
            by_cases he : o' = o
            · simp [he, Sess.push]
            · simp [he]
        | filed o' p =>
          simp only
          by_cases he : o' = o
          · simp [he, Sess.push]
          · simp [he]
        | _ => simp

theorem run_all (ops : List (HsOp D)) (s : Hs D) (hr : SessRefs s) (o : Nat)
    (hi : (allOf s o).map (·.1) = List.range' 1 (allOf s o).length) (hn : nextOf s o = 1 + (allOf s o).length) :
    (allOf (s.run ops) o).map (·.2) = (allOf s o).map (·.2) ++ ((queuedAll s ops).filter (fun q => decide (q.2.1 = o))).map (·.2.2) ∧
    (allOf (s.run ops) o).map (·.1) = List.range' 1 (allOf (s.run ops) o).length := by
  induction ops generalizing s with
  | nil => exact ⟨by simp [queuedAll, Hs.run], hi⟩
  | cons op ops ih =>
    obtain ⟨h1, h2⟩ := step_all s op hr o
    have hlen : ((queuedBy s op).toList.filter (fun q => decide (q.2.1 = o))).length ≤ 1 :=
      Nat.le_trans (List.length_filter_le _ _) (by cases queuedBy s op <;> simp)
    generalize hL : (queuedBy s op).toList.filter (fun q => decide (q.2.1 = o)) = L at h1 h2 hlen
    have hs : (s.run (op :: ops)) = (s.step op).run ops := rfl
    have ih' := ih (s.step op) (refs_step s op hr) (by
      rw [h1]
      match L, hlen with
      | [], _ => simpa using hi
      | [q], _ =>
        simp only [List.map_append, List.map_cons, List.map_nil, List.length_append, List.length_cons, List.length_nil]
        rw [hi, hn, List.range'_concat]
        simp) (by rw [h2, h1, hn]; simp; omega)
    rw [hs]
    refine ⟨?_, ih'.2⟩
    rw [ih'.1, h1]
    simp only [queuedAll, List.filter_append, List.map_append, hL, List.append_assoc, List.map_map]
    rfl

/-! ### Calls -/

structure SessCalls (s : Hs D) (l : List (Outgoing D)) : Prop where
  len : s.sends.length = l.length
  found : ∀ (c o : Nat) (m : Outgoing D), s.sends[c]? = some (.found o m) → l[c]? = some m
  filed : ∀ (c o : Nat) (p : Bytes), s.sends[c]? = some (.filed o p) → ∃ m, l[c]? = some m ∧ Carries m p

/-- The sends change by `take` and `advance` only. -/
theorem step_sends (s : Hs D) (op : HsOp D) : (s.step op).sends = match op with
    | .take m => s.sends ++ [match s.activeObj with | some o => .found o m | none => .refused]
    | .advance c => (s.advance c).sends
    | _ => s.sends := by
  cases op with
  | remove sid => simp only [Hs.step, Hs.remove]; split <;> rfl
  | answer f r => simp only [Hs.step, Hs.answer]; split <;> rfl
  | openStream f => simp only [Hs.step, Hs.openStream]; split <;> rfl
  | pump k ok =>
    simp only [Hs.step, Hs.pump]
    split
    · rfl
    · split
      · rfl
      · split
        · rfl
        · split <;> rfl
  | _ => rfl

theorem advance_sends (s : Hs D) (c : Nat) : (s.advance c).sends = match s.sends[c]? with
    | some (.found o (.request r)) => s.sends.set c (.filed o (serRequest (s.withId r).1))
    | some (.found _ (.note _)) => s.sends.set c .finished
    | some (.filed _ _) => s.sends.set c .finished
    | _ => s.sends := by
  unfold Hs.advance
  cases s.sends[c]? with
  | none => rfl
  | some st =>
    cases st with
    | found o m => cases m <;> rfl
    | _ => rfl

theorem withId_carries (s : Hs D) (r : Request D) : Carries (.request r) (serRequest (s.withId r).1) := by
  unfold Hs.withId
  split
  · next h => exact .assigned r _ h
  · next h => exact .request r h

theorem calls_step (s : Hs D) (l : List (Outgoing D)) (op : HsOp D) (h : SessCalls s l) : SessCalls (s.step op) (l ++ takes [op]) := by
  have same : ∀ s' : Hs D, s'.sends = s.sends → takes [op] = [] → SessCalls s' (l ++ takes [op]) := by
    intro s' e1 e2
    rw [e2, List.append_nil]
    exact ⟨by rw [e1]; exact h.len, by rw [e1]; exact h.found, by rw [e1]; exact h.filed⟩
  have hs := step_sends s op
  cases op with
  | take m =>
    have ht : takes [HsOp.take m] = [m] := rfl
    rw [ht]
    simp only at hs
    have sub : ∀ (c : Nat) (st : SendStage D), (s.step (.take m)).sends[c]? = some st →
        s.sends[c]? = some st ∧ c < l.length ∨ c = l.length ∧ st = (match s.activeObj with | some o => SendStage.found o m | none => .refused) := by
      intro c st hc
      rw [hs] at hc
      by_cases hlt : c < s.sends.length
      · rw [List.getElem?_append_left hlt] at hc; exact .inl ⟨hc, h.len ▸ hlt⟩
      · rw [List.getElem?_append_right (by omega)] at hc
        have hlen := h.len
        cases hk : c - s.sends.length with
        | zero => rw [hk] at hc; simp at hc; exact .inr ⟨by omega, hc.symm⟩
        | succ n => rw [hk] at hc; simp at hc
    refine ⟨by rw [hs]; simp [h.len], fun c o m' hc => ?_, fun c o p hc => ?_⟩
    · rcases sub c _ hc with ⟨h1, h2⟩ | ⟨h1, h2⟩
      · rw [List.getElem?_append_left h2]; exact h.found c o m' h1
      · subst h1
        rw [List.getElem?_concat_length]
        cases ha : s.activeObj with
        | none => rw [ha] at h2; cases h2
        | some o' => rw [ha] at h2; cases h2; rfl
    · rcases sub c _ hc with ⟨h1, h2⟩ | ⟨h1, h2⟩
      · rw [List.getElem?_append_left h2]; exact h.filed c o p h1
      · cases ha : s.activeObj with
        | none => rw [ha] at h2; cases h2
        | some o' => rw [ha] at h2; cases h2
  | advance c =>
    have ht : takes [(HsOp.advance c : HsOp D)] = [] := rfl
    rw [ht, List.append_nil]
    simp only at hs
    have he : s.step (.advance c) = s.advance c := rfl
    rw [advance_sends] at hs
    cases hg : s.sends[c]? with
    | none =>
      rw [hg] at hs; simp only at hs
      exact ⟨by rw [hs]; exact h.len, by rw [hs]; exact h.found, by rw [hs]; exact h.filed⟩
    | some st =>
      have hclt : c < s.sends.length := (List.getElem?_eq_some_iff.1 hg).1
      rw [hg] at hs
      cases st with
      | found o m =>
        cases m with
        | request r =>
          simp only at hs
          refine ⟨by rw [hs, List.length_set]; exact h.len, fun c' o' m' hc => ?_, fun c' o' p hc => ?_⟩ <;> rw [hs, List.getElem?_set] at hc
          · split at hc
            · cases hc
            · exact h.found c' o' m' hc
          · split at hc
            · next e =>
              subst e
              cases hc
              exact ⟨.request r, h.found c _ _ hg, withId_carries s r⟩
            · exact h.filed c' o' p hc
        | note n =>
          simp only at hs
          refine ⟨by rw [hs, List.length_set]; exact h.len, fun c' o' m' hc => ?_, fun c' o' p hc => ?_⟩ <;> rw [hs, List.getElem?_set] at hc
          · split at hc
            · cases hc
            · exact h.found c' o' m' hc
          · split at hc
            · cases hc
            · exact h.filed c' o' p hc
      | filed o p =>
        simp only at hs
        refine ⟨by rw [hs, List.length_set]; exact h.len, fun c' o' m' hc => ?_, fun c' o' p hc => ?_⟩ <;> rw [hs, List.getElem?_set] at hc
        · split at hc
          · cases hc
          · exact h.found c' o' m' hc
        · split at hc
          · cases hc
          · exact h.filed c' o' p hc
      | finished =>
        simp only at hs
        exact ⟨by rw [hs]; exact h.len, by rw [hs]; exact h.found, by rw [hs]; exact h.filed⟩
      | refused =>
        simp only at hs
        exact ⟨by rw [hs]; exact h.len, by rw [hs]; exact h.found, by rw [hs]; exact h.filed⟩
  | _ => exact same _ hs rfl

theorem takes_append (a b : List (HsOp D)) : takes (a ++ b) = takes a ++ takes b := List.filterMap_append

theorem getElem?_append_of_some {α : Type} {a b : List α} {i : Nat} {x : α} (h : a[i]? = some x) : (a ++ b)[i]? = some x := by
  rw [List.getElem?_append_left (List.getElem?_eq_some_iff.1 h).1]
  exact h

/-- A step queues only for a call that is not finished; afterwards it is, and nothing else finishes. -/
theorem step_finished (s : Hs D) (op : HsOp D) (c : Nat) :
    (s.step op).sends[c]? = some .finished ↔ s.sends[c]? = some .finished ∨ c ∈ (queuedBy s op).toList.map (·.1) := by
  have hs := step_sends s op
  cases op with
  | take m =>
    rw [hs]
    simp only [queuedBy, Option.toList_none, List.map_nil, List.not_mem_nil, or_false]
    constructor
    · intro h
      rcases getElem?_concat_cases h with h | h
      · exact h
      · cases ha : s.activeObj with
        | none => rw [ha] at h; cases h
        | some o => rw [ha] at h; cases h
    · intro h; exact getElem?_append_of_some h
  | advance c' =>
    simp only at hs
    rw [hs, advance_sends]
    simp only [queuedBy]
    cases hg : s.sends[c']? with
    | none => simp
    | some st =>
      have hclt : c' < s.sends.length := (List.getElem?_eq_some_iff.1 hg).1
      cases st with
      | found o m =>
        cases m with
        | request r =>
          simp only [Option.toList_none, List.map_nil, List.not_mem_nil, or_false]
          rw [List.getElem?_set]
          split
          · next e => subst e; rw [hg]; simp
          · exact Iff.rfl
        | note n =>
          simp only [Option.toList_some, List.map_cons, List.map_nil, List.mem_singleton]
          rw [List.getElem?_set]
          split
          · next e => subst e; simp
          · next e => exact ⟨.inl, fun h => h.resolve_right (fun h => e h.symm)⟩
      | filed o p =>
        simp only [Option.toList_some, List.map_cons, List.map_nil, List.mem_singleton]
        rw [List.getElem?_set]
        split
        · next e => subst e; simp
        · next e => exact ⟨.inl, fun h => h.resolve_right (fun h => e h.symm)⟩
      | finished => simp
      | refused => simp
  | _ => rw [hs]; simp [queuedBy]

theorem queuedBy_open (s : Hs D) (op : HsOp D) (l : List (Outgoing D)) (hc : SessCalls s l) {q : Nat × Nat × Bytes} (h : queuedBy s op = some q) :
    s.sends[q.1]? ≠ some .finished ∧ ∃ m, l[q.1]? = some m ∧ Carries m q.2.2 := by
  cases op with
  | advance c =>
    simp only [queuedBy] at h
    cases hg : s.sends[c]? with
    | none => rw [hg] at h; cases h
    | some st =>
      rw [hg] at h
      cases st with
      | found o m =>
        cases m with
        | request r => cases h
        | note n => cases h; exact ⟨(by rw [hg]; intro e; cases e), _, hc.found c o _ hg, .note n⟩
      | filed o p => cases h; exact ⟨(by rw [hg]; intro e; cases e), hc.filed c o _ hg⟩
      | finished => cases h
      | refused => cases h
  | _ => cases h

theorem run_calls (ops : List (HsOp D)) (s : Hs D) (l : List (Outgoing D)) (hc : SessCalls s l) :
    (∀ q ∈ queuedAll s ops, s.sends[q.1]? ≠ some .finished ∧ ∃ m, (l ++ takes ops)[q.1]? = some m ∧ Carries m q.2.2) ∧
    ((queuedAll s ops).map (·.1)).Nodup ∧
    (∀ c, (s.run ops).sends[c]? = some .finished ↔ s.sends[c]? = some .finished ∨ c ∈ (queuedAll s ops).map (·.1)) ∧
    SessCalls (s.run ops) (l ++ takes ops) := by
  induction ops generalizing s l with
  | nil =>
    have e : l ++ takes ([] : List (HsOp D)) = l := by simp [takes]
    rw [e]
    exact ⟨fun q h => (by cases h), List.nodup_nil, fun c => (by simp [queuedAll, Hs.run]), hc⟩
  | cons op ops ih =>
    have hl : l ++ takes [op] ++ takes ops = l ++ takes (op :: ops) := by
      rw [List.append_assoc, ← takes_append]
      rfl
    have hc' := calls_step s l op hc
    obtain ⟨i1, i2, i3, i4⟩ := ih (s.step op) (l ++ takes [op]) hc'
    rw [hl] at i1 i4
    refine ⟨?_, ?_, ?_, i4⟩
    · intro q hq
      rcases List.mem_append.1 hq with h | h
      · have h' : queuedBy s op = some q := by
          cases hb : queuedBy s op with
          | none => rw [hb] at h; cases h
          | some q' => rw [hb] at h; simp at h; rw [h]
        obtain ⟨h1, m, h2, h3⟩ := queuedBy_open s op l hc h'
        exact ⟨h1, m, getElem?_append_of_some h2, h3⟩
      · obtain ⟨h1, h2⟩ := i1 q h
        exact ⟨fun e => h1 ((step_finished s op q.1).2 (.inl e)), h2⟩
    · rw [queuedAll]
      rw [List.map_append]
      refine List.nodup_append.2 ⟨by cases queuedBy s op <;> simp, i2, ?_⟩
      intro a ha b hb e
      subst e
      obtain ⟨q, hq, rfl⟩ := List.mem_map.1 hb
      exact (i1 q hq).1 ((step_finished s op q.1).2 (.inr ha))
    · intro c
      show ((s.step op).run ops).sends[c]? = _ ↔ _
      rw [i3 c, step_finished s op c]
      rw [queuedAll, List.map_append, List.mem_append, or_assoc]

/-! ### Whose objects -/

/-- The ids of the sessions created, in order. -/
def createdIds (ops : List (HsOp D)) : List Bytes := ops.filterMap (fun op => match op with | .create sid _ => some sid | _ => none)

/-- The session ids of the incoming requests, in order. -/
def foundIds (ops : List (HsOp D)) : List Bytes := ops.filterMap (fun op => match op with | .find sid => some sid | _ => none)

structure SessNames (s : Hs D) (cs fs : List Bytes) : Prop where
  objs : s.objs.length = cs.length
  len : s.finds.length = fs.length
  table : ∀ (sid : Bytes) (o : Nat), AMap.get s.table sid = some o → cs[o]? = some sid
  finds : ∀ (f o : Nat), s.finds[f]? = some (some o) → ∃ sid, fs[f]? = some sid ∧ cs[o]? = some sid
  streams : ∀ (k o : Nat), s.streams[k]? = some o → ∃ f : Nat, s.finds[f]? = some (some o)

theorem step_table (s : Hs D) (op : HsOp D) : (s.step op).table = match op with
    | .create sid _ => AMap.put s.table sid s.objs.length
    | .remove sid => AMap.del s.table sid
    | .stop => []
    | _ => s.table := by
  cases op with
  | remove sid =>
    simp only [Hs.step, Hs.remove]
    cases hg : AMap.get s.table sid with
    | none => exact (AMap.del_of_not_mem (AMap.get_none_iff.1 hg)).symm
    | some o => rfl
  | answer f r => simp only [Hs.step, Hs.answer]; split <;> rfl
  | advance c => simp only [Hs.step, Hs.advance]; split <;> rfl
  | openStream f => simp only [Hs.step, Hs.openStream]; split <;> rfl
  | pump k ok =>
    simp only [Hs.step, Hs.pump]
    split
    · rfl
    · split
      · rfl
      · split
        · rfl
        · split <;> rfl
  | _ => rfl

theorem step_finds (s : Hs D) (op : HsOp D) : (s.step op).finds = match op with
    | .find sid => s.finds ++ [AMap.get s.table sid]
    | _ => s.finds := by
  cases op with
  | remove sid => simp only [Hs.step, Hs.remove]; split <;> rfl
  | answer f r => simp only [Hs.step, Hs.answer]; split <;> rfl
  | advance c => simp only [Hs.step, Hs.advance]; split <;> rfl
  | openStream f => simp only [Hs.step, Hs.openStream]; split <;> rfl
  | pump k ok =>
    simp only [Hs.step, Hs.pump]
    split
    · rfl
    · split
      · rfl
      · split
        · rfl
        · split <;> rfl
  | _ => rfl

theorem step_streams (s : Hs D) (op : HsOp D) : (s.step op).streams = match op with
    | .openStream f => (match s.finds[f]? with | some (some o) => s.streams ++ [o] | _ => s.streams)
    | _ => s.streams := by
  cases op with
  | remove sid => simp only [Hs.step, Hs.remove]; split <;> rfl
  | answer f r => simp only [Hs.step, Hs.answer]; split <;> rfl
  | advance c => simp only [Hs.step, Hs.advance]; split <;> rfl
  | openStream f =>
    simp only [Hs.step, Hs.openStream]
    cases s.finds[f]? with
    | none => rfl
    | some q => cases q <;> rfl
  | pump k ok =>
    simp only [Hs.step, Hs.pump]
    split
    · rfl
    · split
      · rfl
      · split
        · rfl
        · split <;> rfl
  | _ => rfl

theorem names_step (s : Hs D) (cs fs : List Bytes) (op : HsOp D) (h : SessNames s cs fs) :
    SessNames (s.step op) (cs ++ createdIds [op]) (fs ++ foundIds [op]) := by
  have h1 := step_objs_grow s op
  have h2 := step_table s op
  have h3 := step_finds s op
  have h4 := step_streams s op
  have keepF : (s.step op).finds = s.finds → foundIds [op] = [] →
      (s.step op).finds.length = (fs ++ foundIds [op]).length ∧
      (∀ (f o : Nat), (s.step op).finds[f]? = some (some o) → ∃ sid, (fs ++ foundIds [op])[f]? = some sid ∧ (cs ++ createdIds [op])[o]? = some sid) := by
    intro e1 e2
    rw [e1, e2, List.append_nil]
    refine ⟨h.len, fun f o hf => ?_⟩
    obtain ⟨sid, a, b⟩ := h.finds f o hf
    exact ⟨sid, a, getElem?_append_of_some b⟩
  cases op with
  | create sid v =>
    obtain ⟨k1, k2⟩ := keepF h3 rfl
    refine ⟨by rw [h1]; simp [createdIds, h.objs], k1, fun sid' o hg => ?_, k2, ?_⟩
    · rw [h2] at hg
      simp only at hg
      rw [AMap.get_put] at hg
      split at hg
      · next e =>
        cases hg
        have hc : createdIds [HsOp.create sid v (D := D)] = [sid] := rfl
        rw [hc, h.objs, List.getElem?_concat_length]
        rw [e]
      · exact getElem?_append_of_some (h.table sid' o hg)
    · rw [h4, h3]; exact h.streams
  | find sid =>
    have hc : createdIds [HsOp.find sid (D := D)] = [] := rfl
    have hf : foundIds [HsOp.find sid (D := D)] = [sid] := rfl
    rw [hc, hf, List.append_nil]
    simp only at h3
    refine ⟨by rw [h1]; exact h.objs, by rw [h3]; simp [h.len], by rw [h2]; exact h.table, fun f o hg => ?_, fun k o hk => ?_⟩
    · rw [h3] at hg
      by_cases hlt : f < s.finds.length
      · rw [List.getElem?_append_left hlt] at hg
        obtain ⟨sid', a, b⟩ := h.finds f o hg
        exact ⟨sid', getElem?_append_of_some a, b⟩
      · rw [List.getElem?_append_right (by omega)] at hg
        cases hk : f - s.finds.length with
        | zero =>
          rw [hk] at hg
          simp at hg
          have : f = fs.length := by have := h.len; omega
          rw [this, List.getElem?_concat_length]
          exact ⟨sid, rfl, h.table sid o hg⟩
        | succ n => rw [hk] at hg; simp at hg
    · rw [h4] at hk
      obtain ⟨f, hf⟩ := h.streams k o hk
      rw [h3]
      exact ⟨f, getElem?_append_of_some hf⟩
  | openStream f =>
    obtain ⟨k1, k2⟩ := keepF h3 rfl
    have hc : createdIds [HsOp.openStream f (D := D)] = [] := rfl
    rw [hc, List.append_nil] at k2 ⊢
    refine ⟨by rw [h1]; exact h.objs, k1, by rw [h2]; exact h.table, k2, fun k o hk => ?_⟩
    rw [h4] at hk
    simp only at hk
    rw [h3]
    cases hg : s.finds[f]? with
    | none => rw [hg] at hk; exact h.streams k o hk
    | some q =>
      cases q with
      | none => rw [hg] at hk; exact h.streams k o hk
      | some o' =>
        rw [hg] at hk
        rcases getElem?_concat_cases hk with hk | hk
        · exact h.streams k o hk
        · subst hk; exact ⟨f, hg⟩
  | remove sid =>
    obtain ⟨k1, k2⟩ := keepF h3 rfl
    have hc : createdIds [HsOp.remove sid (D := D)] = [] := rfl
    rw [hc, List.append_nil] at k2 ⊢
    refine ⟨by rw [h1]; exact h.objs, k1, fun sid' o hg => ?_, k2, by rw [h4, h3]; exact h.streams⟩
    rw [h2] at hg
    simp only at hg
    rw [AMap.get_del] at hg
    split at hg
    · cases hg
    · exact h.table sid' o hg
  | stop =>
    obtain ⟨k1, k2⟩ := keepF h3 rfl
    have hc : createdIds [(HsOp.stop : HsOp D)] = [] := rfl
    rw [hc, List.append_nil] at k2 ⊢
    refine ⟨by rw [h1]; exact h.objs, k1, fun sid' o hg => ?_, k2, by rw [h4, h3]; exact h.streams⟩
    rw [h2] at hg
    cases hg
  | take m =>
    obtain ⟨k1, k2⟩ := keepF h3 rfl
    have hc : createdIds [HsOp.take m] = [] := rfl
    rw [hc, List.append_nil] at k2 ⊢
    exact ⟨by rw [h1]; exact h.objs, k1, by rw [h2]; exact h.table, k2, by rw [h4, h3]; exact h.streams⟩
  | advance c =>
    obtain ⟨k1, k2⟩ := keepF h3 rfl
    have hc : createdIds [HsOp.advance c (D := D)] = [] := rfl
    rw [hc, List.append_nil] at k2 ⊢
    exact ⟨by rw [h1]; exact h.objs, k1, by rw [h2]; exact h.table, k2, by rw [h4, h3]; exact h.streams⟩
  | answer f r =>
    obtain ⟨k1, k2⟩ := keepF h3 rfl
    have hc : createdIds [HsOp.answer f r] = [] := rfl
    rw [hc, List.append_nil] at k2 ⊢
    exact ⟨by rw [h1]; exact h.objs, k1, by rw [h2]; exact h.table, k2, by rw [h4, h3]; exact h.streams⟩
  | pump k ok =>
    obtain ⟨k1, k2⟩ := keepF h3 rfl
    have hc : createdIds [HsOp.pump k ok (D := D)] = [] := rfl
    rw [hc, List.append_nil] at k2 ⊢
    exact ⟨by rw [h1]; exact h.objs, k1, by rw [h2]; exact h.table, k2, by rw [h4, h3]; exact h.streams⟩

theorem names_run (ops : List (HsOp D)) (s : Hs D) (cs fs : List Bytes) (h : SessNames s cs fs) :
    SessNames (s.run ops) (cs ++ createdIds ops) (fs ++ foundIds ops) := by
  induction ops generalizing s cs fs with
  | nil =>
    have e1 : cs ++ createdIds ([] : List (HsOp D)) = cs := by simp [createdIds]
    have e2 : fs ++ foundIds ([] : List (HsOp D)) = fs := by simp [foundIds]
    rw [e1, e2]; exact h
  | cons op ops ih =>
    have := ih _ _ _ (names_step s cs fs op h)
    rw [List.append_assoc, List.append_assoc] at this
    have e1 : createdIds [op] ++ createdIds ops = createdIds (op :: ops) := by
      rw [show op :: ops = [op] ++ ops from rfl]; exact List.filterMap_append.symm
    have e2 : foundIds [op] ++ foundIds ops = foundIds (op :: ops) := by
      rw [show op :: ops = [op] ++ ops from rfl]; exact List.filterMap_append.symm
    rw [e1, e2] at this
    exact this

theorem names_init : SessNames (Hs.init : Hs D) [] [] :=
  ⟨rfl, rfl, fun _ _ h => by simp [Hs.init, AMap.get] at h, fun _ _ h => by simp [Hs.init] at h, fun _ _ h => by simp [Hs.init] at h⟩

theorem calls_init : SessCalls (Hs.init : Hs D) [] :=
  ⟨rfl, fun _ _ _ h => by simp [Hs.init] at h, fun _ _ _ h => by simp [Hs.init] at h⟩

/-! ### The promises -/

/-- A response completes the request of its own id. -/
def OwnId : SOut D → Bytes → Prop
  | .resp r, k => keyText r.id = k
  | .broken, _ => False

/-- The promise was overwritten. -/
def Overwritten : SOut D → Prop
  | .broken => True
  | .resp _ => False

abbrev PInv (x : Sess D) : Prop := x.pend.Inv OwnId Overwritten

theorem close_inv {x : Sess D} (h : PInv x) (t : Bytes) : PInv (x.close t) := PTab.inv_closeAll h (fun k => .inr rfl)

theorem resolve_inv {x : Sess D} (h : PInv x) (r : Response D) : PInv (x.resolve r) := by
  unfold Sess.resolve
  split
  · exact h
  · exact PTab.inv_complete h _ (.inr rfl)

theorem effect_inv (s : Hs D) (op : HsOp D) (o : Nat) (x : Sess D) (h : PInv x) : PInv (objEffect s op o x) := by
  cases op with
  | remove sid => simp only [objEffect]; split; exact close_inv h _; exact h
  | stop => simp only [objEffect]; split; exact close_inv h _; exact h
  | answer f r => simp only [objEffect]; split; exact resolve_inv h r; exact h
  | pump k ok => simp only [objEffect]; split; exact h; exact h
  | advance c =>
    simp only [objEffect]
    split
    · split
      · exact PTab.inv_insert h _ trivial
      · exact h
    · split
      · exact h
      · exact h
    · split
      · exact h
      · exact h
    · exact h
  | _ => exact h

theorem run_inv (ops : List (HsOp D)) (s : Hs D) (h : ∀ (o : Nat) (x : Sess D), s.objs[o]? = some x → PInv x) :
    ∀ (o : Nat) (x : Sess D), (s.run ops).objs[o]? = some x → PInv x := by
  induction ops generalizing s with
  | nil => exact h
  | cons op ops ih =>
    refine ih (s.step op) (fun o x hx => ?_)
    cases ho : s.objs[o]? with
    | some y =>
      rw [step_obj s op o y ho] at hx
      cases hx
      exact effect_inv s op o y (h o y ho)
    | none =>
      have hge : s.objs.length ≤ o := List.getElem?_eq_none_iff.1 ho
      have hg := step_objs_grow s op
      cases op with
      | create sid v =>
        have hx' : (s.objs ++ [Sess.fresh v])[o]? = some x := hx
        rcases getElem?_concat_cases hx' with h1 | h1
        · exact h o x h1
        · subst h1; exact PTab.inv_init
      | _ =>
        have := (List.getElem?_eq_some_iff.1 hx).1
        simp only at hg
        omega

/-! ### Theorems -/

/-- C44: for every history and every session, what its streams were given followed by what still waits in its queue is exactly what was
queued for it, in the order of queueing, numbered 1, 2, 3, ... Over all sessions each message is queued at most once, by the call it was
given to, and a call is finished exactly when its message has been queued. -/
theorem C44_delivery (ops : List (HsOp D)) (o : Nat) :
    let s := Hs.init.run ops
    let q := queuedAll Hs.init ops
    (eventsOf s o ++ waitingFor s o).map (·.2) = (q.filter (fun x => decide (x.2.1 = o))).map (·.2.2) ∧
    (eventsOf s o ++ waitingFor s o).map (·.1) = List.range' 1 (eventsOf s o ++ waitingFor s o).length ∧
    (q.map (·.1)).Nodup ∧
    (∀ x ∈ q, ∃ m, (takes ops)[x.1]? = some m ∧ Carries m x.2.2) ∧
    (∀ c, s.sends[c]? = some .finished ↔ c ∈ q.map (·.1)) := by
  intro s q
  have h0 : allOf (Hs.init : Hs D) o = [] := by simp [allOf, eventsOf, waitingFor, Hs.init]
  have h1 := run_all ops (Hs.init : Hs D) refs_init o (by rw [h0]; rfl) (by rw [h0]; simp [nextOf, Hs.init])
  obtain ⟨c1, c2, c3, _⟩ := run_calls ops (Hs.init : Hs D) [] calls_init
  refine ⟨?_, h1.2, c2, fun x hx => ?_, fun c => ?_⟩
  · have := h1.1
    rw [h0] at this
    exact this
  · exact (c1 x hx).2
  · have := c3 c
    exact ⟨fun h => (this.1 h).resolve_left (by intro e; cases e), fun h => this.2 (.inr h)⟩

/-- C44: a stream delivers for the session its request named: the object was created under the session id the request carried. -/
theorem C44_streams (ops : List (HsOp D)) (k o : Nat) (h : (Hs.init.run ops).streams[k]? = some o) :
    ∃ (f : Nat) (sid : Bytes), (Hs.init.run ops).finds[f]? = some (some o) ∧ (foundIds ops)[f]? = some sid ∧ (createdIds ops)[o]? = some sid := by
  have hn := names_run ops (Hs.init : Hs D) [] [] names_init
  obtain ⟨f, hf⟩ := hn.streams k o h
  obtain ⟨sid, h1, h2⟩ := hn.finds f o hf
  exact ⟨f, sid, hf, h1, h2⟩

/-- C44: a session found under an id was created under that id. -/
theorem C44_lookup (ops : List (HsOp D)) (sid : Bytes) (o : Nat) (h : (Hs.init.run ops).lookup sid = some o) :
    (createdIds ops)[o]? = some sid :=
  (names_run ops (Hs.init : Hs D) [] [] names_init).table sid o h

/-- C44: after every history, each request sent to a session's client completes at most once, with a response bearing its own id or with
`broken_promise` when a later request overwrote it, and it has completed or is still filed. -/
theorem C44_answers (ops : List (HsOp D)) (o : Nat) (x : Sess D) (h : (Hs.init.run ops).objs[o]? = some x) :
    (x.pend.outcomes.map (·.1)).Nodup ∧
    (∀ n out, (n, out) ∈ x.pend.outcomes → out = .broken ∨ ∃ k r, (n, k) ∈ x.pend.sent ∧ out = .resp r ∧ keyText r.id = k) ∧
    (∀ n, n < x.pend.nextFut → (∃ k, (k, n) ∈ x.pend.pending) ∨ n ∈ x.pend.outcomes.map (·.1)) := by
  have hi := run_inv ops (Hs.init : Hs D) (fun o x hx => by simp [Hs.init] at hx) o x h
  refine ⟨hi.once, fun n out hout => ?_, fun n hn => hi.accounted hn⟩
  rcases hi.fits n out hout with h1 | ⟨k, h1, h2⟩
  · cases out with
    | broken => exact .inl rfl
    | resp r => cases h1
  · cases out with
    | broken => cases h2
    | resp r => exact .inr ⟨k, r, h1, rfl, h2⟩

/-- C44: a response arriving for a session completes the request filed under its id in that session, and touches no other session. -/
theorem C44_answer_own (s : Hs D) (f o : Nat) (r : Response D) (hf : s.finds[f]? = some (some o)) :
    (∀ (x : Sess D) (n : Nat), s.objs[o]? = some x → keyText r.id ≠ [] → AMap.get x.pend.pending (keyText r.id) = some n →
      ∃ y, (s.step (.answer f r)).objs[o]? = some y ∧ (n, .resp r) ∈ y.pend.outcomes ∧ AMap.get y.pend.pending (keyText r.id) = none) ∧
    (∀ o', o' ≠ o → (s.step (.answer f r)).objs[o']? = s.objs[o']?) ∧
    (s.step (.answer f r)).table = s.table := by
  have he : s.step (.answer f r) = { s with objs := s.objs.modify o (·.resolve r) } := by
    simp only [Hs.step, Hs.answer, hf]
  refine ⟨fun x n hx hne hg => ?_, fun o' hne => ?_, step_table s _⟩
  · refine ⟨x.resolve r, ?_, ?_, ?_⟩
    · rw [he]; simp [modify_get, hx]
    · unfold Sess.resolve
      rw [if_neg hne]
      exact PTab.complete_outcome hg
    · unfold Sess.resolve
      rw [if_neg hne]
      simp [PTab.complete, hg, AMap.get_del_self]
  · rw [he]
    simp only [modify_get]
    cases s.objs[o']? with
    | none => rfl
    | some x => simp [Ne.symm hne]

/-- C44: removing a session completes every request still filed there with the closing error under its own id, ends its streams, and
leaves every other session as it was. -/
theorem C44_remove (s : Hs D) (sid : Bytes) (o : Nat) (x : Sess D) (hg : s.lookup sid = some o) (hx : s.objs[o]? = some x) :
    (∃ y, (s.step (.remove sid)).objs[o]? = some y ∧ y.pend.pending = [] ∧ y.closed = true ∧
      ∀ k n, (k, n) ∈ x.pend.pending → ∃ r, (n, .resp r) ∈ y.pend.outcomes ∧ r.id = .str k ∧ r.result = none ∧
        r.error = some (mkErrorObj Code.internalError (lit "HTTP session closed") none)) ∧
    (∀ o', o' ≠ o → (s.step (.remove sid)).objs[o']? = s.objs[o']?) ∧
    (s.step (.remove sid)).lookup sid = none ∧
    (∀ sid', sid' ≠ sid → (s.step (.remove sid)).lookup sid' = s.lookup sid') ∧
    (∀ k ok, s.streams[k]? = some o → (s.step (.remove sid)).step (.pump k ok) = s.step (.remove sid)) := by
  have hg' : AMap.get s.table sid = some o := hg
  have he : s.step (.remove sid) = { s with
      table := AMap.del s.table sid
      active := if s.active = sid then [] else s.active
      objs := s.objs.modify o (·.close (lit "HTTP session closed")) } := by
    simp only [Hs.step, Hs.remove, hg']
  rw [he]
  have hy : (s.objs.modify o (·.close (lit "HTTP session closed")))[o]? = some (x.close (lit "HTTP session closed")) := by
    simp [modify_get, hx]
  refine ⟨⟨x.close (lit "HTTP session closed"), hy, rfl, rfl, fun k n hk => ?_⟩, fun o' hne => ?_, ?_, fun sid' hne => ?_, fun k ok hk => ?_⟩
  · exact ⟨⟨.str k, none, some (mkErrorObj Code.internalError (lit "HTTP session closed") none)⟩,
      List.mem_append_right _ (List.mem_map.2 ⟨(k, n), hk, rfl⟩), rfl, rfl, rfl⟩
  · simp only [modify_get]
    cases s.objs[o']? with
    | none => rfl
    | some x => simp [Ne.symm hne]
  · exact AMap.get_del_self _ _
  · exact AMap.get_del_ne _ hne
  · simp only [Hs.step, Hs.pump, hk, hy]
    rw [if_pos (by simp [Sess.close])]

/-- A step that leaves the entry of `sid` alone. -/
def KeepsEntry (sid : Bytes) : HsOp D → Prop
  | .create sid' _ => sid' ≠ sid
  | .remove sid' => sid' ≠ sid
  | .stop => False
  | _ => True

/-- C44: a session is found under its id from its creation until it is removed, the server stops or the same id is drawn again. -/
theorem C44_found_partial (before after : List (HsOp D)) (sid v : Bytes) (h : ∀ op ∈ after, KeepsEntry sid op) :
    (Hs.init.run (before ++ HsOp.create sid v :: after)).lookup sid = some (createdIds before).length := by
  rw [hs_run_append]
  have hn := (names_run before (Hs.init : Hs D) [] [] names_init).objs
  generalize Hs.init.run before = s at hn
  rw [List.nil_append] at hn
  have h0 : (s.step (.create sid v)).lookup sid = some (createdIds before).length := by
    show AMap.get (AMap.put s.table sid s.objs.length) sid = _
    rw [AMap.get_put_self, hn]
  show ((s.step (.create sid v)).run after).lookup sid = _
  generalize s.step (.create sid v) = s' at h0
  induction after generalizing s' with
  | nil => exact h0
  | cons op after ih =>
    refine ih (fun op' ho => h op' (List.mem_cons_of_mem _ ho)) (s'.step op) ?_
    have hk := h op List.mem_cons_self
    unfold Hs.lookup at h0 ⊢
    rw [step_table]
    cases op with
    | create sid' v' => simp only; rw [AMap.get_put_ne _ _ (Ne.symm hk)]; exact h0
    | remove sid' => simp only; rw [AMap.get_del_ne _ (Ne.symm hk)]; exact h0
    | stop => cases hk
    | _ => exact h0

/-! ### An object nothing can reach any more -/

structure Orphan (s : Hs D) (o : Nat) : Prop where
  table : ∀ sid, AMap.get s.table sid ≠ some o
  finds : ∀ f : Nat, s.finds[f]? ≠ some (some o)
  sends : ∀ (c : Nat) (r : Request D), s.sends[c]? ≠ some (.found o (.request r))
  streams : ∀ k : Nat, s.streams[k]? ≠ some o
  exist : o < s.objs.length

theorem orphan_step (s : Hs D) (o : Nat) (op : HsOp D) (h : Orphan s o) : Orphan (s.step op) o := by
  have hlen := step_objs_length s op
  refine ⟨fun sid hg => ?_, fun f hf => ?_, fun c r hc => ?_, fun k hk => ?_, Nat.lt_of_lt_of_le h.exist hlen⟩
  · rw [step_table] at hg
    cases op with
    | create sid' v =>
      simp only at hg
      rw [AMap.get_put] at hg
      split at hg
      · cases hg; exact Nat.lt_irrefl _ h.exist
      · exact h.table _ hg
    | remove sid' =>
      simp only at hg
      rw [AMap.get_del] at hg
      split at hg
      · cases hg
      · exact h.table _ hg
    | stop => cases hg
    | _ => exact h.table _ hg
  · rw [step_finds] at hf
    cases op with
    | find sid =>
      rcases getElem?_concat_cases hf with h1 | h1
      · exact h.finds f h1
      · exact h.table sid h1.symm
    | _ => exact h.finds f hf
  · rw [step_sends] at hc
    cases op with
    | take m =>
      rcases getElem?_concat_cases hc with h1 | h1
      · exact h.sends c r h1
      · cases ha : s.activeObj with
        | none => rw [ha] at h1; cases h1
        | some o' => rw [ha] at h1; cases h1; exact h.table _ ha
    | advance c' =>
      simp only at hc
      rw [advance_sends] at hc
      split at hc
      · rcases getElem?_set_cases hc with h1 | h1
        · exact h.sends c r h1
        · cases h1
      · rcases getElem?_set_cases hc with h1 | h1
        · exact h.sends c r h1
        · cases h1
      · rcases getElem?_set_cases hc with h1 | h1
        · exact h.sends c r h1
        · cases h1
      · exact h.sends c r hc
    | _ => exact h.sends c r hc
  · rw [step_streams] at hk
    cases op with
    | openStream f =>
      simp only at hk
      split at hk
      · next hf =>
        rcases getElem?_concat_cases hk with h1 | h1
        · exact h.streams k h1
        · subst h1; exact h.finds f hf
      · exact h.streams k hk
    | _ => exact h.streams k hk

theorem orphan_effect (s : Hs D) (o : Nat) (op : HsOp D) (h : Orphan s o) (x : Sess D) : (objEffect s op o x).pend = x.pend := by
  cases op with
  | remove sid => simp only [objEffect]; rw [if_neg (h.table sid)]
  | stop => simp only [objEffect]; rw [if_neg]; rintro ⟨sid, _, h1⟩; exact h.table sid h1
  | answer f r => simp only [objEffect]; rw [if_neg (h.finds f)]
  | pump k ok => simp only [objEffect]; rw [if_neg (fun h1 => h.streams k h1.1)]
  | advance c =>
    simp only [objEffect]
    cases hc : s.sends[c]? with
    | none => rfl
    | some st =>
      cases st with
      | found o' m =>
        cases m with
        | request r =>
          simp only
          rw [if_neg]
          intro e; subst e; exact h.sends c r hc
        | note n => simp only; split <;> rfl
      | filed o' p => simp only; split <;> rfl
      | _ => rfl
  | _ => rfl

/-- Its promises stay as they are, and nothing of its queue is ever delivered. -/
theorem orphan_run (ops : List (HsOp D)) (s : Hs D) (o : Nat) (x : Sess D) (h : Orphan s o) (hr : SessRefs s) (hx : s.objs[o]? = some x)
    (he : eventsOf s o = []) :
    (∃ y, (s.run ops).objs[o]? = some y ∧ y.pend = x.pend) ∧ eventsOf (s.run ops) o = [] := by
  induction ops generalizing s x with
  | nil => exact ⟨⟨x, hx, rfl⟩, he⟩
  | cons op ops ih =>
    have h1 := step_obj s op o x hx
    have h2 : eventsOf (s.step op) o = [] := by
      rw [step_events s op hr o, he]
      cases op with
      | pump k ok => simp only [List.nil_append]; rw [if_neg (h.streams k)]
      | _ => rfl
    obtain ⟨⟨y, h3, h4⟩, h5⟩ := ih (s.step op) _ (orphan_step s o op h) (refs_step s op hr) h1 h2
    exact ⟨⟨y, h3, h4.trans (orphan_effect s o op h x)⟩, h5⟩

/-- C44: when the id of a live session is drawn again (there are 9000 ids), the request outstanding in the first session never completes
and its message is never delivered, whatever happens later: responses under the id, new streams, removal of the id, `Stop`. -/
theorem C44_collision_counterexample (sid v v' : Bytes) (r : Request D) (later : List (HsOp D)) :
    let s := Hs.init.run ([.create sid v, .take (.request r), .advance 0, .advance 0, .create sid v'] ++ later)
    (∃ y, s.objs[0]? = some y ∧ y.pend.nextFut = 1 ∧ y.pend.outcomes = []) ∧ eventsOf s 0 = [] := by
  intro s
  have hs : s = (Hs.init.run [.create sid v, .take (.request r), .advance 0, .advance 0, .create sid v']).run later := hs_run_append _ _ _
  rw [hs]
  have hr : SessRefs (Hs.init.run [.create sid v, .take (.request r), .advance 0, .advance 0, .create sid v'] : Hs D) := refs_run _ _ refs_init
  have e : (Hs.init.run [.create sid v, .take (.request r), .advance 0, .advance 0, .create sid v'] : Hs D) =
      { objs := [((Sess.fresh v : Sess D).push (serRequest ((Hs.init : Hs D).withId r).1) |> fun x => { x with pend := PTab.init.insert (keyText ((Hs.init : Hs D).withId r).1.id) .broken }), Sess.fresh v']
        table := [(sid, 1)], active := sid, counter := ((Hs.init : Hs D).withId r).2, running := true, sends := [.finished], finds := [], streams := [], events := [] } := by
    simp [Hs.run, Hs.step, Hs.create, Hs.take, Hs.activeObj, Hs.init, AMap.put, AMap.del, AMap.get, Hs.advance, Sess.push, Hs.withId, Sess.fresh]
  rw [e] at hr ⊢
  obtain ⟨⟨y, h1, h2⟩, h3⟩ := orphan_run later _ 0 _ (by
    refine ⟨fun sid' => ?_, fun f => ?_, fun c r' => ?_, fun k => ?_, by simp⟩
    · simp only [AMap.get]; repeat (first | split | simp)
    · simp
    · cases c <;> simp
    · simp) hr rfl rfl
  exact ⟨⟨y, h1, by rw [h2]; exact ⟨rfl, rfl⟩⟩, h3⟩

/-- C44: a request sent while its session is being removed is filed after the removal; its future never completes. -/
theorem C44_race_counterexample (sid v : Bytes) (r : Request D) (later : List (HsOp D)) :
    let s := Hs.init.run ([.create sid v, .take (.request r), .remove sid, .advance 0] ++ later)
    ∃ y, s.objs[0]? = some y ∧ y.pend.nextFut = 1 ∧ y.pend.outcomes = [] := by
  intro s
  have hs : s = (Hs.init.run [.create sid v, .take (.request r), .remove sid, .advance 0]).run later := hs_run_append _ _ _
  rw [hs]
  have hr : SessRefs (Hs.init.run [.create sid v, .take (.request r), .remove sid, .advance 0] : Hs D) := refs_run _ _ refs_init
  have e : (Hs.init.run [.create sid v, .take (.request r), .remove sid, .advance 0] : Hs D) =
      { objs := [{ (Sess.fresh v : Sess D) with closed := true, pend := PTab.init.insert (keyText ((Hs.init : Hs D).withId r).1.id) .broken }]
        table := [], active := [], counter := ((Hs.init : Hs D).withId r).2, running := true
        sends := [.filed 0 (serRequest ((Hs.init : Hs D).withId r).1)], finds := [], streams := [], events := [] } := by
    simp [Hs.run, Hs.step, Hs.create, Hs.take, Hs.activeObj, Hs.init, AMap.put, AMap.del, AMap.get, Hs.advance, Hs.remove, Sess.close, Hs.withId,
      Sess.fresh, PTab.closeAll, PTab.init]
  rw [e] at hr ⊢
  obtain ⟨⟨y, h1, h2⟩, h3⟩ := orphan_run later _ 0 _ (by
    refine ⟨fun sid' => ?_, fun f => ?_, fun c r' => ?_, fun k => ?_, by simp⟩
    · simp only [AMap.get]; repeat (first | split | simp)
    · simp
    · cases c <;> simp
    · simp) hr rfl rfl
  exact ⟨y, h1, by rw [h2]; exact ⟨rfl, rfl⟩⟩

/-! ### C81 -/

theorem step_active (s : Hs D) (op : HsOp D) : (s.step op).active = match op with
    | .create sid _ => sid
    | .remove sid => if (AMap.get s.table sid).isSome ∧ s.active = sid then [] else s.active
    | .stop => []
    | _ => s.active := by
  cases op with
  | remove sid =>
    simp only [Hs.step, Hs.remove]
    cases hg : AMap.get s.table sid with
    | none => simp
    | some o => simp
  | answer f r => simp only [Hs.step, Hs.answer]; split <;> rfl
  | advance c => simp only [Hs.step, Hs.advance]; split <;> rfl
  | openStream f => simp only [Hs.step, Hs.openStream]; split <;> rfl
  | pump k ok =>
    simp only [Hs.step, Hs.pump]
    split
    · rfl
    · split
      · rfl
      · split
        · rfl
        · split <;> rfl
  | _ => rfl

/-- The number of the session the server's own messages go to, from the history alone: the last one created, until it is removed or the
server stops. -/
def lastLive : List (HsOp D) → Option (Bytes × Nat) × Nat → Option (Bytes × Nat) × Nat
  | [], a => a
  | .create sid _ :: ops, (_, n) => lastLive ops (some (sid, n), n + 1)
  | .remove sid :: ops, (a, n) => lastLive ops (match a with | some (sid', k) => if sid' = sid then none else some (sid', k) | none => none, n)
  | .stop :: ops, (_, n) => lastLive ops (none, n)
  | _ :: ops, a => lastLive ops a

/-- The state agrees with the history. -/
structure Agrees (s : Hs D) (a : Option (Bytes × Nat) × Nat) : Prop where
  key : ∀ o, AMap.get s.table [] ≠ some o
  num : a.2 = s.objs.length
  none : a.1 = Option.none → s.active = []
  some : ∀ sid n, a.1 = Option.some (sid, n) → s.active = sid ∧ sid ≠ [] ∧ AMap.get s.table sid = Option.some n

theorem agrees_step (s : Hs D) (op : HsOp D) (a : Option (Bytes × Nat) × Nat) (h : Agrees s a) (hop : ∀ sid v, op = .create sid v → sid ≠ []) :
    Agrees (s.step op) (lastLive [op] a) := by
  have h1 := step_objs_grow s op
  have h2 := step_table s op
  have h3 := step_active s op
  cases op with
  | create sid v =>
    have hne := hop sid v rfl
    refine ⟨fun o ho => ?_, ?_, fun e => ?_, fun sid' n e => ?_⟩
    · rw [h2] at ho
      simp only at ho
      rw [AMap.get_put_ne _ _ (Ne.symm hne)] at ho
      exact h.key o ho
    · show a.2 + 1 = _
      rw [h1, h.num]
    · cases e
    · have e' : some (sid, a.2) = some (sid', n) := e
      cases e'
      refine ⟨h3, hne, ?_⟩
      rw [h2]
      simp only
      rw [AMap.get_put_self, h.num]
  | remove sid =>
    have key : ∀ o, AMap.get (s.step (.remove sid)).table [] ≠ some o := by
      intro o ho
      rw [h2] at ho
      simp only at ho
      rw [AMap.get_del] at ho
      split at ho
      · cases ho
      · exact h.key o ho
    obtain ⟨a1, a2⟩ := a
    cases a1 with
    | none =>
      refine ⟨key, h.num.trans h1.symm, fun _ => ?_, fun sid' n e => (by cases e)⟩
      have := h.none rfl
      rw [h3]
      simp only
      split
      · rfl
      · exact this
    | some p =>
      obtain ⟨sid', k⟩ := p
      obtain ⟨i1, i2, i3⟩ := h.some sid' k rfl
      by_cases he : sid' = sid
      · have hl : lastLive [HsOp.remove sid (D := D)] (some (sid', k), a2) = (none, a2) := by simp [lastLive, he]
        rw [hl]
        refine ⟨key, h.num.trans h1.symm, fun _ => ?_, fun sid' n e => (by cases e)⟩
        rw [h3]
        simp only
        rw [if_pos]
        rw [← he, i3]
        exact ⟨rfl, i1⟩
      · have hl : lastLive [HsOp.remove sid (D := D)] (some (sid', k), a2) = (some (sid', k), a2) := by simp [lastLive, he]
        rw [hl]
        refine ⟨key, h.num.trans h1.symm, fun e => (by cases e), fun sid'' n e => ?_⟩
        cases e
        refine ⟨?_, i2, ?_⟩
        · rw [h3]
          simp only
          rw [if_neg, i1]
          rw [i1]
          exact fun h => he h.2
        · rw [h2]
          simp only
          rw [AMap.get_del_ne _ he, i3]
  | stop =>
    refine ⟨fun o ho => ?_, h.num.trans h1.symm, fun _ => h3, fun sid' n e => (by cases e)⟩
    rw [h2] at ho
    cases ho
  | take m => exact ⟨by rw [h2]; exact h.key, h.num.trans h1.symm, by rw [h3]; exact h.none, by rw [h2, h3]; exact h.some⟩
  | advance c => exact ⟨by rw [h2]; exact h.key, h.num.trans h1.symm, by rw [h3]; exact h.none, by rw [h2, h3]; exact h.some⟩
  | find sid => exact ⟨by rw [h2]; exact h.key, h.num.trans h1.symm, by rw [h3]; exact h.none, by rw [h2, h3]; exact h.some⟩
  | answer f r => exact ⟨by rw [h2]; exact h.key, h.num.trans h1.symm, by rw [h3]; exact h.none, by rw [h2, h3]; exact h.some⟩
  | openStream f => exact ⟨by rw [h2]; exact h.key, h.num.trans h1.symm, by rw [h3]; exact h.none, by rw [h2, h3]; exact h.some⟩
  | pump k ok => exact ⟨by rw [h2]; exact h.key, h.num.trans h1.symm, by rw [h3]; exact h.none, by rw [h2, h3]; exact h.some⟩

theorem lastLive_cons (op : HsOp D) (ops : List (HsOp D)) (a : Option (Bytes × Nat) × Nat) : lastLive (op :: ops) a = lastLive ops (lastLive [op] a) := by
  cases op <;> rfl

theorem agrees_run (ops : List (HsOp D)) (s : Hs D) (a : Option (Bytes × Nat) × Nat) (h : Agrees s a)
    (hop : ∀ sid v, HsOp.create sid v ∈ ops → sid ≠ []) : Agrees (s.run ops) (lastLive ops a) := by
  induction ops generalizing s a with
  | nil => exact h
  | cons op ops ih =>
    rw [lastLive_cons]
    exact ih (s.step op) _ (agrees_step s op a h (fun sid v e => hop sid v (by rw [← e]; exact List.mem_cons_self)))
      (fun sid v hm => hop sid v (List.mem_cons_of_mem _ hm))

/-- C81: whatever happened before, a message the server sends goes to the session created last, if that has not been removed since, and is
otherwise refused, whether or not other sessions are live. Which session's request is being served plays no role. -/
theorem C81_newest_partial (ops : List (HsOp D)) (hop : ∀ sid v, HsOp.create sid v ∈ ops → sid ≠ []) (m : Outgoing D) :
    (Hs.init.run (ops ++ [.take m])).sends[(takes ops).length]? = some (match (lastLive ops (none, 0)).1 with
      | some (_, o) => .found o m
      | none => .refused) := by
  rw [hs_run_append]
  have hc := (run_calls ops (Hs.init : Hs D) [] calls_init).2.2.2.len
  rw [List.nil_append] at hc
  have ha := agrees_run ops (Hs.init : Hs D) (none, 0) ⟨fun o h => (by simp [Hs.init, AMap.get] at h), rfl, fun _ => rfl, fun _ _ e => (by cases e)⟩ hop
  generalize Hs.init.run ops = s at hc ha
  show (s.sends ++ [_])[_]? = _
  rw [← hc, List.getElem?_concat_length]
  congr 1
  cases hl : (lastLive ops (none, 0)).1 with
  | none =>
    have := ha.none hl
    have h2 : s.activeObj = none := by
      unfold Hs.activeObj
      rw [this]
      cases hg : AMap.get s.table [] with
      | none => rfl
      | some o => exact absurd hg (ha.key o)
    rw [h2]
  | some p =>
    obtain ⟨sid, n⟩ := p
    obtain ⟨h1, _, h3⟩ := ha.some sid n hl
    have h2 : s.activeObj = some n := by
      unfold Hs.activeObj
      rw [h1, h3]
    rw [h2]

/-- C81: with two sessions, a message sent while the first session's request is served (it has found session 0) goes to the second. -/
theorem C81_other_session_counterexample (a b v v' : Bytes) (h : a ≠ b) (m : Outgoing D) :
    let s := Hs.init.run [.create a v, .create b v', .find a, .take m]
    s.finds[0]? = some (some 0) ∧ s.sends[0]? = some (.found 1 m) := by
  have hb : b ≠ a := Ne.symm h
  simp [Hs.run, Hs.step, Hs.create, Hs.take, Hs.find, Hs.lookup, Hs.activeObj, Hs.init, AMap.put, AMap.del, AMap.get, h, hb]

/-- C81: and once the second session is removed, messages are refused although the first is live. -/
theorem C81_refused_counterexample (a b v v' : Bytes) (h : a ≠ b) (ha : a ≠ []) (m : Outgoing D) :
    let s := Hs.init.run [.create a v, .create b v', .remove b, .find a, .take m]
    s.finds[0]? = some (some 0) ∧ s.sends[0]? = some .refused := by
  have hb : b ≠ a := Ne.symm h
  simp [Hs.run, Hs.step, Hs.create, Hs.take, Hs.find, Hs.lookup, Hs.activeObj, Hs.init, Hs.remove, AMap.put, AMap.del, AMap.get, h, hb, ha]

/-! ### Examples -/

/-- A notification queued for the first session before the second opens reaches a stream of the first. -/
example : let n : Notification Empty := ⟨lit "notifications/x", none⟩
    let s := Hs.init.run [.create (lit "mcp-http-1000") [], .find (lit "mcp-http-1000"), .openStream 0, .take (.note n), .advance 0,
      .create (lit "mcp-http-1001") [], .pump 0 true]
    eventsOf s 0 = [(1, serNotification n)] ∧ eventsOf s 1 = [] ∧ s.streams[0]? = some 0 := by
  decide +kernel

/-- A session with a request waiting, removed. -/
example : ∃ (s : Hs Empty) (x : Sess Empty), s.lookup (lit "mcp-http-1000") = some 0 ∧ s.objs[0]? = some x ∧ x.pend.pending = [(lit "7", 0)] := by
  refine ⟨Hs.init.run [.create (lit "mcp-http-1000") [], .take (.request ⟨.int 7, lit "ping", none⟩), .advance 0], _, ?_, rfl, ?_⟩ <;> decide +kernel

example : ∃ (s : Hs Empty) (r : Response Empty) (x : Sess Empty), s.finds[0]? = some (some 0) ∧ s.objs[0]? = some x ∧ keyText r.id ≠ [] ∧
    AMap.get x.pend.pending (keyText r.id) = some 0 := by
  refine ⟨Hs.init.run [.create (lit "mcp-http-1000") [], .take (.request ⟨.int 7, lit "ping", none⟩), .advance 0, .find (lit "mcp-http-1000")],
    ⟨.int 7, some .null, none⟩, _, ?_, rfl, ?_, ?_⟩ <;> decide +kernel

example : ∀ op ∈ ([.create (lit "mcp-http-1001") [], .remove (lit "mcp-http-1001"), .find (lit "mcp-http-1000")] : List (HsOp Empty)),
    KeepsEntry (lit "mcp-http-1000") op := by
  intro op h
  simp only [List.mem_cons, List.not_mem_nil, or_false] at h
  rcases h with rfl | rfl | rfl
  · intro e; revert e; decide
  · intro e; revert e; decide
  · trivial

example : (lastLive ([.create (lit "a") [], .create (lit "b") [], .remove (lit "a")] : List (HsOp Empty)) (none, 0)).1 = some (lit "b", 1) := by
  decide +kernel

end Verif
