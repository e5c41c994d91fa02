import Verif.Reach.Model
import Verif.Http.ReverseProps
import Verif.Web.Lemmas
import Verif.Stdio.DuplexInv

/-! Helper lemmas for C136: the promises an HTTP server has filed for its requests, and the texts it has queued for them. -/

namespace Verif.Reach

open Verif.Http
open Verif.InMemory (PlainReq PlainNote)

variable {D : Type} [DblFmt D]

theorem named_append (s : Hs D) (a b : List (HsOp D)) : named s (a ++ b) = named s a ++ named (s.run a) b := by
  induction a generalizing s with
  | nil => rfl
  | cons op a ih =>
    show (namedBy s op).toList ++ named (s.step op) (a ++ b) = _
    rw [ih]
    simp only [named, List.append_assoc]
    rfl

theorem named_snoc (s : Hs D) (a : List (HsOp D)) (op : HsOp D) : named s (a ++ [op]) = named s a ++ (namedBy (s.run a) op).toList := by
  rw [named_append]
  simp only [named, List.append_nil]

theorem queued_snoc (s : Hs D) (a : List (HsOp D)) (op : HsOp D) : queuedAll s (a ++ [op]) = queuedAll s a ++ (queuedBy (s.run a) op).toList := by
  induction a generalizing s with
  | nil => simp only [List.nil_append, queuedAll, List.append_nil]; rfl
  | cons o a ih =>
    show (queuedBy s o).toList ++ queuedAll (s.step o) (a ++ [op]) = _
    rw [ih]
    simp only [queuedAll, List.append_assoc]
    rfl

/-- What happens to an object keeps its outcomes and what was filed. -/
theorem effect_grows (s : Hs D) (op : HsOp D) (o : Nat) (x : Sess D) :
    (∀ y ∈ x.pend.outcomes, y ∈ (objEffect s op o x).pend.outcomes) ∧ ∀ y ∈ x.pend.sent, y ∈ (objEffect s op o x).pend.sent := by
  have same : (∀ y ∈ x.pend.outcomes, y ∈ x.pend.outcomes) ∧ ∀ y ∈ x.pend.sent, y ∈ x.pend.sent := ⟨fun _ h => h, fun _ h => h⟩
  have close : ∀ t, (∀ y ∈ x.pend.outcomes, y ∈ (x.close t).pend.outcomes) ∧ ∀ y ∈ x.pend.sent, y ∈ (x.close t).pend.sent :=
    fun t => ⟨fun y h => List.mem_append_left _ h, fun y h => h⟩
  cases op with
  | remove sid => simp only [objEffect]; split; exact close _; exact same
  | stop => simp only [objEffect]; split; exact close _; exact same
  | answer f r =>
    simp only [objEffect]
    split
    · refine ⟨fun y h => ?_, fun y h => by rw [resolve_sent]; exact h⟩
      unfold Sess.resolve
      split
      · exact h
      · exact (Web.prefix_complete _ _ _).subset h
    · exact same
  | pump k ok => simp only [objEffect]; split <;> exact same
  | advance c =>
    simp only [objEffect]
    split
    · split
      · refine ⟨fun y h => ?_, fun y h => List.mem_append_left _ h⟩
        show y ∈ (match AMap.get x.pend.pending _ with | some old => x.pend.outcomes ++ [(old, SOut.broken)] | none => x.pend.outcomes)
        split
        · exact List.mem_append_left _ h
        · exact h
      · exact same
    · split <;> exact same
    · split <;> exact same
    · exact same
  | _ => exact same

theorem obj_run (ops : List (HsOp D)) (s : Hs D) (o : Nat) (x : Sess D) (h : s.objs[o]? = some x) :
    ∃ y, (s.run ops).objs[o]? = some y ∧ (∀ z ∈ x.pend.outcomes, z ∈ y.pend.outcomes) ∧ ∀ z ∈ x.pend.sent, z ∈ y.pend.sent := by
  induction ops generalizing s x with
  | nil => exact ⟨x, h, fun _ h => h, fun _ h => h⟩
  | cons op ops ih =>
    obtain ⟨y, h1, h2, h3⟩ := ih (s.step op) _ (step_obj s op o x h)
    obtain ⟨g1, g2⟩ := effect_grows s op o x
    exact ⟨y, h1, fun z hz => h2 z (g1 z hz), fun z hz => h3 z (g2 z hz)⟩

/-- Same method and parameters, and the id that was given, if there was one. -/
def SentAs (r q : Request D) : Prop := q.method = r.method ∧ q.params = r.params ∧ (keyText r.id ≠ [] → q.id = r.id)

theorem withId_sent (s : Hs D) (r : Request D) : SentAs r (s.withId r).1 := by
  by_cases hk : keyText r.id = []
  · rw [srvWithId_made s hk]; exact ⟨rfl, rfl, fun h => absurd hk h⟩
  · rw [srvWithId_given s hk]; exact ⟨rfl, rfl, fun _ => rfl⟩

/-- What is known of the promises that were filed, and of the texts. -/
structure NamesInv (ops : List (HsOp D)) (s : Hs D) : Prop where
  asked : ∀ m ∈ named Hs.init ops, ∃ r, (takes ops)[m.ticket]? = some (.request r) ∧ SentAs r m.req
  sent : ∀ m ∈ named Hs.init ops, ∃ x, s.objs[m.obj]? = some x ∧ (m.fut, keyText m.req.id) ∈ x.pend.sent
  keys : ((named Hs.init ops).map (fun m => keyText m.req.id)).Nodup
  plain : ∀ m ∈ named Hs.init ops, PlainReq m.req
  once : ∀ m ∈ named Hs.init ops, ∀ o r, s.sends[m.ticket]? ≠ some (.found o (.request r))
  tickets : ((named Hs.init ops).map (·.ticket)).Nodup
  filed : ∀ (t o : Nat) (p : Bytes), s.sends[t]? = some (.filed o p) → ∃ m ∈ named Hs.init ops, m.ticket = t ∧ p = serRequest m.req
  queued : ∀ e ∈ queuedAll Hs.init ops, (∃ m ∈ named Hs.init ops, e.2.2 = serRequest m.req) ∨ ∃ n : Notification D, PlainNote n ∧ e.2.2 = serNotification n

theorem takes_prefix (ops : List (HsOp D)) (op : HsOp D) : takes ops <+: takes (ops ++ [op]) := by
  rw [takes_append]; exact List.prefix_append _ _

theorem naming_step {ops : List (HsOp D)} {op : HsOp D} (hp : ∀ m, HsOp.take m ∈ ops ++ [op] → PlainGoing m) (ho : OwnSrvIds (ops ++ [op]))
    (h : NamesInv ops ((Hs.init : Hs D).run ops)) : NamesInv (ops ++ [op]) ((Hs.init : Hs D).run (ops ++ [op])) := by
  have hp' : ∀ m, HsOp.take m ∈ ops → PlainGoing m := fun m hm => hp m (List.mem_append_left _ hm)
  have hids := srvIds_run ops hp' (ownSrvIds_init ho)
  have hpl := hsPlain_run (hsPlain_init (D := D)) ops hp'
  have hrefs := refs_run (Hs.init : Hs D) ops refs_init
  have hcalls := (run_calls ops (Hs.init : Hs D) [] calls_init).2.2.2
  rw [List.nil_append] at hcalls
  rw [hs_run_concat]
  generalize hs : (Hs.init : Hs D).run ops = s at *
  have hn : named Hs.init (ops ++ [op]) = named Hs.init ops ++ (namedBy s op).toList := by rw [named_snoc, hs]
  have hq : queuedAll Hs.init (ops ++ [op]) = queuedAll Hs.init ops ++ (queuedBy s op).toList := by rw [queued_snoc, hs]
  -- a promise that is new
  have new : ∀ m, namedBy s op = some m → ∃ r x, op = .advance m.ticket ∧ s.sends[m.ticket]? = some (.found m.obj (.request r)) ∧ s.objs[m.obj]? = some x ∧
      m.fut = x.pend.nextFut ∧ m.req = (s.withId r).1 := by
    intro m hm
    cases op with
    | advance t =>
      simp only [namedBy] at hm
      split at hm
      · rename_i o r hr
        cases hm
        obtain ⟨x, hx⟩ : ∃ x, s.objs[o]? = some x := ⟨_, List.getElem?_eq_some_iff.2 ⟨hrefs.sends t _ o hr rfl, rfl⟩⟩
        exact ⟨r, x, rfl, hr, hx, by simp [hx], rfl⟩
      · cases hm
    | _ => cases hm
  have split_mem : ∀ m ∈ named Hs.init (ops ++ [op]), m ∈ named Hs.init ops ∨ namedBy s op = some m := by
    intro m hm
    rw [hn] at hm
    rcases List.mem_append.1 hm with h1 | h1
    · exact .inl h1
    · exact .inr (by simpa using h1)
  have old : ∀ m ∈ named Hs.init ops, m ∈ named Hs.init (ops ++ [op]) := fun m hm => by rw [hn]; exact List.mem_append_left _ hm
  refine ⟨fun m hm => ?_, fun m hm => ?_, ?_, fun m hm => ?_, fun m hm o r hr => ?_, ?_, fun t o p ht => ?_, fun e he => ?_⟩
  · rcases split_mem m hm with h1 | h1
    · obtain ⟨r, h2, h3⟩ := h.asked m h1
      exact ⟨r, Duplex.get_prefix (takes_prefix ops op) h2, h3⟩
    · obtain ⟨r, x, -, h2, -, -, h3⟩ := new m h1
      exact ⟨r, Duplex.get_prefix (takes_prefix ops op) (hcalls.found _ _ _ h2), by rw [h3]; exact withId_sent s r⟩
  · rcases split_mem m hm with h1 | h1
    · obtain ⟨x, h2, h3⟩ := h.sent m h1
      exact ⟨_, step_obj s op _ x h2, (effect_grows s op _ x).2 _ h3⟩
    · obtain ⟨r, x, rfl, h2, h3, h4, h5⟩ := new m h1
      refine ⟨_, step_obj s _ _ x h3, ?_⟩
      simp only [objEffect, h2, if_true]
      rw [h4, h5]
      exact List.mem_append_right _ (List.mem_singleton.2 rfl)
  · rw [hn, List.map_append]
    refine List.nodup_append.2 ⟨h.keys, by cases namedBy s op <;> simp, ?_⟩
    intro a ha b hb e
    subst e
    obtain ⟨m, h1, rfl⟩ := List.mem_map.1 ha
    obtain ⟨m', h2, h3⟩ := List.mem_map.1 hb
    obtain ⟨r, x, -, h4, -, -, h5⟩ := new m' (by simpa using h2)
    obtain ⟨y, h6, h7⟩ := h.sent m h1
    refine (srvIds_filing hids (ownSrvIds_init ho) h4 (hpl.found _ _ (List.mem_of_getElem? h4))).1 ?_
    rw [← h5, h3]
    exact hids.sent y (List.mem_of_getElem? h6) _ _ h7
  · rcases split_mem m hm with h1 | h1
    · exact h.plain m h1
    · obtain ⟨r, x, -, h2, -, -, h3⟩ := new m h1
      rw [h3]
      exact (srvIds_filing hids (ownSrvIds_init ho) h2 (hpl.found _ _ (List.mem_of_getElem? h2))).2.1
  · have hlt : m.ticket < s.sends.length := by
      rcases split_mem m hm with h1 | h1
      · obtain ⟨r, h2, -⟩ := h.asked m h1
        rw [hcalls.len]
        exact (List.getElem?_eq_some_iff.1 h2).1
      · obtain ⟨r, x, -, h2, -⟩ := new m h1
        exact (List.getElem?_eq_some_iff.1 h2).1
    have hold : s.sends[m.ticket]? = some (.found o (.request r)) → op ≠ .advance m.ticket → False := by
      intro h1 h2
      rcases split_mem m hm with h3 | h3
      · exact h.once m h3 o r h1
      · obtain ⟨r, x, h4, -⟩ := new m h3
        exact h2 h4
    have hss := step_sends s op
    cases op with
    | take m' =>
      simp only at hss
      rw [hss, List.getElem?_append_left hlt] at hr
      exact hold hr (fun e => nomatch e)
    | advance c =>
      simp only at hss
      rw [hss, advance_sends] at hr
      by_cases hcm : c = m.ticket
      · subst hcm
        have setc : ∀ st : SendStage D, (s.sends.set m.ticket st)[m.ticket]? = some (.found o (.request r)) → st = .found o (.request r) := by
          intro st h1
          rw [List.getElem?_set_self hlt] at h1
          exact Option.some.inj h1
        split at hr
        · cases setc _ hr
        · cases setc _ hr
        · cases setc _ hr
        · rename_i hne _ _
          exact hne _ _ hr
      · have setc : ∀ st : SendStage D, (s.sends.set c st)[m.ticket]? = some (.found o (.request r)) → s.sends[m.ticket]? = some (.found o (.request r)) := by
          intro st h1
          rwa [List.getElem?_set_ne hcm] at h1
        have hop : (HsOp.advance c : HsOp D) ≠ .advance m.ticket := fun e => by cases e; exact hcm rfl
        split at hr
        · exact hold (setc _ hr) hop
        · exact hold (setc _ hr) hop
        · exact hold (setc _ hr) hop
        · exact hold hr hop
    | _ => simp only at hss; rw [hss] at hr; exact hold hr (fun e => nomatch e)
  · rw [hn, List.map_append]
    refine List.nodup_append.2 ⟨h.tickets, by cases namedBy s op <;> simp, ?_⟩
    intro a ha b hb e
    subst e
    obtain ⟨m, h1, rfl⟩ := List.mem_map.1 ha
    obtain ⟨m', h2, h3⟩ := List.mem_map.1 hb
    obtain ⟨r, x, -, h4, -⟩ := new m' (by simpa using h2)
    rw [h3] at h4
    exact h.once m h1 _ _ h4
  · have keep : s.sends[t]? = some (.filed o p) → ∃ m ∈ named Hs.init (ops ++ [op]), m.ticket = t ∧ p = serRequest m.req := by
      intro h1
      obtain ⟨m, h2, h3⟩ := h.filed t o p h1
      exact ⟨m, old m h2, h3⟩
    have hss := step_sends s op
    cases op with
    | take m =>
      simp only at hss
      rw [hss] at ht
      rcases getElem?_concat_cases ht with h1 | h1
      · exact keep h1
      · split at h1 <;> cases h1
    | advance c =>
      simp only at hss
      rw [hss, advance_sends] at ht
      have setc : ∀ st : SendStage D, (s.sends.set c st)[t]? = some (.filed o p) → s.sends[t]? = some (.filed o p) ∨ t = c ∧ st = .filed o p := by
        intro st h1
        rw [List.getElem?_set] at h1
        split at h1
        · split at h1
          · exact .inr ⟨by omega, Option.some.inj h1⟩
          · cases h1
        · exact .inl h1
      split at ht
      · rename_i o' r hr
        rcases setc _ ht with h1 | ⟨rfl, h1⟩
        · exact keep h1
        · cases h1
          refine ⟨⟨t, o, ((s.objs[o]?).map (·.pend.nextFut)).getD 0, (s.withId r).1⟩, ?_, rfl, rfl⟩
          rw [hn]
          refine List.mem_append_right _ ?_
          simp only [namedBy, hr, Option.toList_some, List.mem_singleton]
      · rcases setc _ ht with h1 | ⟨-, h1⟩
        · exact keep h1
        · cases h1
      · rcases setc _ ht with h1 | ⟨-, h1⟩
        · exact keep h1
        · cases h1
      · exact keep ht
    | _ => simp only at hss; rw [hss] at ht; exact keep ht
  · rw [hq] at he
    rcases List.mem_append.1 he with h1 | h1
    · rcases h.queued e h1 with ⟨m, h2, h3⟩ | h2
      · exact .inl ⟨m, old m h2, h3⟩
      · exact .inr h2
    · have h1 : queuedBy s op = some e := by simpa using h1
      cases op with
      | advance c =>
        simp only [queuedBy] at h1
        split at h1
        · rename_i o n hr
          cases h1
          exact .inr ⟨n, hpl.found _ _ (List.mem_of_getElem? hr), rfl⟩
        · rename_i o p hr
          cases h1
          obtain ⟨m, h2, -, h3⟩ := h.filed c o p hr
          exact .inl ⟨m, old m h2, h3⟩
        · cases h1
      | _ => cases h1

theorem naming_run (ops : List (HsOp D)) (hp : ∀ m, HsOp.take m ∈ ops → PlainGoing m) (ho : OwnSrvIds ops) : NamesInv ops ((Hs.init : Hs D).run ops) := by
  induction ops using Whole.snoc_induction with
  | h0 =>
    refine ⟨fun m h => (by cases h), fun m h => (by cases h), List.nodup_nil, fun m h => (by cases h), fun m h => (by cases h), List.nodup_nil, fun t o p h => ?_, fun e h => (by cases h)⟩
    simp [Hs.run, Hs.init] at h
  | h1 ops op ih => exact naming_step hp ho (ih (fun m hm => hp m (List.mem_append_left _ hm)) (ownSrvIds_init ho))

/-- The texts of the events are those of the requests that were filed, or of notifications. -/
theorem event_named (ops : List (HsOp D)) (hp : ∀ m, HsOp.take m ∈ ops → PlainGoing m) (ho : OwnSrvIds ops) {j k i : Nat} {payload : Bytes} {ok : Bool}
    (hj : ((Hs.init : Hs D).run ops).events[j]? = some (k, (i, payload), ok)) :
    (∃ m ∈ named Hs.init ops, payload = serRequest m.req) ∨ ∃ n : Notification D, PlainNote n ∧ payload = serNotification n := by
  have hmem := List.mem_of_getElem? hj
  have hlt := (refs_run (Hs.init : Hs D) ops refs_init).events _ hmem
  obtain ⟨o, hob⟩ : ∃ o, ((Hs.init : Hs D).run ops).streams[k]? = some o := ⟨_, List.getElem?_eq_some_iff.2 ⟨hlt, rfl⟩⟩
  obtain ⟨h1, -⟩ := C44_delivery ops o
  have he : payload ∈ (eventsOf ((Hs.init : Hs D).run ops) o ++ waitingFor ((Hs.init : Hs D).run ops) o).map (·.2) := by
    refine List.mem_map.2 ⟨(i, payload), List.mem_append_left _ ?_, rfl⟩
    unfold eventsOf
    exact List.mem_map.2 ⟨_, List.mem_filter.2 ⟨hmem, by simpa using hob⟩, rfl⟩
  rw [h1] at he
  obtain ⟨x, hx, rfl⟩ := List.mem_map.1 he
  exact (naming_run ops hp ho).queued x (List.mem_filter.1 hx).1

end Verif.Reach
