import Verif.Reach.Props
import Verif.Whole.SettleProps
import Verif.Ask.SettleProps

/-!
C136, continued: a call of the server ends once the server's transport has let go of its request: when there was no session, when the answer came in, when the session it was sent to was closed.
-/

namespace Verif.Reach

open Verif.Await Verif.Client Verif.Server
open Verif.Http (Hs HsOp LinkOp LinkCfg HtHandlers Sess SendStage closedOut keyText)
open Verif.Whole (lt_of_get goes_append)
open Verif.Ask (asRequest asking)
open Verif.Web (seen)
open Verif.Duplex (get_prefix)

variable {D H : Type} [DblFmt D]

/-! ### Specification -/

/-- The states an endless execution leads through. -/
def states (c : LinkCfg) (w : World D H) (f : Nat → Op D H) : Nat → World D H
  | 0 => w
  | t + 1 => (states c w f t).step c (f t)

/-- The steps of an endless execution before a time. -/
def before (f : Nat → Op D H) (t : Nat) : List (Op D H) := (List.range t).map f

/-- Call `i` has its turns and its future `n` is looked at, again and again. -/
structure Turns (f : Nat → Op D H) (i n : Nat) : Prop where
  deliver : ∀ t, ∃ u, t ≤ u ∧ f u = .deliver n
  go : ∀ t, ∃ u, t ≤ u ∧ f u = .go i

/-- The transport has let go of a send: it found no session, or the promise it filed has been kept or broken. -/
def LetGo (l : Http.Link D) (t : Nat) : Prop :=
  l.hs.sends[t]? = some .refused ∨
  ∃ m ∈ named Hs.init l.srvDid, m.ticket = t ∧ ∃ x so, l.hs.objs[m.obj]? = some x ∧ (m.fut, so) ∈ x.pend.outcomes

/-! ### The promises, whatever is sent -/

/-- What is known of the promises that were filed, whatever the requests are. -/
structure Marks (ops : List (HsOp D)) (s : Hs D) : Prop where
  once : ∀ m ∈ named Hs.init ops, m.ticket < s.sends.length ∧ ∀ o r, s.sends[m.ticket]? ≠ some (.found o (.request r))
  tickets : ((named Hs.init ops).map (·.ticket)).Nodup
  filed : ∀ m ∈ named Hs.init ops, ∃ x key, s.objs[m.obj]? = some x ∧ (m.fut, key) ∈ x.pend.sent

theorem sends_grow (s : Hs D) (op : HsOp D) : s.sends.length ≤ (s.step op).sends.length := by
  rw [step_sends]
  cases op with
  | take m => simp
  | advance k => dsimp only; rw [advance_sends]; split <;> simp
  | _ => exact Nat.le_refl _

theorem marks_step {ops : List (HsOp D)} {op : HsOp D} (h : Marks ops ((Hs.init : Hs D).run ops)) : Marks (ops ++ [op]) ((Hs.init : Hs D).run (ops ++ [op])) := by
  have hrefs := refs_run (Hs.init : Hs D) ops refs_init
  rw [hs_run_concat]
  generalize hs : (Hs.init : Hs D).run ops = s at *
  have hn : named Hs.init (ops ++ [op]) = named Hs.init ops ++ (namedBy s op).toList := by rw [named_snoc, hs]
  -- a promise that is new
  have new : ∀ m, namedBy s op = some m → ∃ r x, op = .advance m.ticket ∧ s.sends[m.ticket]? = some (.found m.obj (.request r)) ∧ s.objs[m.obj]? = some x ∧
      m.fut = x.pend.nextFut ∧ m.req = (s.withId r).1 := by
    intro m hm
    cases op with
    | advance t =>
      simp only [namedBy] at hm
      split at hm
      · rename_i o r hr
        cases hm
        obtain ⟨x, hx⟩ : ∃ x, s.objs[o]? = some x := ⟨_, List.getElem?_eq_some_iff.2 ⟨hrefs.sends t _ o hr rfl, rfl⟩⟩
        exact ⟨r, x, rfl, hr, hx, by simp [hx], rfl⟩
      · cases hm
    | _ => cases hm
  have split_mem : ∀ m ∈ named Hs.init (ops ++ [op]), m ∈ named Hs.init ops ∨ namedBy s op = some m := by
    intro m hm
    rw [hn] at hm
    rcases List.mem_append.1 hm with h1 | h1
    · exact .inl h1
    · exact .inr (by simpa using h1)
  refine ⟨fun m hm => ?_, ?_, fun m hm => ?_⟩
  · have hlt : m.ticket < s.sends.length := by
      rcases split_mem m hm with h1 | h1
      · exact (h.once m h1).1
      · obtain ⟨r, x, -, h2, -⟩ := new m h1
        exact (List.getElem?_eq_some_iff.1 h2).1
    refine ⟨Nat.lt_of_lt_of_le hlt (sends_grow s op), fun o r hr => ?_⟩
    have hold : s.sends[m.ticket]? = some (.found o (.request r)) → op ≠ .advance m.ticket → False := by
      intro h1 h2
      rcases split_mem m hm with h3 | h3
      · exact (h.once m h3).2 o r h1
      · obtain ⟨r, x, h4, -⟩ := new m h3
        exact h2 h4
    have hss := step_sends s op
    cases op with
    | take m' =>
      simp only at hss
      rw [hss, List.getElem?_append_left hlt] at hr
      exact hold hr (fun e => nomatch e)
    | advance c =>
      simp only at hss
      rw [hss, advance_sends] at hr
      by_cases hcm : c = m.ticket
      · subst hcm
        have setc : ∀ st : SendStage D, (s.sends.set m.ticket st)[m.ticket]? = some (.found o (.request r)) → st = .found o (.request r) := by
          intro st h1
          rw [List.getElem?_set_self hlt] at h1
          exact Option.some.inj h1
        split at hr
        · cases setc _ hr
        · cases setc _ hr
        · cases setc _ hr
        · rename_i hne _ _
          exact hne _ _ hr
      · have setc : ∀ st : SendStage D, (s.sends.set c st)[m.ticket]? = some (.found o (.request r)) → s.sends[m.ticket]? = some (.found o (.request r)) := by
          intro st h1
          rwa [List.getElem?_set_ne hcm] at h1
        have hop : (HsOp.advance c : HsOp D) ≠ .advance m.ticket := fun e => by cases e; exact hcm rfl
        split at hr
        · exact hold (setc _ hr) hop
        · exact hold (setc _ hr) hop
        · exact hold (setc _ hr) hop
        · exact hold hr hop
    | _ => simp only at hss; rw [hss] at hr; exact hold hr (fun e => nomatch e)
  · rw [hn, List.map_append]
    refine List.nodup_append.2 ⟨h.tickets, by cases namedBy s op <;> simp, ?_⟩
    intro a ha b hb e
    subst e
    obtain ⟨m, h1, rfl⟩ := List.mem_map.1 ha
    obtain ⟨m', h2, h3⟩ := List.mem_map.1 hb
    obtain ⟨r, x, -, h4, -⟩ := new m' (by simpa using h2)
    rw [h3] at h4
    exact (h.once m h1).2 _ _ h4
  · rcases split_mem m hm with h1 | h1
    · obtain ⟨x, key, h2, h3⟩ := h.filed m h1
      exact ⟨_, key, step_obj s op _ x h2, (effect_grows s op _ x).2 _ h3⟩
    · obtain ⟨r, x, rfl, h2, h3, h4, -⟩ := new m h1
      refine ⟨_, keyText (s.withId r).1.id, step_obj s _ _ x h3, ?_⟩
      simp only [objEffect, h2, if_true]
      rw [h4]
      exact List.mem_append_right _ (List.mem_singleton.2 rfl)

theorem marks_run (ops : List (HsOp D)) : Marks ops ((Hs.init : Hs D).run ops) := by
  induction ops using Whole.snoc_induction with
  | h0 => exact ⟨fun m hm => (nomatch hm), List.nodup_nil, fun m hm => (nomatch hm)⟩
  | h1 ops op ih => exact marks_step ih

/-! ### The server -/

theorem states_run (c : LinkCfg) (w : World D H) (f : Nat → Op D H) (t : Nat) : states c w f t = w.run c (before f t) := by
  induction t with
  | zero => rfl
  | succ t ih => simp only [states, ih, before, List.range_succ, List.map_append, List.map_cons, List.map_nil]; rw [run_snoc]

theorem go_client (c : LinkCfg) (w : World D H) (i : Nat) : (w.step c (.go i)).server = w.server.step (.go i) := by
  simp only [World.step, World.go]; split <;> (try split) <;> rfl

theorem server_next (c : LinkCfg) (w : World D H) (op : Op D H) : ∃ cops, (w.step c op).server = w.server.run cops := by
  have hm := server_step c w op
  generalize (w.step c op).server = s at hm ⊢
  cases hm with
  | stay => exact ⟨[], rfl⟩
  | call api => exact ⟨[.call (sbody api)], rfl⟩
  | go i => exact ⟨[.go i], rfl⟩
  | drop i => exact ⟨[.drop i], rfl⟩
  | change u => exact ⟨[.change u], rfl⟩
  | fill n o => exact ⟨[.fill n o], rfl⟩

theorem server_between (c : LinkCfg) (w : World D H) (f : Nat → Op D H) {t u : Nat} (h : t ≤ u) :
    ∃ cops, (states c w f u).server = (states c w f t).server.run cops := by
  induction h with
  | refl => exact ⟨[], rfl⟩
  | step _ ih =>
    obtain ⟨a, ha⟩ := ih
    obtain ⟨b, hb⟩ := server_next c (states c w f _) (f _)
    exact ⟨a ++ b, by rw [states, hb, ha, Await.run_append]⟩

/-- Given enough time a call has as many turns as one likes. -/
theorem many_turns (c : LinkCfg) (w : World D H) (f : Nat → Op D H) {i n : Nat} (hf : Turns f i n) (m t : Nat) :
    ∃ U, t ≤ U ∧ ∀ u, U ≤ u → ∃ cops, (states c w f u).server = (states c w f t).server.run cops ∧ m ≤ goes i cops := by
  induction m with
  | zero => exact ⟨t, Nat.le_refl _, fun u hu => (server_between c w f hu).imp fun cops h => ⟨h, Nat.zero_le _⟩⟩
  | succ m ih =>
    obtain ⟨U, h1, h2⟩ := ih
    obtain ⟨v, h3, h4⟩ := hf.go U
    refine ⟨v + 1, by omega, fun u hu => ?_⟩
    obtain ⟨a, ha, hm⟩ := h2 v h3
    obtain ⟨b, hb⟩ := server_between c w f hu
    refine ⟨a ++ .go i :: b, ?_, ?_⟩
    · rw [hb, states, h4, go_client, ha, Await.run_append]; rfl
    · rw [goes_append]; simp [goes]; omega

theorem server_inv (c : LinkCfg) (s0 : SSelf D) (cli : Cli D H) (f : Nat → Op D H) (t : Nat) : Await.Inv (states c (World.init s0 cli) f t).server := by
  rw [states_run]
  obtain ⟨cops, h, -, -⟩ := server_run c s0 cli (before f t)
  rw [h]; exact inv_run s0 cops

theorem server_brief (c : LinkCfg) (s0 : SSelf D) (cli : Cli D H) (f : Nat → Op D H) (t i : Nat) (x : SCall D)
    (hx : (states c (World.init s0 cli) f t).server.calls[i]? = some x) : StHas Brief (fun k => ∀ a, Within 5 (k a)) x.st := by
  rw [states_run] at hx
  obtain ⟨cops, h, h2, -⟩ := server_run c s0 cli (before f t)
  rw [h] at hx
  exact stHas_run brief_closed s0 cops (fun b hb => by obtain ⟨api, rfl, -⟩ := h2 b hb; exact brief_sbody api) i x hx

theorem ub_later (c : LinkCfg) (w : World D H) (f : Nat → Op D H) {t u : Nat} (h : t ≤ u) (hu : (states c w f u).server.ub = false) :
    (states c w f t).server.ub = false := by
  obtain ⟨cops, h1⟩ := server_between c w f h
  cases hb : (states c w f t).server.ub with
  | false => rfl
  | true => rw [h1, Await.run_ub cops _ hb, hb] at hu; cases hu

/-- A call waits for its future until the future has ended. -/
theorem waits_on (c : LinkCfg) (w : World D H) (f : Nat → Op D H) {t0 i n : Nat} {k : Client.Outcome D → SBody D} {x : SCall D}
    (hx : (states c w f t0).server.calls[i]? = some x) (hst : x.st = .check n k ∨ x.st = .wait n k) {t : Nat} (ht : t0 ≤ t) :
    (∃ y : SCall D, (states c w f t).server.calls[i]? = some y ∧ (y.st = .check n k ∨ y.st = .wait n k)) ∨
    ∃ t' y o, t0 ≤ t' ∧ t' < t ∧ (states c w f t').server.calls[i]? = some y ∧ (y.st = .check n k ∨ y.st = .wait n k) ∧
      (states c w f t').server.cells[n]? = some (some o) := by
  induction ht with
  | refl => exact .inl ⟨x, hx, hst⟩
  | @step t ht ih =>
    rcases ih with ⟨y, h1, h2⟩ | ⟨t', y, o, h1, h2, h3⟩
    · by_cases ho : ∃ o, (states c w f t).server.cells[n]? = some (some o)
      · obtain ⟨o, ho⟩ := ho
        exact .inr ⟨t, y, o, ht, Nat.lt_succ_self _, h1, h2, ho⟩
      · left
        rw [states]
        have hm := server_step c (states c w f t) (f t)
        generalize ((states c w f t).step c (f t)).server = s at hm ⊢
        have key : ∀ cop : SOp D, ∃ z : SCall D, ((states c w f t).server.step cop).calls[i]? = some z ∧ (z.st = .check n k ∨ z.st = .wait n k) := by
          intro cop
          by_cases hg : cop = .go i
          · subst hg
            cases hub : (states c w f t).server.ub with
            | true => rw [Await.step_ub _ _ hub]; exact ⟨y, h1, h2⟩
            | false =>
              have hs : (states c w f t).server.step (.go i) = (states c w f t).server.go i y := by
                unfold Sys.step
                rw [if_neg (by simp [hub])]
                dsimp only
                rw [h1]
              rw [hs]
              unfold Sys.go
              rcases h2 with h2 | h2 <;> rw [h2] <;> dsimp only <;> split
              · rename_i o ho'; exact absurd ⟨o, ho'⟩ ho
              · exact ⟨_, Await.set_get h1 _, .inr rfl⟩
              · rename_i o ho'; exact absurd ⟨o, ho'⟩ ho
              · exact ⟨y, h1, .inr h2⟩
          · rcases Await.step_call (states c w f t).server cop i y h1 with h | ⟨-, -, h⟩ | ⟨h, -⟩
            · exact ⟨y, h, h2⟩
            · exact ⟨_, h, h2⟩
            · exact absurd h hg
        generalize f t = op at hm
        cases hm with
        | stay => exact ⟨y, h1, h2⟩
        | call api => exact key _
        | go j => exact key _
        | drop j => exact key _
        | change u => exact key _
        | fill m o => exact key _
    · exact .inr ⟨t', y, o, h1, Nat.lt_succ_of_lt h2, h3⟩


/-! ### The transports -/

theorem slots_grow (c : LinkCfg) (w : World D H) (op : Op D H) : w.slots <+: (w.step c op).slots := by
  cases op with
  | go i =>
    simp only [World.step, World.go]
    split
    · split
      · exact List.prefix_append _ _
      · exact List.prefix_rfl
    · exact List.prefix_rfl
  | deliver n =>
    simp only [World.step, World.deliver]
    split
    · split <;> exact List.prefix_rfl
    · exact List.prefix_rfl
  | wire op => simp only [World.step]; split <;> exact List.prefix_rfl
  | heed j env n e =>
    simp only [World.step]
    split
    · exact List.prefix_rfl
    · rw [(heed_server c w j env n e).2]; exact List.prefix_rfl
  | own op => cases op <;> simp only [World.step] <;> (try split) <;> exact List.prefix_rfl
  | _ => exact List.prefix_rfl

theorem slots_between (c : LinkCfg) (w : World D H) (f : Nat → Op D H) {t u : Nat} (h : t ≤ u) :
    (states c w f t).slots <+: (states c w f u).slots := by
  induction h with
  | refl => exact List.prefix_rfl
  | step _ ih => exact ih.trans (slots_grow c _ _)

theorem did_between (c : LinkCfg) (w : World D H) (f : Nat → Op D H) {t u : Nat} (h : t ≤ u) :
    (states c w f t).link.srvDid <+: (states c w f u).link.srvDid := by
  induction h with
  | refl => exact List.prefix_rfl
  | step _ ih => exact ih.trans (move_grows (link_step c _ _)).1

/-- A send that found no session stays so. -/
theorem refused_run (ops : List (HsOp D)) (s : Hs D) {t : Nat} (h : s.sends[t]? = some .refused) : (s.run ops).sends[t]? = some .refused := by
  induction ops generalizing s with
  | nil => exact h
  | cons op ops ih =>
    refine ih (s.step op) ?_
    rw [step_sends]
    cases op with
    | take m => exact getElem?_append_of_some h
    | advance k =>
      dsimp only
      unfold Hs.advance
      have other : ∀ {z y : SendStage D}, s.sends[k]? = some z → z ≠ .refused → (s.sends.set k y)[t]? = some .refused := by
        intro z y hz hne
        have : k ≠ t := fun e => by rw [e, h] at hz; cases hz; exact hne rfl
        rw [List.getElem?_set_ne this]; exact h
      split
      · rename_i hz; exact other hz (fun e => nomatch e)
      · rename_i hz; exact other hz (fun e => nomatch e)
      · rename_i hz; exact other hz (fun e => nomatch e)
      · exact h
    | _ => exact h

/-- What has been let go stays so. -/
theorem LetGo.grow {c : LinkCfg} {l l' : Http.Link D} (hs : Sides c l) (hs' : Sides c l') (hg : l.srvDid <+: l'.srvDid) {t : Nat}
    (h : LetGo l t) : LetGo l' t := by
  obtain ⟨more, hm⟩ := hg
  rcases h with h | ⟨m, h1, h2, x, so, h3, h4⟩
  · left
    rw [hs'.hs, ← hm, hs_run_append]
    rw [hs.hs] at h
    exact refused_run more _ h
  · rw [hs.hs] at h3
    obtain ⟨y, h5, h6, -⟩ := obj_run more _ _ x h3
    refine .inr ⟨m, ?_, h2, y, so, ?_, h6 _ h4⟩
    · rw [← hm, named_append]; exact List.mem_append_left _ h1
    · rw [hs'.hs, ← hm, hs_run_append]; exact h5

theorem states_sides (c : LinkCfg) (s0 : SSelf D) (cli : Cli D H) (f : Nat → Op D H) (t : Nat) : Sides c (states c (World.init s0 cli) f t).link := by
  rw [states_run]; exact sides_world c s0 cli _

theorem get_of_mem {V : Type} {m : List (Nat × V)} {k : Nat} {v : V} (h : (k, v) ∈ m) : ∃ v', AMap.get m k = some v' := by
  cases hg : AMap.get m k with
  | some v' => exact ⟨v', rfl⟩
  | none => exact absurd (List.mem_map.2 ⟨_, h, rfl⟩) (AMap.get_none_iff.1 hg)

/-- The future of a send that has been let go is ready. -/
theorem LetGo.ready {l : Http.Link D} {t : Nat × Request D} (hn : ((named Hs.init l.srvDid).map (·.ticket)).Nodup) (h : LetGo l t.1) : ∃ so, future l t = some so := by
  rcases h with h | ⟨m, h1, h2, x, so, h3, h4⟩
  · exact ⟨_, by unfold future; rw [h]⟩
  · unfold future
    split
    · exact ⟨_, rfl⟩
    · have hf : (named Hs.init l.srvDid).find? (fun m => decide (m.ticket = t.1)) = some m := by
        cases hf : (named Hs.init l.srvDid).find? (fun m => decide (m.ticket = t.1)) with
        | none =>
          have := List.find?_eq_none.1 hf m h1
          simp [h2] at this
        | some m' =>
          have e : m'.ticket = t.1 := by simpa using List.find?_some hf
          rw [eq_of_nodup hn (List.mem_of_find?_eq_some hf) h1 (e.trans h2.symm)]
      rw [hf]
      dsimp only
      rw [h3]
      exact get_of_mem h4

theorem marks_at (c : LinkCfg) (s0 : SSelf D) (cli : Cli D H) (f : Nat → Op D H) (t : Nat) :
    Marks (states c (World.init s0 cli) f t).link.srvDid (states c (World.init s0 cli) f t).link.hs := by
  rw [(states_sides c s0 cli f t).hs]; exact marks_run _

/-- An object keeps a promise until it has been kept or broken: closing the object breaks it. -/
theorem closed_run (ops L : List (HsOp D)) (s : Hs D) (hL : ∀ op ∈ ops, op ∈ L)
    (hI : ∀ (o : Nat) (x : Sess D), s.objs[o]? = some x → x.pend.Inv (SrvEnd L) Overwritten) {o n : Nat} {x y : Sess D}
    (hx : s.objs[o]? = some x) (hn : n < x.pend.nextFut) (h : x.closed = false ∨ ∃ so, (n, so) ∈ x.pend.outcomes)
    (hy : (s.run ops).objs[o]? = some y) : y.closed = false ∨ ∃ so, (n, so) ∈ y.pend.outcomes := by
  induction ops generalizing s x with
  | nil => rw [show (s.run []).objs[o]? = s.objs[o]? from rfl, hx] at hy; cases hy; exact h
  | cons op ops ih =>
    have hin := hI o x hx
    have hgrow := (effect_grows s op o x).1
    have hclose : ∀ text, ∃ so, (n, so) ∈ (x.close text).pend.outcomes := by
      intro text
      rcases hin.accounted hn with ⟨k, hk⟩ | hso
      · exact ⟨closedOut text k, List.mem_append_right _ (List.mem_map.2 ⟨(k, n), hk, rfl⟩)⟩
      · obtain ⟨⟨n', so⟩, hmem, rfl⟩ := List.mem_map.1 hso
        exact ⟨so, List.mem_append_left _ hmem⟩
    refine ih (s.step op) (fun p hp => hL p (List.mem_cons_of_mem _ hp)) (fun o' z hz => run_end [op] L (fun p hp => by
      rw [List.mem_singleton.1 hp]; exact hL op (List.mem_cons_self ..)) s hI o' z hz) (step_obj s op o x hx) ?_ ?_ hy
    · refine Nat.lt_of_lt_of_le hn ?_
      cases op with
      | remove sid => simp only [objEffect]; split <;> exact Nat.le_refl _
      | stop => simp only [objEffect]; split <;> exact Nat.le_refl _
      | answer f r =>
        simp only [objEffect]
        split
        · unfold Sess.resolve PTab.complete
          split
          · exact Nat.le_refl _
          · dsimp only; split <;> exact Nat.le_refl _
        · exact Nat.le_refl _
      | pump k ok => simp only [objEffect]; split <;> exact Nat.le_refl _
      | advance k =>
        simp only [objEffect]
        split
        · split
          · exact Nat.le_succ _
          · exact Nat.le_refl _
        · split <;> exact Nat.le_refl _
        · split <;> exact Nat.le_refl _
        · exact Nat.le_refl _
      | _ => exact Nat.le_refl _
    · rcases h with h | ⟨so, h⟩
      · cases op with
        | remove sid =>
          simp only [objEffect]
          split
          · exact .inr (hclose _)
          · exact .inl h
        | stop =>
          simp only [objEffect]
          split
          · exact .inr (hclose _)
          · exact .inl h
        | answer f r =>
          left
          simp only [objEffect]
          split
          · unfold Sess.resolve; split <;> exact h
          · exact h
        | pump k ok => left; simp only [objEffect]; split <;> exact h
        | advance k =>
          left
          simp only [objEffect]
          split
          · split <;> exact h
          · split <;> exact h
          · split <;> exact h
          · exact h
        | _ => exact .inl h
      · exact .inr ⟨so, hgrow _ h⟩

/-- C136 (partial), the end of a call: when the transport has let go of the request of a call (there was no session, or the promise it filed has been kept or broken), the call comes to its
end, whatever else happens. Missing: that the transport lets go, see `C136_closed_partial`, `C136_answered_partial`. -/
theorem C136_ended_partial (c : LinkCfg) (s0 : SSelf D) (cli : Cli D H) (f : Nat → Op D H) {t0 T i n : Nat}
    (hf : Turns f i n) {k : Client.Outcome D → SBody D} {x : SCall D} {t : Nat × Request D} (hx : (states c (World.init s0 cli) f t0).server.calls[i]? = some x)
    (hst : x.st = .check n k ∨ x.st = .wait n k) (ht : (states c (World.init s0 cli) f t0).slots[n]? = some t)
    (hlet : LetGo (states c (World.init s0 cli) f T).link t.1) :
    ∃ U, ∀ u, U ≤ u → (states c (World.init s0 cli) f u).server.ub = false →
      ∃ (y : SCall D) (r : SOut D), (states c (World.init s0 cli) f u).server.calls[i]? = some y ∧ y.st = .over r := by
  obtain ⟨v, hv1, hv2⟩ := hf.deliver (t0 + T)
  have hslot := get_prefix (slots_between c (World.init s0 cli) f (show t0 ≤ v by omega)) ht
  obtain ⟨so, hso⟩ := LetGo.ready (t := t) (marks_at c s0 cli f v).tickets
    (hlet.grow (states_sides c s0 cli f T) (states_sides c s0 cli f v) (did_between c _ f (show T ≤ v by omega)))
  by_cases hub : (states c (World.init s0 cli) f (v + 1)).server.ub = false
  · have hubv := ub_later c (World.init s0 cli) f (Nat.le_succ v) hub
    have hcell : ∃ o, (states c (World.init s0 cli) f (v + 1)).server.cells[n]? = some (some o) := by
      have hw : (states c (World.init s0 cli) f (v + 1)).server = (states c (World.init s0 cli) f v).server.step (.fill n (seen so)) := by
        simp only [states, hv2, World.step, World.deliver, hslot, hso]
      have hlen : n < (states c (World.init s0 cli) f v).server.cells.length := by
        have hl := (slots_world c s0 cli (before f v)).len
        rw [← states_run] at hl
        rw [← hl]; exact lt_of_get hslot
      rw [hw]
      unfold Sys.step
      rw [if_neg (by simp [hubv])]
      dsimp only
      cases hc : (states c (World.init s0 cli) f v).server.cells[n]? with
      | none => rw [List.getElem?_eq_none_iff] at hc; omega
      | some o =>
        cases o with
        | none => dsimp only; exact ⟨_, by rw [List.getElem?_set_self hlen]⟩
        | some o => dsimp only; exact ⟨o, hc⟩
    have hans : ∃ t' y o, (states c (World.init s0 cli) f t').server.calls[i]? = some y ∧ (y.st = .check n k ∨ y.st = .wait n k) ∧
        (states c (World.init s0 cli) f t').server.cells[n]? = some (some o) := by
      rcases waits_on c (World.init s0 cli) f hx hst (t := v + 1) (by omega) with ⟨y, h1, h2⟩ | ⟨t', y, o, -, -, h3, h4, h5⟩
      · obtain ⟨o, ho⟩ := hcell
        exact ⟨v + 1, y, o, h1, h2, ho⟩
      · exact ⟨t', y, o, h3, h4, h5⟩
    obtain ⟨t', y, o, h1, h2, h3⟩ := hans
    have hwithin : Within 5 (k o) := by
      have hb := server_brief c s0 cli f t' i y h1
      rcases h2 with h2 | h2 <;> rw [h2] at hb <;> exact hb o
    obtain ⟨U, -, hU⟩ := many_turns c (World.init s0 cli) f hf 6 t'
    refine ⟨U, fun u hu hu' => ?_⟩
    obtain ⟨cops, hc1, hc2⟩ := hU u hu
    rcases Await.answered_run cops _ i 5 n k y o h1 h2 h3 hwithin hc2 with h | h
    · rw [hc1, h] at hu'; cases hu'
    · rw [hc1]; exact h
  · exact ⟨v + 1, fun u hu hu' => absurd (ub_later c (World.init s0 cli) f hu hu') hub⟩

/-- C136 (partial), calls to a session that ends: when a call has filed its promise with a session that is open, and the session has been closed some time later (its client ended it, it was
taken away or the server was stopped), the call comes to its end. Missing: a call that files its promise after the session was closed, which waits for ever (`C44_race_counterexample`). -/
theorem C136_closed_partial (c : LinkCfg) (s0 : SSelf D) (cli : Cli D H) (f : Nat → Op D H) {t0 T U i n : Nat}
    (hf : Turns f i n) {k : Client.Outcome D → SBody D} {x : SCall D} {t : Nat × Request D} (hx : (states c (World.init s0 cli) f t0).server.calls[i]? = some x)
    (hst : x.st = .check n k ∨ x.st = .wait n k) (ht : (states c (World.init s0 cli) f t0).slots[n]? = some t) {m : Named D}
    (hm : m ∈ named Hs.init (states c (World.init s0 cli) f T).link.srvDid) (hmt : m.ticket = t.1) {y z : Sess D}
    (hy : (states c (World.init s0 cli) f T).link.hs.objs[m.obj]? = some y) (hopen : y.closed = false)
    (hTU : T ≤ U) (hz : (states c (World.init s0 cli) f U).link.hs.objs[m.obj]? = some z) (hclosed : z.closed = true) :
    ∃ U, ∀ u, U ≤ u → (states c (World.init s0 cli) f u).server.ub = false →
      ∃ (y : SCall D) (r : SOut D), (states c (World.init s0 cli) f u).server.calls[i]? = some y ∧ y.st = .over r := by
  refine C136_ended_partial c s0 cli f (T := U) hf hx hst ht (.inr ⟨m, ?_, hmt, z, ?_⟩)
  · obtain ⟨more, hmore⟩ := did_between c (World.init s0 cli) f hTU
    rw [← hmore, named_append]; exact List.mem_append_left _ hm
  · obtain ⟨more, hmore⟩ := did_between c (World.init s0 cli) f hTU
    have hsT := (states_sides c s0 cli f T).hs
    have hsU := (states_sides c s0 cli f U).hs
    obtain ⟨y', key, hy', hsent⟩ := (marks_at c s0 cli f T).filed m hm
    rw [hy] at hy'; cases hy'
    have hIT : ∀ (o : Nat) (x : Sess D), (states c (World.init s0 cli) f T).link.hs.objs[o]? = some x →
        x.pend.Inv (SrvEnd (states c (World.init s0 cli) f U).link.srvDid) Overwritten := by
      rw [hsT]
      exact run_end _ _ (fun p hp => by rw [← hmore]; exact List.mem_append_left _ hp) (Hs.init : Hs D) (fun o x hx => by simp [Hs.init] at hx)
    rw [hsU, ← hmore, hs_run_append, ← hsT] at hz
    rcases closed_run more _ _ (fun p hp => by rw [← hmore]; exact List.mem_append_right _ hp) hIT hy ((hIT _ _ hy).sentBound _ hsent) (.inl hopen) hz with h | ⟨so, h⟩
    · rw [hclosed] at h; cases h
    · refine ⟨so, ?_, h⟩
      rw [hsU, ← hmore, hs_run_append, ← hsT]; exact hz

end Verif.Reach
