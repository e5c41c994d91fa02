import Verif.Web.Flow
import Verif.Whole.SettleProps

/-!
C116, continued: as long as the io thread of the client transport runs and every exchange has an end, every call of the client that waits gives its result.
-/

namespace Verif.Web

open Verif.Await Verif.Client Verif.Server Verif.Http
open Verif.Whole (asRequest asking snoc_induction lt_of_get goes_append mem_path_sent)
open Verif.InMemory (PlainReq PlainNote)

variable {D H : Type} [DblFmt D]

/-! ### Specification -/

/-- The states an endless execution leads through. -/
def states (c : LinkCfg) (w : World D H) (f : Nat → Op D H) : Nat → World D H
  | 0 => w
  | t + 1 => (states c w f t).step c (f t)

/-- The steps of an endless execution before a time. -/
def before (f : Nat → Op D H) (t : Nat) : List (Op D H) := (List.range t).map f

/-- `SendRequest` goes on, the io thread takes up every post, and every exchange has an end: the reply of the server arrives or the exchange fails (the
time limits of the client see to it). Call `i` has its turns and its future `n` is looked at. -/
structure Turns (c : LinkCfg) (w : World D H) (f : Nat → Op D H) (i n : Nat) : Prop where
  file : ∀ k t, ∃ u, t ≤ u ∧ f u = .wire (.file k)
  post : ∀ k t, ∃ u, t ≤ u ∧ (f u = .wire (.begin k) ∨ ∃ h, f u = .wire (.failEarly h k))
  ends : ∀ j t, ∃ u h, t ≤ u ∧ (f u = .wire (.lose h j) ∨
    (f u = .wire (.arrive h j) ∧ ∀ fl, (states c w f u).link.flights[j]? = some fl → ∃ r, fl.reply = some (some r)))
  deliver : ∀ t, ∃ u, t ≤ u ∧ f u = .deliver n
  go : ∀ t, ∃ u, t ≤ u ∧ f u = .go i

/-! ### The client -/

theorem states_run (c : LinkCfg) (w : World D H) (f : Nat → Op D H) (t : Nat) : states c w f t = w.run c (before f t) := by
  induction t with
  | zero => rfl
  | succ t ih => simp only [states, ih, before, List.range_succ, List.map_append, List.map_cons, List.map_nil]; rw [run_snoc]

theorem go_client (c : LinkCfg) (w : World D H) (i : Nat) : (w.step c (.go i)).client = w.client.step (.go i) := by
  simp only [World.step, World.go]; split <;> (try split) <;> rfl

theorem client_next (c : LinkCfg) (w : World D H) (op : Op D H) : ∃ cops, (w.step c op).client = w.client.run cops := by
  have hm := client_step c w op
  generalize (w.step c op).client = s at hm ⊢
  cases hm with
  | stay => exact ⟨[], rfl⟩
  | call api => exact ⟨[.call (body api)], rfl⟩
  | go i => exact ⟨[.go i], rfl⟩
  | drop i => exact ⟨[.drop i], rfl⟩
  | change u => exact ⟨[.change u], rfl⟩
  | fill n o => exact ⟨[.fill n o], rfl⟩

theorem client_between (c : LinkCfg) (w : World D H) (f : Nat → Op D H) {t u : Nat} (h : t ≤ u) :
    ∃ cops, (states c w f u).client = (states c w f t).client.run cops := by
  induction h with
  | refl => exact ⟨[], rfl⟩
  | step _ ih =>
    obtain ⟨a, ha⟩ := ih
    obtain ⟨b, hb⟩ := client_next c (states c w f _) (f _)
    exact ⟨a ++ b, by rw [states, hb, ha, Await.run_append]⟩

/-- Given enough time a call has as many turns as one likes. -/
theorem many_turns (c : LinkCfg) (w : World D H) (f : Nat → Op D H) {i n : Nat} (hf : Turns c w f i n) (m t : Nat) :
    ∃ U, t ≤ U ∧ ∀ u, U ≤ u → ∃ cops, (states c w f u).client = (states c w f t).client.run cops ∧ m ≤ goes i cops := by
  induction m with
  | zero => exact ⟨t, Nat.le_refl _, fun u hu => (client_between c w f hu).imp fun cops h => ⟨h, Nat.zero_le _⟩⟩
  | succ m ih =>
    obtain ⟨U, h1, h2⟩ := ih
    obtain ⟨v, h3, h4⟩ := hf.go U
    refine ⟨v + 1, by omega, fun u hu => ?_⟩
    obtain ⟨a, ha, hm⟩ := h2 v h3
    obtain ⟨b, hb⟩ := client_between c w f hu
    refine ⟨a ++ .go i :: b, ?_, ?_⟩
    · rw [hb, states, h4, go_client, ha, Await.run_append]; rfl
    · rw [goes_append]; simp [goes]; omega

theorem client_inv (c : LinkCfg) (s0 : Self D) (srv : Srv D H) (f : Nat → Op D H) (t : Nat) : Await.Inv (states c (World.init s0 srv) f t).client := by
  rw [states_run]
  obtain ⟨cops, h, -, -⟩ := client_run c s0 srv (before f t)
  rw [h]; exact inv_run s0 cops

theorem client_brief (c : LinkCfg) (s0 : Self D) (srv : Srv D H) (f : Nat → Op D H) (t i : Nat) (x : CCall D)
    (hx : (states c (World.init s0 srv) f t).client.calls[i]? = some x) : StHas Brief (fun k => ∀ a, Within 5 (k a)) x.st := by
  rw [states_run] at hx
  obtain ⟨cops, h, h2, -⟩ := client_run c s0 srv (before f t)
  rw [h] at hx
  exact stHas_run brief_closed s0 cops (fun b hb => by obtain ⟨api, rfl, -⟩ := h2 b hb; exact brief_body api) i x hx

theorem ub_later (c : LinkCfg) (w : World D H) (f : Nat → Op D H) {t u : Nat} (h : t ≤ u) (hu : (states c w f u).client.ub = false) :
    (states c w f t).client.ub = false := by
  obtain ⟨cops, h1⟩ := client_between c w f h
  cases hb : (states c w f t).client.ub with
  | false => rfl
  | true => rw [h1, Await.run_ub cops _ hb, hb] at hu; cases hu

/-- A call waits for its future until the future has ended. -/
theorem waits_on (c : LinkCfg) (w : World D H) (f : Nat → Op D H) {t0 i n : Nat} {k : Client.Outcome D → CBody D} {x : CCall D}
    (hx : (states c w f t0).client.calls[i]? = some x) (hst : x.st = .check n k ∨ x.st = .wait n k) {t : Nat} (ht : t0 ≤ t) :
    (∃ y : CCall D, (states c w f t).client.calls[i]? = some y ∧ (y.st = .check n k ∨ y.st = .wait n k)) ∨
    ∃ t' y o, t0 ≤ t' ∧ t' < t ∧ (states c w f t').client.calls[i]? = some y ∧ (y.st = .check n k ∨ y.st = .wait n k) ∧
      (states c w f t').client.cells[n]? = some (some o) := by
  induction ht with
  | refl => exact .inl ⟨x, hx, hst⟩
  | @step t ht ih =>
    rcases ih with ⟨y, h1, h2⟩ | ⟨t', y, o, h1, h2, h3⟩
    · by_cases ho : ∃ o, (states c w f t).client.cells[n]? = some (some o)
      · obtain ⟨o, ho⟩ := ho
        exact .inr ⟨t, y, o, ht, Nat.lt_succ_self _, h1, h2, ho⟩
      · left
        rw [states]
        have hm := client_step c (states c w f t) (f t)
        generalize ((states c w f t).step c (f t)).client = s at hm ⊢
        have key : ∀ cop : COp D, ∃ z : CCall D, ((states c w f t).client.step cop).calls[i]? = some z ∧ (z.st = .check n k ∨ z.st = .wait n k) := by
          intro cop
          by_cases hg : cop = .go i
          · subst hg
            cases hub : (states c w f t).client.ub with
            | true => rw [Await.step_ub _ _ hub]; exact ⟨y, h1, h2⟩
            | false =>
              have hs : (states c w f t).client.step (.go i) = (states c w f t).client.go i y := by
                unfold Sys.step
                rw [if_neg (by simp [hub])]
                dsimp only
                rw [h1]
              rw [hs]
              unfold Sys.go
              rcases h2 with h2 | h2 <;> rw [h2] <;> dsimp only <;> split
              · rename_i o ho'; exact absurd ⟨o, ho'⟩ ho
              · exact ⟨_, Await.set_get h1 _, .inr rfl⟩
              · rename_i o ho'; exact absurd ⟨o, ho'⟩ ho
              · exact ⟨y, h1, .inr h2⟩
          · rcases Await.step_call (states c w f t).client cop i y h1 with h | ⟨-, -, h⟩ | ⟨h, -⟩
            · exact ⟨y, h, h2⟩
            · exact ⟨_, h, h2⟩
            · exact absurd h hg
        generalize f t = op at hm
        cases hm with
        | stay => exact ⟨y, h1, h2⟩
        | call api => exact key _
        | go j => exact key _
        | drop j => exact key _
        | change u => exact key _
        | fill m o => exact key _
    · exact .inr ⟨t', y, o, h1, Nat.lt_succ_of_lt h2, h3⟩

/-! ### The request on its way -/

section way

variable {c : LinkCfg} {s0 : Self D} {srv : Srv D H} {f : Nat → Op D H}

theorem inv_at (hc : ∀ t, Carried c (World.init s0 srv) (before f t)) (few : ∀ t, (states c (World.init s0 srv) f t).slots.length < 2 ^ 32) (t : Nat) :
    ∃ l, Inv c (states c (World.init s0 srv) f t) l := by
  have := few t
  rw [states_run] at this ⊢
  exact inv_world c s0 srv (before f t) (hc t) this

/-- A slot that holds a future keeps it, and one that holds a ticket keeps it until the ticket is filed. -/
theorem slot_step (c : LinkCfg) (w : World D H) (op : Op D H) {n : Nat} {sl : Slot} (h : w.slots[n]? = some sl) :
    (w.step c op).slots[n]? = some sl ∨ ∃ t, sl = .ticket t ∧ op = .wire (.file t) := by
  cases op with
  | go i =>
    left
    simp only [World.step, World.go]
    split
    · split
      · exact getElem?_append_of_some h
      · exact h
    · exact h
  | deliver k =>
    left
    simp only [World.step, World.deliver]
    split
    · split <;> exact h
    · exact h
  | wire lop =>
    cases lop with
    | file t =>
      show (w.file c t).slots[n]? = _ ∨ _
      unfold World.file
      split
      · by_cases hs : sl = .ticket t
        · exact .inr ⟨t, hs, rfl⟩
        · left
          show (w.slots.map _)[n]? = _
          rw [List.getElem?_map, h]
          simp [hs]
      · exact .inl h
    | _ => exact .inl h
  | serve i now a env nn e d =>
    left
    simp only [World.step, World.serve]
    split
    · exact h
    · split
      · exact h
      · split <;> exact h
  | _ => exact .inl h

theorem slot_fut (w : World D H) (f : Nat → Op D H) {n m t u : Nat} (h : (states c w f t).slots[n]? = some (.fut m)) (hu : t ≤ u) :
    (states c w f u).slots[n]? = some (.fut m) := by
  induction hu with
  | refl => exact h
  | step _ ih =>
    rcases slot_step c _ (f _) ih with h1 | ⟨t, h1, -⟩
    · exact h1
    · cases h1

/-- Something that stays until a step of a kind comes, and comes again and again. -/
theorem until_turn (w : World D H) (f : Nat → Op D H) {t : Nat} (P : World D H → Prop) (Q : Nat → Prop) (h : P (states c w f t))
    (hstep : ∀ v, t ≤ v → P (states c w f v) → P (states c w f (v + 1)) ∨ Q v) (hturn : ∃ v, t ≤ v ∧ (P (states c w f v) → Q v)) : ∃ v, t ≤ v ∧ P (states c w f v) ∧ Q v := by
  obtain ⟨v, h1, h2⟩ := hturn
  have key : ∀ u, t ≤ u → P (states c w f u) ∨ ∃ v, t ≤ v ∧ P (states c w f v) ∧ Q v := by
    intro u hu
    induction hu with
    | refl => exact .inl h
    | step hu ih =>
      rcases ih with ih | ih
      · rcases hstep _ hu ih with h3 | h3
        · exact .inl h3
        · exact .inr ⟨_, hu, ih, h3⟩
      · exact .inr ih
  rcases key v h1 with h3 | h3
  · exact ⟨v, h1, h3, h2 h3⟩
  · exact h3

/-- The request of a call is filed some day. -/
theorem files (hc : ∀ t, Carried c (World.init s0 srv) (before f t)) (few : ∀ t, (states c (World.init s0 srv) f t).slots.length < 2 ^ 32) {i n : Nat}
    (hf : Turns c (World.init s0 srv) f i n) {t : Nat} {sl : Slot} (h : (states c (World.init s0 srv) f t).slots[n]? = some sl) :
    ∃ u m, t ≤ u ∧ (states c (World.init s0 srv) f u).slots[n]? = some (.fut m) := by
  cases sl with
  | fut m => exact ⟨t, m, Nat.le_refl _, h⟩
  | ticket k =>
    obtain ⟨v, hv1, hv2, hv3⟩ := until_turn (World.init s0 srv) f (fun w => w.slots[n]? = some (.ticket k)) (fun v => f v = .wire (.file k)) h
      (fun v _ hv => by
        rcases slot_step c _ (f v) hv with h1 | ⟨t', h1, h2⟩
        · exact .inl h1
        · cases h1; exact .inr h2)
      (by obtain ⟨v, h1, h2⟩ := hf.file k t; exact ⟨v, h1, fun _ => h2⟩)
    obtain ⟨l, hinv⟩ := inv_at hc few v
    obtain ⟨r, hr⟩ := hinv.live k (List.mem_of_getElem? hv2)
    refine ⟨v + 1, (states c (World.init s0 srv) f v).link.ht.tab.nextFut, by omega, ?_⟩
    rw [states, hv3]
    show ((states c (World.init s0 srv) f v).file c k).slots[n]? = _
    unfold World.file
    simp only [hr]
    rw [List.getElem?_map, hv2]
    simp

/-- The link has an outcome for the future, and keeps it. -/
theorem done_step (w : World D H) (op : Op D H) {m : Nat} (h : Done w.link m) : Done (w.step c op).link m := by
  have hm := link_move c w op
  generalize (w.step c op).link = s' at hm ⊢
  cases hm with
  | stay => exact h
  | wire lop _ _ => exact h.step lop
  | send i r => exact h.step _
  | serve i now a env g n e d => exact h.step _
  | server i now a env n e d sops => exact h

theorem stage_world {w : World D H} {l : List (Nat × Request D)} (ha : PlainReasons c.auth) (h : Inv c w l) (few : w.slots.length < 2 ^ 32) (op : Op D H) {key : Bytes} {st : Bool}
    {k m : Nat} (hstage : Stage w.link key st k) (hp : AMap.get w.link.ht.tab.pending key = some m) : Stage (w.step c op).link key st k ∨ Done (w.step c op).link m := by
  have hm := link_move c w op
  generalize (w.step c op).link = s' at hm ⊢
  cases hm with
  | stay => exact .inl hstage
  | wire lop _ _ => exact stage_step h.sides (h.link ha few) lop hstage hp
  | send i r => exact stage_step h.sides (h.link ha few) _ hstage hp
  | serve i now a env g n e d => exact stage_step h.sides (h.link ha few) _ hstage hp
  | server i now a env n e d sops => exact .inl hstage

theorem sent_world (w : World D H) (op : Op D H) {x : Nat × Bytes} (h : x ∈ w.link.ht.tab.sent) : x ∈ (w.step c op).link.ht.tab.sent := by
  have key : ∀ lop, x ∈ (w.link.step c lop).ht.tab.sent := by
    intro lop
    by_cases hpl : Plainly lop
    · rw [(leaves_link c w.link lop hpl).1.sent]; exact h
    · cases lop with
      | send r =>
        simp only [Link.step, Link.client, Ht.step, Ht.send]
        split <;> exact h
      | file t =>
        simp only [Link.step, Link.client, Ht.step, Ht.file]
        split
        · exact List.mem_append_left _ h
        · exact h
      | _ => exact absurd trivial hpl
  have hm := link_move c w op
  generalize (w.step c op).link = s' at hm ⊢
  cases hm with
  | stay => exact h
  | wire lop _ _ => exact key lop
  | send i r => exact key _
  | serve i now a env g n e d => exact key _
  | server i now a env n e d sops => exact h

theorem sent_on (w : World D H) (f : Nat → Op D H) {x : Nat × Bytes} {t u : Nat} (h : x ∈ (states c w f t).link.ht.tab.sent) (hu : t ≤ u) :
    x ∈ (states c w f u).link.ht.tab.sent := by
  induction hu with
  | refl => exact h
  | step _ ih => exact sent_world _ _ ih

theorem done_on (w : World D H) (f : Nat → Op D H) {m t u : Nat} (h : Done (states c w f t).link m) (hu : t ≤ u) : Done (states c w f u).link m := by
  induction hu with
  | refl => exact h
  | step _ ih => exact done_step _ _ ih

/-- A flight stays where it is. -/
theorem flight_world (w : World D H) (op : Op D H) {j k : Nat} {p : PostFor} (h : ∃ fl, w.link.flights[j]? = some fl ∧ fl.post = k ∧ fl.what = p) :
    ∃ fl, (w.step c op).link.flights[j]? = some fl ∧ fl.post = k ∧ fl.what = p := by
  obtain ⟨fl, h1, h2, h3⟩ := h
  have key : ∀ lop, ∃ fl, (w.link.step c lop).flights[j]? = some fl ∧ fl.post = k ∧ fl.what = p := by
    intro lop
    obtain ⟨fl', h4, h5, h6⟩ := flight_step c w.link lop h1
    exact ⟨fl', h4, h5.trans h2, h6.trans h3⟩
  have hm := link_move c w op
  generalize (w.step c op).link = s' at hm ⊢
  cases hm with
  | stay => exact ⟨fl, h1, h2, h3⟩
  | wire lop _ _ => exact key lop
  | send i r => exact key _
  | serve i now a env g n e d => exact key _
  | server i now a env n e d sops => exact ⟨fl, h1, h2, h3⟩

/-- A request that is filed has its outcome some day, when the io thread runs. -/
theorem completes (hc : ∀ t, Carried c (World.init s0 srv) (before f t)) (few : ∀ t, (states c (World.init s0 srv) f t).slots.length < 2 ^ 32) {i n : Nat}
    (hf : Turns c (World.init s0 srv) f i n) {t m : Nat} {key : Bytes} (hio : ∀ u, t ≤ u → (states c (World.init s0 srv) f u).link.ht.io = .running)
    (hm : (m, key) ∈ (states c (World.init s0 srv) f t).link.ht.tab.sent) : ∃ u, t ≤ u ∧ Done (states c (World.init s0 srv) f u).link m := by
  refine Classical.byContradiction fun hno => ?_
  have hnd : ∀ u, t ≤ u → ¬ Done (states c (World.init s0 srv) f u).link m := fun u hu hd => hno ⟨u, hu, hd⟩
  have hsides : ∀ u, Sides c (states c (World.init s0 srv) f u).link := fun u => by obtain ⟨l, h⟩ := inv_at hc few u; exact h.sides
  have hpend : ∀ u, t ≤ u → AMap.get (states c (World.init s0 srv) f u).link.ht.tab.pending key = some m := by
    intro u hu
    rcases waits_or_done (hsides u) (sent_on _ f hm hu) with h | h
    · exact h
    · exact absurd h (hnd u hu)
  have hlink : ∀ u, LinkInv (states c (World.init s0 srv) f u).link := fun u => by
    obtain ⟨l, h⟩ := inv_at hc few u; exact h.link (hc 0).reasons (few u)
  have hcov : Covered (states c (World.init s0 srv) f t).link := by
    have := few t
    rw [states_run] at this ⊢
    exact covered_world c s0 srv (before f t) (hc t) this
  obtain ⟨st, k, hstage⟩ := hcov key m (hpend t (Nat.le_refl _))
  -- the post keeps its stage until it is sent or over
  have hkeep : ∀ u, t ≤ u → Stage (states c (World.init s0 srv) f u).link key st k := by
    intro u hu
    induction hu with
    | refl => exact hstage
    | @step u hu ih =>
      obtain ⟨l, h⟩ := inv_at hc few u
      rcases stage_world (hc 0).reasons h (few u) (f u) ih (hpend u hu) with h1 | h1
      · exact h1
      · exact absurd h1 (hnd (u + 1) (Nat.le_succ_of_le hu))
  -- it is sent
  have hsent : ∃ v, t ≤ v ∧ (states c (World.init s0 srv) f v).link.ht.posts[k]? = some (.sent (.request key st)) ∧
      ∃ (j : Nat) (fl : Flight), (states c (World.init s0 srv) f v).link.flights[j]? = some fl ∧ fl.post = k ∧ fl.what = .request key st := by
    obtain ⟨v, hv1, hv2⟩ := hf.post k t
    rcases hkeep v hv1 with ⟨b, hb⟩ | h
    · rcases hv2 with hv2 | ⟨hd, hv2⟩
      · refine ⟨v + 1, by omega, ?_⟩
        rw [states, hv2]
        exact begin_flight (hio v hv1) hb
      · refine absurd ?_ (hnd (v + 1) (by omega))
        rw [states, hv2]
        exact early_done (hsides v) hd (hio v hv1) hb (hpend v hv1)
    · exact ⟨v, hv1, h⟩
  obtain ⟨v, hv1, hv2, j, fl, hv3⟩ := hsent
  -- from then on it is under way
  have hway : ∀ u, v ≤ u → (states c (World.init s0 srv) f u).link.ht.posts[k]? = some (.sent (.request key st)) ∧
      ∃ fl, (states c (World.init s0 srv) f u).link.flights[j]? = some fl ∧ fl.post = k ∧ fl.what = .request key st := by
    intro u hu
    induction hu with
    | refl => exact ⟨hv2, fl, hv3⟩
    | @step u hu ih =>
      obtain ⟨h1, h2⟩ := ih
      refine ⟨?_, flight_world _ (f u) h2⟩
      rcases hkeep (u + 1) (Nat.le_trans hv1 (Nat.le_succ_of_le hu)) with ⟨b, hb⟩ | h
      · exfalso
        obtain ⟨fl', h3, h4, h5⟩ := flight_world (c := c) _ (f u) h2
        rcases ((hlink (u + 1)).flights j fl' h3).2.2 with g | g <;> rw [h4, hb] at g <;> cases g
      · exact h.1
  -- and its exchange ends
  obtain ⟨u, hd, hu1, hu2⟩ := hf.ends j v
  obtain ⟨h1, fl', h3, h4, h5⟩ := hway u hu1
  have hut : t ≤ u := by omega
  refine absurd ?_ (hnd (u + 1) (by omega))
  rw [states]
  rcases hu2 with hu2 | ⟨hu2, hu3⟩
  · rw [hu2]
    show Done (Link.lose c _ hd j) m
    obtain ⟨p, w, sent, rep⟩ := fl'
    cases h4
    simp only [Link.lose, h3]
    exact ended_done (hsides u) hd _ _ (hio u hut) h1 (hpend u hut) (not_empty_body _ _)
  · obtain ⟨r, hr⟩ := hu3 fl' h3
    have hb := body_ends (hlink u) h3 h5 hr
    rw [hu2]
    show Done (Link.arrive c _ hd j) m
    obtain ⟨p, w, sent, rep⟩ := fl'
    cases h4
    cases hr
    simp only [Link.arrive, h3]
    exact ended_done (hsides u) hd _ _ (hio u hut) h1 (hpend u hut) hb

/-- A call whose future has an outcome at the transport comes to its end. -/
theorem over_of_outcome (hc : ∀ t, Carried c (World.init s0 srv) (before f t)) (few : ∀ t, (states c (World.init s0 srv) f t).slots.length < 2 ^ 32) {t0 T i n m : Nat}
    (hf : Turns c (World.init s0 srv) f i n) {k : Client.Outcome D → CBody D} {x : CCall D} (hx : (states c (World.init s0 srv) f t0).client.calls[i]? = some x)
    (hst : x.st = .check n k ∨ x.st = .wait n k) (hT : t0 ≤ T) (hm : (states c (World.init s0 srv) f T).slots[n]? = some (.fut m))
    (hso : Done (states c (World.init s0 srv) f T).link m) :
    ∃ U, ∀ u, U ≤ u → (states c (World.init s0 srv) f u).client.ub = false →
      ∃ (y : CCall D) (r : Option (Val D)), (states c (World.init s0 srv) f u).client.calls[i]? = some y ∧ y.st = .over r := by
  obtain ⟨v, hv1, hv2⟩ := hf.deliver T
  have hm' := slot_fut (World.init s0 srv) f hm hv1
  have hso' := done_on (World.init s0 srv) f hso hv1
  obtain ⟨so, hso''⟩ : ∃ so, AMap.get (states c (World.init s0 srv) f v).link.ht.tab.outcomes m = some so := by
    cases hg : AMap.get (states c (World.init s0 srv) f v).link.ht.tab.outcomes m with
    | some so => exact ⟨so, rfl⟩
    | none => exact absurd hso' (AMap.get_none_iff.1 hg)
  by_cases hub : (states c (World.init s0 srv) f (v + 1)).client.ub = false
  · have hubv := ub_later c (World.init s0 srv) f (Nat.le_succ v) hub
    have hcell : ∃ o, (states c (World.init s0 srv) f (v + 1)).client.cells[n]? = some (some o) := by
      have hw : (states c (World.init s0 srv) f (v + 1)).client = (states c (World.init s0 srv) f v).client.step (.fill n (seen so)) := by
        simp only [states, hv2, World.step, World.deliver, hm', hso'']
      have hlen : n < (states c (World.init s0 srv) f v).client.cells.length := by
        obtain ⟨l, h⟩ := inv_at hc few v
        rw [← h.len]; exact lt_of_get hm'
      rw [hw]
      unfold Sys.step
      rw [if_neg (by simp [hubv])]
      dsimp only
      cases hcl : (states c (World.init s0 srv) f v).client.cells[n]? with
      | none => rw [List.getElem?_eq_none_iff] at hcl; omega
      | some o =>
        cases o with
        | none => dsimp only; exact ⟨_, by rw [List.getElem?_set_self hlen]⟩
        | some o => dsimp only; exact ⟨o, hcl⟩
    have hans : ∃ t' y o, (states c (World.init s0 srv) f t').client.calls[i]? = some y ∧ (y.st = .check n k ∨ y.st = .wait n k) ∧
        (states c (World.init s0 srv) f t').client.cells[n]? = some (some o) := by
      rcases waits_on c (World.init s0 srv) f hx hst (t := v + 1) (by omega) with ⟨y, h1, h2⟩ | ⟨t', y, o, -, -, h3, h4, h5⟩
      · obtain ⟨o, ho⟩ := hcell
        exact ⟨v + 1, y, o, h1, h2, ho⟩
      · exact ⟨t', y, o, h3, h4, h5⟩
    obtain ⟨t', y, o, h1, h2, h3⟩ := hans
    have hwithin : Within 5 (k o) := by
      have hb := client_brief c s0 srv f t' i y h1
      rcases h2 with h2 | h2 <;> rw [h2] at hb <;> exact hb o
    obtain ⟨U, -, hU⟩ := many_turns c (World.init s0 srv) f hf 6 t'
    refine ⟨U, fun u hu hu' => ?_⟩
    obtain ⟨cops, hc1, hc2⟩ := hU u hu
    rcases Await.answered_run cops _ i 5 n k y o h1 h2 h3 hwithin hc2 with h | h
    · rw [hc1, h] at hu'; cases hu'
    · rw [hc1]; exact h
  · exact ⟨v + 1, fun u hu hu' => absurd (ub_later c (World.init s0 srv) f hu hu') hub⟩

end way

/-! ### The io thread -/

theorem io_completed (o : HtOpts) (h : HtHandlers D) (s : Ht D) (p : PostFor) (body sid : Bytes) : (s.completed o h p body sid).io = s.io := by
  obtain ⟨t, e, hd, nt, ps, he, -⟩ := completed_eq o h s p body sid
  rw [he]

/-- An io thread that stopped never runs again. -/
theorem io_stopped_step (o : HtOpts) (s : Ht D) (op : HtOp D) (h : s.io = .stopped) : (s.step o op).io = .stopped := by
  cases op with
  | start => simp only [Ht.step, Ht.start, h]
  | send r => simp only [Ht.step, Ht.send]; split <;> exact h
  | file t => simp only [Ht.step, Ht.file]; split <;> exact h
  | note n => simp only [Ht.step, Ht.note]; split <;> exact h
  | begin k => simp only [Ht.step, Ht.begin]; split <;> exact h
  | finish hd k b sid =>
    simp only [Ht.step, Ht.finish]
    split
    · rw [io_completed]; exact h
    · exact h
  | failEarly hd k =>
    simp only [Ht.step, Ht.failEarly]
    split
    · rw [io_completed]; exact h
    · exact h
  | event hd j =>
    simp only [Ht.step, Ht.event]
    split
    · obtain ⟨t, he⟩ := incoming_eq hd s j []
      rw [he]; exact h
    · exact h
  | opened x => simp only [Ht.step, Ht.opened]; split <;> exact h
  | giveUp r => simp only [Ht.step, Ht.giveUp]; split <;> exact h
  | close => simp only [Ht.step, Ht.close]; split <;> first | exact h | rfl

theorem io_running_step (o : HtOpts) (s : Ht D) (op : HtOp D) (h : s.io = .running) : (s.step o op).io ≠ .idle := by
  have hr : s.io ≠ .idle := by rw [h]; decide
  cases op with
  | start => simp only [Ht.step, Ht.start, h]; decide
  | send r => simp only [Ht.step, Ht.send]; split <;> exact hr
  | file t => simp only [Ht.step, Ht.file]; split <;> exact hr
  | note n => simp only [Ht.step, Ht.note]; split <;> exact hr
  | begin k => simp only [Ht.step, Ht.begin]; split <;> exact hr
  | finish hd k b sid =>
    simp only [Ht.step, Ht.finish]
    split
    · rw [io_completed]; exact hr
    · exact hr
  | failEarly hd k =>
    simp only [Ht.step, Ht.failEarly]
    split
    · rw [io_completed]; exact hr
    · exact hr
  | event hd j =>
    simp only [Ht.step, Ht.event]
    split
    · obtain ⟨t, he⟩ := incoming_eq hd s j []
      rw [he]; exact hr
    · exact hr
  | opened x => simp only [Ht.step, Ht.opened]; split <;> exact hr
  | giveUp r => simp only [Ht.step, Ht.giveUp]; split <;> exact hr
  | close => simp only [Ht.step, Ht.close]; split <;> first | exact hr | (intro e; cases e)

theorem io_link {P : Io → Prop} (hP : ∀ (o : HtOpts) (s : Ht D) (op : HtOp D), P s.io → P (s.step o op).io) (c : LinkCfg) (s : Http.Link D) (op : LinkOp D) (h : P s.ht.io) :
    P (s.step c op).ht.io := by
  have cl : ∀ op : HtOp D, P (s.client c op).ht.io := fun op => hP _ _ _ h
  have hended : ∀ (hd : HtHandlers D) (j : Nat) (b sid : Bytes), P (s.ended c hd j b sid).ht.io := by
    intro hd j b sid
    unfold Link.ended
    split
    · exact cl _
    · exact cl _
    · exact h
  cases op with
  | begin k =>
    simp only [Link.step, Link.begin]
    split
    · exact cl _
    · exact h
  | serve i now a f n e d => simp only [Link.step, Link.serve]; split <;> exact h
  | arrive hd i => simp only [Link.step, Link.arrive]; split <;> first | exact hended _ _ _ _ | exact h
  | lose hd i => simp only [Link.step, Link.lose]; split <;> first | exact hended _ _ _ _ | exact h
  | listen now a f n e d => simp only [Link.step, Link.listen]; split <;> exact h
  | event hd j =>
    simp only [Link.step, Link.event]
    split
    · split
      · exact cl _
      · exact h
    · exact h
  | world op => exact h
  | start => exact cl _
  | send r => exact cl _
  | file t => exact cl _
  | note n => exact cl _
  | failEarly hd k => exact cl _
  | close => exact cl _

theorem io_world {P : Io → Prop} (hP : ∀ (o : HtOpts) (s : Ht D) (op : HtOp D), P s.io → P (s.step o op).io) (c : LinkCfg) (w : World D H) (op : Op D H) (h : P w.link.ht.io) :
    P (w.step c op).link.ht.io := by
  have hm := link_move c w op
  generalize (w.step c op).link = s' at hm ⊢
  cases hm with
  | stay => exact h
  | wire lop _ _ => exact io_link hP c _ _ h
  | send i r => exact io_link hP c _ _ h
  | serve i now a env g n e d => exact io_link hP c _ _ h
  | server i now a env n e d sops => exact h

/-! ### The claim -/

/-- C116, partial. However the threads take turns, when the io thread of the client transport takes up the posts and every exchange ends in one way or the other,
every call of the client that waits gives its result, as long as the io thread runs (until `Close`) and the client and the arguments live. Other calls go on
meanwhile. Missing: as for `C116_matched_partial`; what `Close` leaves behind is in C46. -/
theorem C116_settles_partial (c : LinkCfg) (s0 : Self D) (srv : Srv D H) (f : Nat → Op D H) (t0 : Nat)
    (hc : ∀ t, Carried c (World.init s0 srv) (before f t)) (few : ∀ t, (states c (World.init s0 srv) f t).slots.length < 2 ^ 32)
    (i n : Nat) (hf : Turns c (World.init s0 srv) f i n) (x : CCall D) (k : Client.Outcome D → CBody D)
    (hx : (states c (World.init s0 srv) f t0).client.calls[i]? = some x) (hst : x.st = .check n k ∨ x.st = .wait n k)
    (hio : (states c (World.init s0 srv) f t0).link.ht.io = .running) :
    ∃ T, ∀ t, T ≤ t → (states c (World.init s0 srv) f t).link.ht.io = .running → (states c (World.init s0 srv) f t).client.ub = false →
      ∃ (y : CCall D) (r : Option (Val D)), (states c (World.init s0 srv) f t).client.calls[i]? = some y ∧ y.st = .over r := by
  by_cases hrun : ∀ u, t0 ≤ u → (states c (World.init s0 srv) f u).link.ht.io = .running
  · obtain ⟨q, hpath⟩ := mem_path_sent (((client_inv c s0 srv f t0).tr i x hx).waits n k hst)
    obtain ⟨l, hinv⟩ := inv_at hc few t0
    obtain ⟨sl, hsl, -⟩ := hinv.sent i x n q hx hpath
    obtain ⟨u, m, hu1, hu2⟩ := files hc few hf hsl
    obtain ⟨l', hinv'⟩ := inv_at hc few u
    -- the future is complete at once, or filed
    have hdone : ∃ v, u ≤ v ∧ Done (states c (World.init s0 srv) f v).link m := by
      have hi := tab_inv hinv'.sides
      rcases hi.accounted (hinv'.futs m (List.mem_of_getElem? hu2)) with ⟨key, h1⟩ | h1
      · exact completes hc few hf (fun v hv => hrun v (by omega)) (hi.pend key m h1)
      · exact ⟨u, Nat.le_refl _, h1⟩
    obtain ⟨v, hv1, hv2⟩ := hdone
    obtain ⟨U, hU⟩ := over_of_outcome hc few hf hx hst (T := v) (by omega) (slot_fut _ f hu2 hv1) hv2
    exact ⟨U, fun t ht _ hub => hU t ht hub⟩
  · -- an io thread that stopped never runs again
    obtain ⟨T, hT⟩ := Classical.not_forall.1 hrun
    obtain ⟨hT1, hT2⟩ := Classical.not_imp.1 hT
    refine ⟨T, fun t ht h1 _ => ?_⟩
    exfalso
    have hnidle : ∀ u, t0 ≤ u → (states c (World.init s0 srv) f u).link.ht.io ≠ .idle := by
      intro u hu
      induction hu with
      | refl => rw [hio]; decide
      | step hu ih =>
        refine io_world (P := fun io => io ≠ .idle) (fun o s op h => ?_) c _ (f _) ih
        cases he : s.io with
        | idle => exact absurd he h
        | running => exact io_running_step o s op he
        | stopped => rw [io_stopped_step o s op he]; decide
    have hstop : (states c (World.init s0 srv) f T).link.ht.io = .stopped := by
      cases he : (states c (World.init s0 srv) f T).link.ht.io with
      | idle => exact absurd he (hnidle T hT1)
      | running => exact absurd he hT2
      | stopped => rfl
    have hstay : ∀ u, T ≤ u → (states c (World.init s0 srv) f u).link.ht.io = .stopped := by
      intro u hu
      induction hu with
      | refl => exact hstop
      | step _ ih => exact io_world (P := fun io => io = .stopped) (fun o s op h => io_stopped_step o s op h) c _ (f _) ih
    rw [hstay t ht] at h1
    cases h1

end Verif.Web
