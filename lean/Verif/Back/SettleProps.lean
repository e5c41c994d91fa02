import Verif.Back.Props
import Verif.Share.SettleProps
import Verif.Ask.SettleProps

/-!
C134, continued: a call over the shared-memory transport of the server whose request the client answers, with an answer for which there is room, gives its result, whatever becomes of the other calls.
-/

set_option linter.unusedSectionVars false

namespace Verif.Back

open Verif.Await Verif.Client Verif.Server Verif.Shm
open Verif.Whole (snoc_induction lt_of_get goes_append mem_path_sent)
open Verif.Ask (asRequest asking)
open Verif.Share (NOp seen actor reserved Up up_run Ends inbox inbox_stays outcomes_mono Busy take_takes busy_run asked_step asked_mono complete_keys)
open Verif.Duplex (get_prefix)
open Verif.Stdio (idText)
open Verif.InMemory (PlainReq PlainNote PlainOut)

variable {D H : Type} [DblFmt D]

/-! ### Specification -/

/-- The states an endless execution leads through. -/
def states (c : Cfg) (x : Bool) (w : World D H) (f : Nat → Op D H) : Nat → World D H
  | 0 => w
  | t + 1 => (states c x w f t).step c x (f t)

/-- The steps of an endless execution before a time. -/
def before (f : Nat → Op D H) (t : Nat) : List (Op D H) := (List.range t).map f

/-- The threads of both transports, each thread that is sending a request, and call `i`, with its future `n`, have their turns again and again; and so has the thread that handles the
request of this call: it comes to an answer that is no longer than the limits, at a time when the queue of the server is not full. -/
structure Turns (c : Cfg) (x : Bool) (w : World D H) (f : Nat → Op D H) (i n : Nat) : Prop where
  file : ∀ (t j : Nat), (states c x w f t).waits[j]? = some n → ∃ u j', t ≤ u ∧ f u = .file j' ∧ (states c x w f u).waits[j']? = some n
  send : ∀ t e, e ∈ ((states c x w f t).net.get x).sending → ∃ u j, t ≤ u ∧ f u = .wire (.deliver x j) ∧ ((states c x w f u).net.get x).sending[j]? = some e
  take : ∀ y t, ∃ u, t ≤ u ∧ f u = .wire (.take y)
  handle : ∀ y t, ∃ u, t ≤ u ∧ f u = .wire (.handle y)
  serve : ∀ t m q, (states c x w f t).futs[n]? = some (some m) → (m, q) ∈ ((states c x w f t).net.get x).asked → q ∈ ((states c x w f t).net.get (!x)).jobs →
    ∃ u j env r, t ≤ u ∧ f u = .serve j env ∧ ((states c x w f u).net.get (!x)).jobs[j]? = some q ∧ (onRequest env (states c x w f u).cli q).1 = .answer r ∧
      (serResponse ⟨q.id, r.result, r.error⟩).length ≤ c.sizeA ∧ (serResponse ⟨q.id, r.result, r.error⟩).length ≤ c.sizeB ∧
      ((states c x w f u).net.get x).queue.length < c.count
  deliver : ∀ t, ∃ u, t ≤ u ∧ f u = .deliver n
  go : ∀ t, ∃ u, t ≤ u ∧ f u = .go i

/-! ### The server -/

theorem states_run (c : Cfg) (x : Bool) (w : World D H) (f : Nat → Op D H) (t : Nat) : states c x w f t = w.run c x (before f t) := by
  induction t with
  | zero => rfl
  | succ t ih => simp only [states, ih, before, List.range_succ, List.map_append, List.map_cons, List.map_nil]; rw [run_snoc]

theorem before_succ (f : Nat → Op D H) (t : Nat) : before f (t + 1) = before f t ++ [f t] := by
  simp [before, List.range_succ]

theorem server_next (c : Cfg) (x : Bool) (w : World D H) (op : Op D H) : ∃ cops, (w.step c x op).server = w.server.run cops := by
  have hm := server_step c x w op
  generalize (w.step c x op).server = s at hm ⊢
  cases hm with
  | stay => exact ⟨[], rfl⟩
  | call api => exact ⟨[.call (sbody api)], rfl⟩
  | go i => exact ⟨[.go i], rfl⟩
  | drop i => exact ⟨[.drop i], rfl⟩
  | change u => exact ⟨[.change u], rfl⟩
  | fill n o => exact ⟨[.fill n o], rfl⟩

theorem server_between (c : Cfg) (x : Bool) (w : World D H) (f : Nat → Op D H) {t u : Nat} (h : t ≤ u) :
    ∃ cops, (states c x w f u).server = (states c x w f t).server.run cops := by
  induction h with
  | refl => exact ⟨[], rfl⟩
  | step _ ih =>
    obtain ⟨a, ha⟩ := ih
    obtain ⟨b, hb⟩ := server_next c x (states c x w f _) (f _)
    exact ⟨a ++ b, by rw [states, hb, ha, Await.run_append]⟩

theorem go_server (c : Cfg) (x : Bool) (w : World D H) (i : Nat) : (w.step c x (.go i)).server = w.server.step (.go i) := by
  simp only [World.step, World.go]; split <;> (try split) <;> (try split) <;> rfl

theorem many_turns (c : Cfg) (x : Bool) (w : World D H) (f : Nat → Op D H) {i : Nat} (hf : ∀ t, ∃ u, t ≤ u ∧ f u = .go i) (m t : Nat) :
    ∃ U, t ≤ U ∧ ∀ u, U ≤ u → ∃ cops, (states c x w f u).server = (states c x w f t).server.run cops ∧ m ≤ goes i cops := by
  induction m with
  | zero => exact ⟨t, Nat.le_refl _, fun u hu => (server_between c x w f hu).imp fun cops h => ⟨h, Nat.zero_le _⟩⟩
  | succ m ih =>
    obtain ⟨U, h1, h2⟩ := ih
    obtain ⟨v, h3, h4⟩ := hf U
    refine ⟨v + 1, by omega, fun u hu => ?_⟩
    obtain ⟨a, ha, hm⟩ := h2 v h3
    obtain ⟨b, hb⟩ := server_between c x w f hu
    refine ⟨a ++ .go i :: b, ?_, ?_⟩
    · rw [hb, states, h4, go_server, ha, Await.run_append]; rfl
    · rw [goes_append]; simp [goes]; omega

theorem server_inv (c : Cfg) (x : Bool) (s0 : SSelf D) (cli : Cli D H) (f : Nat → Op D H) (t : Nat) : Await.Inv (states c x (World.init c s0 cli) f t).server := by
  rw [states_run]
  obtain ⟨cops, h, -, -⟩ := server_run c x s0 cli (before f t)
  rw [h]; exact inv_run s0 cops

theorem server_brief (c : Cfg) (x : Bool) (s0 : SSelf D) (cli : Cli D H) (f : Nat → Op D H) (t i : Nat) (z : SCall D)
    (hz : (states c x (World.init c s0 cli) f t).server.calls[i]? = some z) : StHas Brief (fun k => ∀ a, Within 5 (k a)) z.st := by
  rw [states_run] at hz
  obtain ⟨cops, h, h2, -⟩ := server_run c x s0 cli (before f t)
  rw [h] at hz
  exact stHas_run brief_closed s0 cops (fun b hb => by obtain ⟨api, rfl, -⟩ := h2 b hb; exact brief_sbody api) i z hz

theorem ub_later (c : Cfg) (x : Bool) (w : World D H) (f : Nat → Op D H) {t u : Nat} (h : t ≤ u) (hu : (states c x w f u).server.ub = false) : (states c x w f t).server.ub = false := by
  obtain ⟨cops, h1⟩ := server_between c x w f h
  cases hb : (states c x w f t).server.ub with
  | false => rfl
  | true => rw [h1, Await.run_ub cops _ hb, hb] at hu; cases hu

/-- A call waits for its future until the future has ended. -/
theorem waits_on (c : Cfg) (x : Bool) (w : World D H) (f : Nat → Op D H) {t0 i n : Nat} {k : Client.Outcome D → SBody D} {z : SCall D}
    (hz : (states c x w f t0).server.calls[i]? = some z) (hst : z.st = .check n k ∨ z.st = .wait n k) {t : Nat} (ht : t0 ≤ t) :
    (∃ y : SCall D, (states c x w f t).server.calls[i]? = some y ∧ (y.st = .check n k ∨ y.st = .wait n k)) ∨
    ∃ t' y o, t0 ≤ t' ∧ t' < t ∧ (states c x w f t').server.calls[i]? = some y ∧ (y.st = .check n k ∨ y.st = .wait n k) ∧
      (states c x w f t').server.cells[n]? = some (some o) := by
  induction ht with
  | refl => exact .inl ⟨z, hz, hst⟩
  | @step t ht ih =>
    rcases ih with ⟨y, h1, h2⟩ | ⟨t', y, o, h1, h2, h3⟩
    · by_cases ho : ∃ o, (states c x w f t).server.cells[n]? = some (some o)
      · obtain ⟨o, ho⟩ := ho
        exact .inr ⟨t, y, o, ht, Nat.lt_succ_self _, h1, h2, ho⟩
      · left
        rw [states]
        have hm := server_step c x (states c x w f t) (f t)
        generalize ((states c x w f t).step c x (f t)).server = s at hm ⊢
        have key : ∀ cop : SOp D, ∃ z : SCall D, ((states c x w f t).server.step cop).calls[i]? = some z ∧ (z.st = .check n k ∨ z.st = .wait n k) := by
          intro cop
          by_cases hg : cop = .go i
          · subst hg
            cases hub : (states c x w f t).server.ub with
            | true => rw [Await.step_ub _ _ hub]; exact ⟨y, h1, h2⟩
            | false =>
              have hs : (states c x w f t).server.step (.go i) = (states c x w f t).server.go i y := by
                unfold Sys.step
                rw [if_neg (by simp [hub])]
                dsimp only
                rw [h1]
              rw [hs]
              unfold Sys.go
              rcases h2 with h2 | h2 <;> rw [h2] <;> dsimp only <;> split
              · rename_i o ho'; exact absurd ⟨o, ho'⟩ ho
              · exact ⟨_, Await.set_get h1 _, .inr rfl⟩
              · rename_i o ho'; exact absurd ⟨o, ho'⟩ ho
              · exact ⟨y, h1, .inr h2⟩
          · rcases Await.step_call (states c x w f t).server cop i y h1 with h | ⟨-, -, h⟩ | ⟨h, -⟩
            · exact ⟨y, h, h2⟩
            · exact ⟨_, h, h2⟩
            · exact absurd h hg
        generalize f t = op at hm
        cases hm with
        | stay => exact ⟨y, h1, h2⟩
        | call api => exact key _
        | go j => exact key _
        | drop j => exact key _
        | change u => exact key _
        | fill m o => exact key _
    · exact .inr ⟨t', y, o, h1, Nat.lt_succ_of_lt h2, h3⟩

/-- What a call has done is not undone. -/
theorem path_between (c : Cfg) (x : Bool) (w : World D H) (f : Nat → Op D H) {t u i : Nat} (h : t ≤ u) {z : SCall D} (hz : (states c x w f t).server.calls[i]? = some z) :
    ∃ y : SCall D, (states c x w f u).server.calls[i]? = some y ∧ z.path <+: y.path := by
  have one : ∀ (s : SSys D) (cop : SOp D) (y : SCall D), s.calls[i]? = some y → ∃ y' : SCall D, (s.step cop).calls[i]? = some y' ∧ y.path <+: y'.path := by
    intro s cop y hy
    rcases Await.step_call s cop i y hy with h | ⟨-, -, h⟩ | ⟨-, -, h⟩
    · exact ⟨y, h, List.prefix_rfl⟩
    · exact ⟨_, h, List.prefix_rfl⟩
    · rw [h]
      unfold Sys.go
      (repeat' split) <;> first
        | exact ⟨y, hy, List.prefix_rfl⟩
        | exact ⟨_, Await.set_get hy _, List.prefix_append _ _⟩
        | exact ⟨_, Await.set_get hy _, List.prefix_rfl⟩
  have many : ∀ (cops : List (SOp D)) (s : SSys D) (y : SCall D), s.calls[i]? = some y → ∃ y' : SCall D, (s.run cops).calls[i]? = some y' ∧ y.path <+: y'.path := by
    intro cops
    induction cops with
    | nil => exact fun s y hy => ⟨y, hy, List.prefix_rfl⟩
    | cons cop cops ih =>
      intro s y hy
      obtain ⟨y1, h1, h2⟩ := one s cop y hy
      obtain ⟨y2, h3, h4⟩ := ih _ y1 h1
      exact ⟨y2, h3, h2.trans h4⟩
  obtain ⟨cops, h1⟩ := server_between c x w f h
  rw [h1]
  exact many cops _ z hz

/-- A future that has been given stays what it is, and its outcome too. -/
theorem futs_keep {c : Cfg} {x : Bool} {w : World D H} (hl : Link x w) (op : Op D H) {n m : Nat} (h : w.futs[n]? = some (some m)) : (w.step c x op).futs[n]? = some (some m) := by
  cases op with
  | go i =>
    simp only [World.step, World.go]
    split
    · split
      · split <;> exact get_prefix (List.prefix_append _ _) h
      · exact h
    · exact h
  | file i =>
    simp only [World.step, World.file]
    split
    · rename_i k hk
      have hne : k ≠ n := fun e => by rw [← e, hl.waiting i k hk] at h; cases h
      show (w.futs.set k _)[n]? = _
      rw [List.getElem?_set_ne hne]; exact h
    · exact h
  | deliver k =>
    simp only [World.step, World.deliver]
    split
    · split <;> exact h
    · exact h
  | wire op => simp only [World.step]; split <;> exact h
  | serve i env =>
    simp only [World.step, World.serve]
    split
    · exact h
    · split
      · exact h
      · split <;> exact h
  | own op => simp only [World.step]; split <;> (try split) <;> exact h
  | call api => exact h
  | drop i => exact h
  | change u => exact h

/-- What holds of each step of the pair holds of each step of the system. -/
theorem world_keep {c : Cfg} {x : Bool} {w : World D H} {P : Net D → Prop} (h : P w.net) (op : Op D H) (hs : ∀ nop ∈ netOps x w op, P w.net → P (w.net.step c nop)) : P (w.step c x op).net := by
  rw [net_step]
  have hl := netOps_length x w op
  cases hn : netOps x w op with
  | nil => exact h
  | cons a l =>
    rw [hn] at hl
    cases l with
    | nil => exact hs a (by rw [hn]; exact List.mem_singleton.2 rfl) h
    | cons b l => simp at hl

/-- A call whose future has an outcome at the transport comes to its end. -/
theorem over_of_outcome (c : Cfg) (x : Bool) (s0 : SSelf D) (cli : Cli D H) (f : Nat → Op D H) {t0 T i n m : Nat}
    (hf : Turns c x (World.init c s0 cli) f i n) {k : Client.Outcome D → SBody D}
    {z : SCall D} {so : Shm.Outcome D} (hz : (states c x (World.init c s0 cli) f t0).server.calls[i]? = some z)
    (hst : z.st = .check n k ∨ z.st = .wait n k) (hT : t0 ≤ T) (hm : (states c x (World.init c s0 cli) f T).futs[n]? = some (some m))
    (hso : (m, so) ∈ ((states c x (World.init c s0 cli) f T).net.get x).tab.outcomes) :
    ∃ U, ∀ u, U ≤ u → (states c x (World.init c s0 cli) f u).server.ub = false →
      ∃ (y : SCall D) (r : SOut D), (states c x (World.init c s0 cli) f u).server.calls[i]? = some y ∧ y.st = .over r := by
  obtain ⟨v, hv1, hv2⟩ := hf.deliver T
  have hgrow : ∀ u, T ≤ u → (states c x (World.init c s0 cli) f u).futs[n]? = some (some m) ∧ (m, so) ∈ ((states c x (World.init c s0 cli) f u).net.get x).tab.outcomes := by
    intro u hu
    induction hu with
    | refl => exact ⟨hm, hso⟩
    | @step u _ ih =>
      refine ⟨futs_keep (by rw [states_run]; exact link_world c x s0 cli _) _ ih.1, ?_⟩
      exact world_keep (P := fun s => (m, so) ∈ (s.get x).tab.outcomes) ih.2 _ fun nop _ h => outcomes_mono c _ nop x _ h
  obtain ⟨hm', hso'⟩ := hgrow v hv1
  obtain ⟨so', hso''⟩ : ∃ so', AMap.get ((states c x (World.init c s0 cli) f v).net.get x).tab.outcomes m = some so' := by
    cases hg : AMap.get ((states c x (World.init c s0 cli) f v).net.get x).tab.outcomes m with
    | some so' => exact ⟨so', rfl⟩
    | none => exact absurd (List.mem_map.2 ⟨_, hso', rfl⟩) (AMap.get_none_iff.1 hg)
  by_cases hub : (states c x (World.init c s0 cli) f (v + 1)).server.ub = false
  · have hubv := ub_later c x (World.init c s0 cli) f (Nat.le_succ v) hub
    have hcell : ∃ o, (states c x (World.init c s0 cli) f (v + 1)).server.cells[n]? = some (some o) := by
      have hw : (states c x (World.init c s0 cli) f (v + 1)).server = (states c x (World.init c s0 cli) f v).server.step (.fill n (seen so')) := by
        simp only [states, hv2]
        simp only [World.step, World.deliver, hm', hso'']
      have hlen : n < (states c x (World.init c s0 cli) f v).server.cells.length := by
        have hl := (link_world c x s0 cli (before f v)).len
        rw [← states_run] at hl
        rw [← hl]; exact lt_of_get hm'
      rw [hw]
      unfold Sys.step
      rw [if_neg (by simp [hubv])]
      dsimp only
      cases hc : (states c x (World.init c s0 cli) f v).server.cells[n]? with
      | none => rw [List.getElem?_eq_none_iff] at hc; omega
      | some o =>
        cases o with
        | none => dsimp only; exact ⟨_, by rw [List.getElem?_set_self hlen]⟩
        | some o => dsimp only; exact ⟨o, hc⟩
    have hans : ∃ t' y o, (states c x (World.init c s0 cli) f t').server.calls[i]? = some y ∧ (y.st = .check n k ∨ y.st = .wait n k) ∧
        (states c x (World.init c s0 cli) f t').server.cells[n]? = some (some o) := by
      rcases waits_on c x (World.init c s0 cli) f hz hst (t := v + 1) (by omega) with ⟨y, h1, h2⟩ | ⟨t', y, o, -, -, h3, h4, h5⟩
      · obtain ⟨o, ho⟩ := hcell
        exact ⟨v + 1, y, o, h1, h2, ho⟩
      · exact ⟨t', y, o, h3, h4, h5⟩
    obtain ⟨t', y, o, h1, h2, h3⟩ := hans
    have hwithin : Within 5 (k o) := by
      have hb := server_brief c x s0 cli f t' i y h1
      rcases h2 with h2 | h2 <;> rw [h2] at hb <;> exact hb o
    obtain ⟨U, -, hU⟩ := many_turns c x (World.init c s0 cli) f hf.go 6 t'
    refine ⟨U, fun u hu hu' => ?_⟩
    obtain ⟨cops, hc1, hc2⟩ := hU u hu
    rcases Await.answered_run cops _ i 5 n k y o h1 h2 h3 hwithin hc2 with h | h
    · rw [hc1, h] at hu'; cases hu'
    · rw [hc1]; exact h
  · exact ⟨v + 1, fun u hu hu' => absurd (ub_later c x (World.init c s0 cli) f hu hu') hub⟩

/-- Only the step `handle` of side `y` is one of the steps of a system step. -/
theorem netOps_handle {x : Bool} {w : World D H} {op : Op D H} {y : Bool} (h : op ≠ .wire (.handle y)) : ∀ nop ∈ netOps x w op, nop ≠ .handle y := by
  intro nop hn
  rcases netOps_cases hn with ⟨i, q, -, -, rfl⟩ | ⟨i, rfl⟩ | rfl | ⟨i, env, q, r, -, -, -, -, rfl⟩
  · exact fun e => nomatch e
  · exact fun e => nomatch e
  · exact fun e => h (by rw [e])
  · exact fun e => nomatch e

theorem step_stays (c : Cfg) (x : Bool) (w : World D H) (op : Op D H) (y : Bool) (h : op ≠ .wire (.handle y)) :
    inbox (w.net.get y) <+: inbox ((w.step c x op).net.get y) ∧ ((w.net.get y).current ≠ none → ((w.step c x op).net.get y).current ≠ none) :=
  world_keep (P := fun s => inbox (w.net.get y) <+: inbox (s.get y) ∧ ((w.net.get y).current ≠ none → (s.get y).current ≠ none))
    ⟨List.prefix_rfl, fun h => h⟩ op fun nop hn _ => inbox_stays c w.net nop y (netOps_handle h nop hn)

theorem wire_net {c : Cfg} {x : Bool} {w : World D H} (hd : w.dead = false) {op : NOp D} (hr : reserved x op = false) : (w.step c x (.wire op)).net = w.net.step c op := by
  simp [World.step, hr, hd]

/-- A text in the queue of a side comes to be handled. -/
theorem comes_up (c : Cfg) (x : Bool) (w : World D H) (f : Nat → Op D H) (y : Bool) (hs : c.sizeA ≤ c.size y) (htake : ∀ t, ∃ u, t ≤ u ∧ f u = .wire (.take y))
    (hhan : ∀ t, ∃ u, t ≤ u ∧ f u = .wire (.handle y)) (hlive : ∀ t, (states c x w f t).dead = false) (hopen : ∀ t, Busy ((states c x w f t).net.get y)) (a : Bytes) :
    ∀ (j t : Nat), (inbox ((states c x w f t).net.get y))[j]? = some a → ∃ u, t ≤ u ∧ f u = .wire (.handle y) ∧ ((states c x w f u).net.get y).current = some a := by
  -- until the next message is handled, nothing moves
  have wait : ∀ (d t j : Nat), (inbox ((states c x w f t).net.get y))[j]? = some a →
      (∃ u, t ≤ u ∧ u < t + d ∧ f u = .wire (.handle y) ∧ ((states c x w f u).net.get y).current ≠ none ∧ (inbox ((states c x w f u).net.get y))[j]? = some a) ∨
      ((inbox ((states c x w f (t + d)).net.get y))[j]? = some a ∧
        ((∃ u, t ≤ u ∧ u < t + d ∧ f u = .wire (.take y)) ∨ ((states c x w f t).net.get y).current ≠ none → ((states c x w f (t + d)).net.get y).current ≠ none)) := by
    intro d t j h
    induction d with
    | zero => exact .inr ⟨h, fun hh => by rcases hh with ⟨u, h1, h2, -⟩ | hh; omega; exact hh⟩
    | succ d ih =>
      rcases ih with ⟨u, h1, h2, h3⟩ | ⟨h1, h2⟩
      · exact .inl ⟨u, h1, by omega, h3⟩
      · by_cases hh : f (t + d) = .wire (.handle y)
        · cases hcur : ((states c x w f (t + d)).net.get y).current with
          | some b => exact .inl ⟨t + d, by omega, by omega, hh, by rw [hcur]; simp, h1⟩
          | none =>
            right
            have hstep : ((states c x w f (t + (d + 1))).net.get y) = ((states c x w f (t + d)).net.get y) := by
              show ((((states c x w f (t + d)).step c x (f (t + d))).net).get y) = _
              rw [hh, wire_net (hlive _) rfl]
              show ((Net.upd _ y Endpoint.handle).get y) = _
              rw [get_upd_same]
              unfold Endpoint.handle
              rw [hcur]
            rw [hstep]
            refine ⟨h1, fun hp => h2 ?_⟩
            rcases hp with ⟨u, g1, g2, g3⟩ | hp
            · left
              refine ⟨u, g1, ?_, g3⟩
              rcases Nat.lt_or_ge u (t + d) with c | c
              · exact c
              · have : u = t + d := by omega
                subst this
                rw [hh] at g3; cases g3
            · exact .inr hp
        · right
          obtain ⟨g1, g2⟩ := step_stays c x (states c x w f (t + d)) (f (t + d)) y hh
          refine ⟨get_prefix g1 h1, fun hp => ?_⟩
          by_cases hp' : f (t + d) = .wire (.take y)
          · show ((((states c x w f (t + d)).step c x (f (t + d))).net).get y).current ≠ none
            rw [hp', wire_net (hlive _) rfl]
            exact take_takes c _ y hs (hopen _) (fun e => by rw [e] at h1; cases h1)
          · refine g2 (h2 ?_)
            rcases hp with ⟨u, k1, k2, k3⟩ | hp
            · left
              refine ⟨u, k1, ?_, k3⟩
              rcases Nat.lt_or_ge u (t + d) with c | c
              · exact c
              · have : u = t + d := by omega
                subst this
                exact absurd k3 hp'
            · exact .inr hp
  -- a message is handled
  have next : ∀ (t j : Nat), (inbox ((states c x w f t).net.get y))[j]? = some a →
      ∃ u, t ≤ u ∧ f u = .wire (.handle y) ∧ ((states c x w f u).net.get y).current ≠ none ∧ (inbox ((states c x w f u).net.get y))[j]? = some a := by
    intro t j h
    obtain ⟨v, hv1, hv2⟩ := htake t
    rcases wait (v + 1 - t) t j h with ⟨u, h1, -, h3⟩ | ⟨h1, h2⟩
    · exact ⟨u, h1, h3⟩
    · have e : t + (v + 1 - t) = v + 1 := by omega
      rw [e] at h1 h2
      have hcur := h2 (.inl ⟨v, hv1, by omega, hv2⟩)
      obtain ⟨z, hz1, hz2⟩ := hhan (v + 1)
      rcases wait (z - (v + 1)) (v + 1) j h1 with ⟨u, g1, -, g3⟩ | ⟨g1, g2⟩
      · exact ⟨u, by omega, g3⟩
      · have e' : v + 1 + (z - (v + 1)) = z := by omega
        rw [e'] at g1 g2
        exact ⟨z, by omega, hz2, g2 (.inr hcur), g1⟩
  intro j
  induction j with
  | zero =>
    intro t h
    obtain ⟨u, h1, h2, h3, h4⟩ := next t 0 h
    refine ⟨u, h1, h2, ?_⟩
    unfold inbox at h4
    cases hc : ((states c x w f u).net.get y).current with
    | none => exact absurd hc h3
    | some b => rw [hc] at h4; cases h4; rfl
  | succ j ih =>
    intro t h
    obtain ⟨u, h1, h2, h3, h4⟩ := next t (j + 1) h
    have hstep : (inbox ((states c x w f (u + 1)).net.get y))[j]? = some a := by
      show (inbox ((((states c x w f u).step c x (f u)).net).get y))[j]? = some a
      rw [h2, wire_net (hlive _) rfl]
      show (inbox (((Net.upd _ y Endpoint.handle).get y)))[j]? = some a
      rw [get_upd_same]
      unfold inbox at h4 ⊢
      rw [(handle_frame _).2.2.2.2.2.1]
      cases hc : ((states c x w f u).net.get y).current with
      | none => exact absurd hc h3
      | some b =>
        rw [hc] at h4
        unfold Endpoint.handle
        rw [hc]
        exact h4
    obtain ⟨v, g1, g2⟩ := ih (u + 1) hstep
    exact ⟨v, by omega, g2⟩

/-! ### Both threads run -/

theorem busy_world {c : Cfg} {x : Bool} {s0 : SSelf D} {cli : Cli D H} {ops : List (Op D H)} (hc : Carried c x (World.init c s0 cli) ops) (y : Bool) (hs : c.sizeA ≤ c.size y)
    (ho : ∀ op, Op.wire op ∈ ops → ¬ Ends op) : Busy (((World.init c s0 cli).run c x ops).net.get y) := by
  rw [net_world]
  have hsplit : (Net.init true true : Net D).run c (begun c x s0 cli ops) =
      ((Net.init true true : Net D).run c [.start false, .start true]).run c (trace c x (World.init c s0 cli) ops) := by
    unfold begun Net.run; rw [List.foldl_append]
  rw [hsplit]
  refine busy_run hs _ (fun op hop => ⟨trace_plain hc op hop, trace_open ho op hop⟩) (plainAll_run (plainAll_init true true) (fifo_init true true) c _ ?_)
    (fifo_run (fifo_init true true) c _) ?_ ?_ ?_
  · intro nop h
    simp only [List.mem_cons, List.not_mem_nil, or_false] at h
    rcases h with rfl | rfl <;> trivial
  · intro t ht
    cases y <;> cases ht
  · cases y <;> exact ⟨rfl, rfl, (fun n o h => nomatch h)⟩
  · cases y <;> exact ⟨rfl, rfl, rfl, rfl⟩

/-! ### Where a request was -/

/-- A request that has been filed was among those being sent at the moment after. -/
theorem was_sending (c : Cfg) (x : Bool) (s0 : SSelf D) (cli : Cli D H) (f : Nat → Op D H) {m : Nat} {q : Request D} :
    ∀ t, (m, q) ∈ ((states c x (World.init c s0 cli) f t).net.get x).asked →
      ∃ t1, t1 ≤ t ∧ (m, q) ∈ ((states c x (World.init c s0 cli) f t1).net.get x).asked ∧ (idText q.id, q) ∈ ((states c x (World.init c s0 cli) f t1).net.get x).sending := by
  intro t
  induction t with
  | zero =>
    intro h
    have h : (m, q) ∈ ((World.init c s0 cli : World D H).net.get x).asked := h
    cases x <;> cases h
  | succ t ih =>
    intro h
    have key : (m, q) ∈ ((states c x (World.init c s0 cli) f t).net.get x).asked ∨ (idText q.id, q) ∈ ((states c x (World.init c s0 cli) f (t + 1)).net.get x).sending := by
      revert h
      refine world_keep (P := fun s => (m, q) ∈ (s.get x).asked → (m, q) ∈ ((states c x (World.init c s0 cli) f t).net.get x).asked ∨ (idText q.id, q) ∈ (s.get x).sending)
        (fun h => .inl h) (f t) fun nop _ _ h => asked_step c _ nop x h
    rcases key with g | g
    · obtain ⟨t1, h1, h2⟩ := ih g
      exact ⟨t1, by omega, h2⟩
    · exact ⟨t + 1, Nat.le_refl _, h, g⟩

/-! ### The claim -/

/-- C134, partial. As long as neither transport is told to end and the process of the client lives, a call of the server that waits, whose request says neither `result` nor `error`, gives its result if
the thread that handles its request comes to an answer that is no longer than the limits, at a time when the queue of the server is not full, and the threads have their turns; requests of
other calls may be handled for ever, and new calls may be made all the time. Missing: as for `C134_result_partial`; an answer for which there is no room is dropped (C90); calls of a server
whose peer has gone (C90). -/
theorem C134_settles_partial (c : Cfg) (x : Bool) (s0 : SSelf D) (cli : Cli D H) (f : Nat → Op D H) (t0 : Nat) (hc : ∀ t, Carried c x (World.init c s0 cli) (before f t))
    (hsize : c.sizeA ≤ c.sizeB) (hopen : ∀ t op, f t = .wire op → ¬ Ends op) (hlive : ∀ t, (states c x (World.init c s0 cli) f t).dead = false)
    (i n : Nat) (hf : Turns c x (World.init c s0 cli) f i n) (z : SCall D) (k : Client.Outcome D → SBody D)
    (hz : (states c x (World.init c s0 cli) f t0).server.calls[i]? = some z) (hst : z.st = .check n k ∨ z.st = .wait n k)
    (hwords : ∀ q, Ev.sent n q ∈ z.path → ¬ ReqSays (lit "result") (asRequest q) ∧ ¬ ReqSays (lit "error") (asRequest q)) :
    ∃ T, ∀ t, T ≤ t → (states c x (World.init c s0 cli) f t).server.ub = false →
      ∃ (y : SCall D) (r : SOut D), (states c x (World.init c s0 cli) f t).server.calls[i]? = some y ∧ y.st = .over r := by
  have hwire : ∀ t op, Op.wire op ∈ before f t → ¬ Ends op := by
    intro t op h
    obtain ⟨u, -, hu⟩ := List.mem_map.1 h
    exact hopen u op hu
  have hsz : ∀ y, c.sizeA ≤ c.size y := fun y => by cases y <;> simp [Cfg.size, hsize]
  have hbusy : ∀ t y, Busy ((states c x (World.init c s0 cli) f t).net.get y) := fun t y => by rw [states_run]; exact busy_world (hc t) y (hsz y) (hwire t)
  have hplain : ∀ t, PlainAll (states c x (World.init c s0 cli) f t).net := fun t => by rw [states_run]; exact plain_world (hc t)
  have hlink : ∀ t, Link x (states c x (World.init c s0 cli) f t) := fun t => by rw [states_run]; exact link_world c x s0 cli (before f t)
  have hasked : ∀ t, AskedInv (states c x (World.init c s0 cli) f t).net := fun t => by rw [states_run]; exact asked_world c x s0 cli (before f t)
  have htab : ∀ t, TabInv (states c x (World.init c s0 cli) f t).net := fun t => by rw [states_run]; exact tab_world c x s0 cli (before f t)
  -- the request of the call
  obtain ⟨q, hpath⟩ := mem_path_sent (((server_inv c x s0 cli f t0).tr i z hz).waits n k hst)
  have hfilekeep : ∀ {t u : Nat}, t ≤ u → ∀ {l m : Nat}, (states c x (World.init c s0 cli) f t).futs[l]? = some (some m) → (states c x (World.init c s0 cli) f u).futs[l]? = some (some m) := by
    intro t u hu l m h
    induction hu with
    | refl => exact h
    | step _ ih => exact futs_keep (hlink _) _ ih
  have haskkeep : ∀ {t u : Nat}, t ≤ u → ∀ {m : Nat} {r : Request D}, (m, r) ∈ ((states c x (World.init c s0 cli) f t).net.get x).asked →
      (m, r) ∈ ((states c x (World.init c s0 cli) f u).net.get x).asked := by
    intro t u hu m r h
    induction hu with
    | refl => exact h
    | step _ ih => exact world_keep (P := fun s => (m, r) ∈ (s.get x).asked) ih _ fun nop _ h => asked_mono c _ nop x _ h
  -- the future that was filed for it
  have main : ∀ (T m : Nat) (r : Request D), t0 ≤ T → (states c x (World.init c s0 cli) f T).futs[n]? = some (some m) → (m, r) ∈ ((states c x (World.init c s0 cli) f T).net.get x).asked →
      ¬ ReqMisread r → ∃ T', ∀ t, T' ≤ t → (states c x (World.init c s0 cli) f t).server.ub = false →
        ∃ (y : SCall D) (res : SOut D), (states c x (World.init c s0 cli) f t).server.calls[i]? = some y ∧ y.st = .over res := by
    intro T m r hT hm hr hmis
    -- it is enough that no promise is left under its id at some time
    have enough : ∀ u, (m, r) ∈ ((states c x (World.init c s0 cli) f u).net.get x).asked → idText r.id ∉ AMap.keys ((states c x (World.init c s0 cli) f u).net.get x).tab.pending →
        ∃ T', ∀ t, T' ≤ t → (states c x (World.init c s0 cli) f t).server.ub = false →
          ∃ (y : SCall D) (res : SOut D), (states c x (World.init c s0 cli) f t).server.calls[i]? = some y ∧ y.st = .over res := by
      intro u hru hno
      have hinv := (htab u x).1
      have hsent : (m, idText r.id) ∈ ((states c x (World.init c s0 cli) f u).net.get x).tab.sent := by
        rw [← hasked u x]; exact List.mem_map.2 ⟨_, hru, rfl⟩
      rcases hinv.accounted (hinv.sentBound _ hsent) with ⟨k', h2⟩ | h2
      · have h3 := hinv.pend _ _ h2
        have hk : k' = idText r.id := fst_fun hinv.sentFun h3 hsent
        subst hk
        exact absurd (List.mem_map.2 ⟨_, h2, rfl⟩) hno
      · obtain ⟨⟨m', so⟩, h3, h4⟩ := List.mem_map.1 h2
        have h4 : m' = m := h4
        subst h4
        have hso : ∀ {v : Nat}, u ≤ v → (m', so) ∈ ((states c x (World.init c s0 cli) f v).net.get x).tab.outcomes := by
          intro v hv
          induction hv with
          | refl => exact h3
          | step _ ih => exact world_keep (P := fun s => (m', so) ∈ (s.get x).tab.outcomes) ih _ fun nop _ h => outcomes_mono c _ nop x _ h
        exact over_of_outcome c x s0 cli f (T := max T u) hf hz hst (Nat.le_trans hT (Nat.le_max_left ..)) (hfilekeep (Nat.le_max_left ..) hm) (hso (Nat.le_max_right ..))
    -- its answer in the queue of the server
    have stage4 : ∀ t ans, (m, r) ∈ ((states c x (World.init c s0 cli) f t).net.get x).asked → PlainReq r → PlainAnswer (.resp ans : HandlerOutcome D) →
        serResponse (replyFor r (.resp ans)) ∈ inbox ((states c x (World.init c s0 cli) f t).net.get x) →
        ∃ u, (m, r) ∈ ((states c x (World.init c s0 cli) f u).net.get x).asked ∧ idText r.id ∉ AMap.keys ((states c x (World.init c s0 cli) f u).net.get x).tab.pending := by
      intro t ans hrt hpl hout hin
      obtain ⟨j, hj⟩ := List.getElem?_of_mem hin
      obtain ⟨u, h1, h2, h3⟩ := comes_up c x (World.init c s0 cli) f x (hsz x) (hf.take x) (hf.handle x) hlive (fun t => hbusy t x) _ j t hj
      refine ⟨u + 1, haskkeep (Nat.le_succ_of_le h1) hrt, ?_⟩
      show idText r.id ∉ AMap.keys ((((states c x (World.init c s0 cli) f u).step c x (f u)).net).get x).tab.pending
      rw [h2, wire_net (hlive u) rfl]
      show idText r.id ∉ AMap.keys (((Net.upd _ x Endpoint.handle).get x)).tab.pending
      rw [get_upd_same]
      unfold Endpoint.handle
      rw [h3]
      dsimp only
      rw [event_reply r hout.out, answer_read hpl.1 hout]
      exact complete_keys
    -- in work at the client
    have stage3 : ∀ t, (m, r) ∈ ((states c x (World.init c s0 cli) f t).net.get x).asked → r ∈ ((states c x (World.init c s0 cli) f t).net.get (!x)).jobs →
        ∃ u, (m, r) ∈ ((states c x (World.init c s0 cli) f u).net.get x).asked ∧ idText r.id ∉ AMap.keys ((states c x (World.init c s0 cli) f u).net.get x).tab.pending := by
      intro t hrt hjob
      have hfut : (states c x (World.init c s0 cli) f t).futs[n]? = some (some m) := by
        obtain ⟨n', hn'⟩ := (hlink t).known m r hrt
        have h1 := hfilekeep (Nat.le_max_left t T) hn'
        have h2 := hfilekeep (Nat.le_max_right t T) hm
        rw [(hlink _).once n n' m h2 h1]; exact hn'
      obtain ⟨u, j, env, ans, h1, h2, h3, h4, h5, h6, h7⟩ := hf.serve t m r hfut hrt hjob
      have hpl : PlainReq r := ((hplain u) (!x)).jobs r (List.mem_of_getElem? h3) |>.2.1
      have hout : PlainAnswer (.resp ans : HandlerOutcome D) := by
        refine (hc (u + 1)).answers u r env (states c x (World.init c s0 cli) f u).cli ans ?_
        rw [before_succ, h2]
        have hlen : (before f u).length = u := by simp [before]
        have h3' := h3
        have h4' := h4
        rw [states_run] at h3' h4' ⊢
        have := dispatched_last (w := World.init c s0 cli) (ops := before f u) h3' (by rw [← states_run]; exact hlive u) h4'
        rw [hlen] at this
        exact this
      refine stage4 (u + 1) ans (haskkeep (Nat.le_succ_of_le h1) hrt) hpl hout ?_
      have hfits : (states c x (World.init c s0 cli) f u).net.fits c (!x) (serResponse (replyFor r (.resp ans))) = true := by
        have e : replyFor r (.resp ans) = ⟨r.id, ans.result, ans.error⟩ := rfl
        have hsz2 : (serResponse (⟨r.id, ans.result, ans.error⟩ : Response D)).length ≤ c.size (!x) := by cases x <;> assumption
        unfold Net.fits
        rw [e, (hbusy u (!x)).opened, Bool.not_not]
        simp [hsz2, h5, h7]
      show serResponse _ ∈ inbox ((((states c x (World.init c s0 cli) f u).step c x (f u)).net).get x)
      rw [h2]
      simp only [World.step, World.serve, hlive u, h3, h4]
      show serResponse _ ∈ inbox ((Net.reply c _ (!x) j (.resp ans)).get x)
      unfold Net.reply
      rw [h3]
      dsimp only
      rw [if_pos hfits, get_push, if_neg (by cases x <;> decide), get_upd_not']
      unfold inbox
      simp
    -- its request in the queue of the client
    have stage2 : ∀ t, (m, r) ∈ ((states c x (World.init c s0 cli) f t).net.get x).asked → PlainReq r → serRequest r ∈ inbox ((states c x (World.init c s0 cli) f t).net.get (!x)) →
        ∃ u, (m, r) ∈ ((states c x (World.init c s0 cli) f u).net.get x).asked ∧ idText r.id ∉ AMap.keys ((states c x (World.init c s0 cli) f u).net.get x).tab.pending := by
      intro t hrt hpl hin
      obtain ⟨j, hj⟩ := List.getElem?_of_mem hin
      obtain ⟨u, h1, h2, h3⟩ := comes_up c x (World.init c s0 cli) f (!x) (hsz _) (hf.take _) (hf.handle _) hlive (fun t => hbusy t _) _ j t hj
      refine stage3 (u + 1) (haskkeep (Nat.le_succ_of_le h1) hrt) ?_
      show r ∈ ((((states c x (World.init c s0 cli) f u).step c x (f u)).net).get (!x)).jobs
      rw [h2, wire_net (hlive u) rfl]
      show r ∈ (((Net.upd _ (!x) Endpoint.handle).get (!x))).jobs
      rw [get_upd_same]
      unfold Endpoint.handle
      rw [h3]
      dsimp only
      rw [event_request hpl hmis, (hbusy u (!x)).handler]
      exact List.mem_append_right _ (List.mem_singleton.2 rfl)
    -- being sent
    obtain ⟨t1, -, g1, g2⟩ := was_sending c x s0 cli f T hr
    obtain ⟨u, j, h1, h2, h3⟩ := hf.send t1 _ g2
    have hpl : PlainReq r := ((hplain t1 x).askedSent m r g1).2
    have hnext : (((states c x (World.init c s0 cli) f (u + 1)).net)) = (states c x (World.init c s0 cli) f u).net.deliver c x j := by
      show ((states c x (World.init c s0 cli) f u).step c x (f u)).net = _
      rw [h2, wire_net (hlive u) rfl]; rfl
    have hask1 : (m, r) ∈ ((states c x (World.init c s0 cli) f (u + 1)).net.get x).asked := haskkeep (Nat.le_succ_of_le h1) g1
    have hdel : serRequest r ∈ inbox ((states c x (World.init c s0 cli) f (u + 1)).net.get (!x)) ∨
        idText r.id ∉ AMap.keys ((states c x (World.init c s0 cli) f (u + 1)).net.get x).tab.pending := by
      rw [hnext]
      unfold Net.deliver
      rw [h3]
      dsimp only
      split
      · left
        rw [get_push, if_neg (by cases x <;> decide), get_upd_not]
        unfold inbox
        simp
      · right
        rw [get_upd_same]
        exact complete_keys
    rcases hdel with hdel | hdel
    · obtain ⟨v, k1, k2⟩ := stage2 (u + 1) hask1 hpl hdel
      exact enough v k1 k2
    · exact enough (u + 1) hask1 hdel
  have hmisread : ∀ id, Chosen q id → ¬ ReqMisread (⟨id, q.method, q.params⟩ : Request D) := by
    intro id hid h
    obtain ⟨w1, w2⟩ := hwords q hpath
    rcases hid with rfl | ⟨d, rfl⟩
    · exact h.elim w1 w2
    · have key : ∀ w : Bytes, (∀ l, lit "shm-req-" ++ l ≠ w) → ReqSays w (⟨.str (lit "shm-req-" ++ natDec d), q.method, q.params⟩ : Request D) → ReqSays w (asRequest q) := by
        intro w hw h
        rcases h with h | h
        · exact absurd h (hw _)
        · exact .inr h
      rcases h with h | h
      · exact w1 (key _ (fun l e => by simp [lit] at e) h)
      · exact w2 (key _ (fun l e => by simp [lit] at e) h)
  have fin : ∀ T, t0 ≤ T → ∀ m, (states c x (World.init c s0 cli) f T).futs[n]? = some (some m) →
      ((∃ id, Chosen q id ∧ (m, ⟨id, q.method, q.params⟩) ∈ ((states c x (World.init c s0 cli) f T).net.get x).asked) ∨
        ∃ id, (m, Outcome.refused id) ∈ ((states c x (World.init c s0 cli) f T).net.get x).tab.outcomes) →
      ∃ T', ∀ t, T' ≤ t → (states c x (World.init c s0 cli) f t).server.ub = false →
        ∃ (y : SCall D) (res : SOut D), (states c x (World.init c s0 cli) f t).server.calls[i]? = some y ∧ y.st = .over res := by
    rintro T hT m hm (⟨id, hid, h⟩ | ⟨id, h⟩)
    · exact main T m _ hT hm h (hmisread id hid)
    · exact over_of_outcome c x s0 cli f hf hz hst hT hm h
  rcases (hlink t0).sent i z n q hz hpath with ⟨j, h1, h2⟩ | ⟨m, h1, h2⟩
  · obtain ⟨u, j', h3, h4, h5⟩ := hf.file t0 j h1
    have hfut : ∃ m, (states c x (World.init c s0 cli) f (u + 1)).futs[n]? = some (some m) := by
      refine ⟨((states c x (World.init c s0 cli) f u).net.get x).tab.nextFut, ?_⟩
      show ((states c x (World.init c s0 cli) f u).step c x (f u)).futs[n]? = _
      rw [h4]
      simp only [World.step, World.file, h5]
      exact List.getElem?_set_self (lt_of_get ((hlink u).waiting j' n h5))
    obtain ⟨m, hfut⟩ := hfut
    obtain ⟨y, hy, hpre⟩ := path_between c x (World.init c s0 cli) f (Nat.le_succ_of_le h3) hz
    rcases (hlink (u + 1)).sent i y n q hy (hpre.subset hpath) with ⟨j2, g1, -⟩ | ⟨m', g1, g2⟩
    · rw [(hlink (u + 1)).waiting j2 n g1] at hfut; cases hfut
    · exact fin (u + 1) (Nat.le_succ_of_le h3) m' g1 g2
  · exact fin t0 (Nat.le_refl _) m h1 h2

end Verif.Back
