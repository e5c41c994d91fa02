import Verif.Near.Props

/-!
C129, continued: a call over the in-memory transport whose request the server answers gives its result, whatever becomes of the other calls.
-/

namespace Verif.Near

open Verif.Await Verif.Client Verif.Server Verif.InMemory
open Verif.Whole (asRequest asking lt_of_get goes_append mem_path_sent)
open Verif.Duplex (get_prefix)
open Verif.Stdio (idText)

variable {D H : Type} [DblFmt D]

/-! ### Specification -/

/-- The states an endless execution leads through. -/
def states (w : World D H) (f : Nat → Op D H) : Nat → World D H
  | 0 => w
  | t + 1 => (states w f t).step (f t)

/-- The steps of an endless execution before a time. -/
def before (f : Nat → Op D H) (t : Nat) : List (Op D H) := (List.range t).map f

/-- The threads of both transports, each thread that is sending a request, and call `i`, with its future `n`, have their turns again and again; and so has the thread that handles the
request of this call, and it comes to an answer. -/
structure Turns (w : World D H) (f : Nat → Op D H) (i n : Nat) : Prop where
  send : ∀ t e, e ∈ (states w f t).net.a.sending → ∃ u j, t ≤ u ∧ f u = .wire (.deliver false j) ∧ (states w f u).net.a.sending[j]? = some e
  pop : ∀ y t, ∃ u, t ≤ u ∧ f u = .wire (.pop y)
  handle : ∀ y t, ∃ u, t ≤ u ∧ f u = .wire (.handle y)
  serve : ∀ t m q, (states w f t).futs[n]? = some m → (m, q) ∈ (states w f t).net.a.asked → q ∈ (states w f t).net.b.jobs →
    ∃ u j env r, t ≤ u ∧ f u = .serve j env ∧ (states w f u).net.b.jobs[j]? = some q ∧ (dispatch env (states w f u).srv q).1 = .answer r
  deliver : ∀ t, ∃ u, t ≤ u ∧ f u = .deliver n
  go : ∀ t, ∃ u, t ≤ u ∧ f u = .go i

/-! ### The client -/

theorem states_run (w : World D H) (f : Nat → Op D H) (t : Nat) : states w f t = w.run (before f t) := by
  induction t with
  | zero => rfl
  | succ t ih => simp only [states, ih, before, List.range_succ, List.map_append, List.map_cons, List.map_nil]; rw [run_snoc]

theorem before_succ (f : Nat → Op D H) (t : Nat) : before f (t + 1) = before f t ++ [f t] := by
  simp [before, List.range_succ]

theorem client_next (w : World D H) (op : Op D H) : ∃ cops, (w.step op).client = w.client.run cops := by
  have hm := client_step w op
  generalize (w.step op).client = s at hm ⊢
  cases hm with
  | stay => exact ⟨[], rfl⟩
  | call api => exact ⟨[.call (body api)], rfl⟩
  | go i => exact ⟨[.go i], rfl⟩
  | drop i => exact ⟨[.drop i], rfl⟩
  | change u => exact ⟨[.change u], rfl⟩
  | fill n o => exact ⟨[.fill n o], rfl⟩

theorem client_between (w : World D H) (f : Nat → Op D H) {t u : Nat} (h : t ≤ u) : ∃ cops, (states w f u).client = (states w f t).client.run cops := by
  induction h with
  | refl => exact ⟨[], rfl⟩
  | step _ ih =>
    obtain ⟨a, ha⟩ := ih
    obtain ⟨b, hb⟩ := client_next (states w f _) (f _)
    exact ⟨a ++ b, by rw [states, hb, ha, Await.run_append]⟩

theorem go_client {w : World D H} (hd : w.dead = false) (i : Nat) : (w.step (.go i)).client = w.client.step (.go i) := by
  rw [step_alive hd]
  simp only [World.act, World.go]; split <;> (try split) <;> rfl

theorem futs_step (w : World D H) (op : Op D H) : w.futs <+: (w.step op).futs := by
  rcases only_step w op with ⟨h, -⟩ | ⟨q, h, -⟩
  · rw [h]; exact List.prefix_rfl
  · rw [h]; exact List.prefix_append _ _

theorem many_turns (w : World D H) (f : Nat → Op D H) {i : Nat} (hf : ∀ t, ∃ u, t ≤ u ∧ f u = .go i) (hlive : ∀ t, (states w f t).dead = false) (m t : Nat) :
    ∃ U, t ≤ U ∧ ∀ u, U ≤ u → ∃ cops, (states w f u).client = (states w f t).client.run cops ∧ m ≤ goes i cops := by
  induction m with
  | zero => exact ⟨t, Nat.le_refl _, fun u hu => (client_between w f hu).imp fun cops h => ⟨h, Nat.zero_le _⟩⟩
  | succ m ih =>
    obtain ⟨U, h1, h2⟩ := ih
    obtain ⟨v, h3, h4⟩ := hf U
    refine ⟨v + 1, by omega, fun u hu => ?_⟩
    obtain ⟨a, ha, hm⟩ := h2 v h3
    obtain ⟨b, hb⟩ := client_between w f hu
    refine ⟨a ++ .go i :: b, ?_, ?_⟩
    · rw [hb, states, h4, go_client (hlive v), ha, Await.run_append]; rfl
    · rw [goes_append]; simp [goes]; omega

theorem client_inv (s0 : Self D) (srv : Srv D H) (f : Nat → Op D H) (t : Nat) : Await.Inv (states (World.init s0 srv) f t).client := by
  rw [states_run]
  obtain ⟨cops, h, -, -⟩ := client_run s0 srv (before f t)
  rw [h]; exact inv_run s0 cops

theorem client_brief (s0 : Self D) (srv : Srv D H) (f : Nat → Op D H) (t i : Nat) (x : CCall D)
    (hx : (states (World.init s0 srv) f t).client.calls[i]? = some x) : StHas Brief (fun k => ∀ a, Within 5 (k a)) x.st := by
  rw [states_run] at hx
  obtain ⟨cops, h, h2, -⟩ := client_run s0 srv (before f t)
  rw [h] at hx
  exact stHas_run brief_closed s0 cops (fun b hb => by obtain ⟨api, rfl, -⟩ := h2 b hb; exact brief_body api) i x hx

theorem ub_later (w : World D H) (f : Nat → Op D H) {t u : Nat} (h : t ≤ u) (hu : (states w f u).client.ub = false) : (states w f t).client.ub = false := by
  obtain ⟨cops, h1⟩ := client_between w f h
  cases hb : (states w f t).client.ub with
  | false => rfl
  | true => rw [h1, Await.run_ub cops _ hb, hb] at hu; cases hu

/-- A call waits for its future until the future has ended. -/
theorem waits_on (w : World D H) (f : Nat → Op D H) {t0 i n : Nat} {k : Client.Outcome D → CBody D} {x : CCall D}
    (hx : (states w f t0).client.calls[i]? = some x) (hst : x.st = .check n k ∨ x.st = .wait n k) {t : Nat} (ht : t0 ≤ t) :
    (∃ y : CCall D, (states w f t).client.calls[i]? = some y ∧ (y.st = .check n k ∨ y.st = .wait n k)) ∨
    ∃ t' y o, t0 ≤ t' ∧ t' < t ∧ (states w f t').client.calls[i]? = some y ∧ (y.st = .check n k ∨ y.st = .wait n k) ∧
      (states w f t').client.cells[n]? = some (some o) := by
  induction ht with
  | refl => exact .inl ⟨x, hx, hst⟩
  | @step t ht ih =>
    rcases ih with ⟨y, h1, h2⟩ | ⟨t', y, o, h1, h2, h3⟩
    · by_cases ho : ∃ o, (states w f t).client.cells[n]? = some (some o)
      · obtain ⟨o, ho⟩ := ho
        exact .inr ⟨t, y, o, ht, Nat.lt_succ_self _, h1, h2, ho⟩
      · left
        rw [states]
        have hm := client_step (states w f t) (f t)
        generalize ((states w f t).step (f t)).client = s at hm ⊢
        have key : ∀ cop : COp D, ∃ z : CCall D, ((states w f t).client.step cop).calls[i]? = some z ∧ (z.st = .check n k ∨ z.st = .wait n k) := by
          intro cop
          by_cases hg : cop = .go i
          · subst hg
            cases hub : (states w f t).client.ub with
            | true => rw [Await.step_ub _ _ hub]; exact ⟨y, h1, h2⟩
            | false =>
              have hs : (states w f t).client.step (.go i) = (states w f t).client.go i y := by
                unfold Sys.step
                rw [if_neg (by simp [hub])]
                dsimp only
                rw [h1]
              rw [hs]
              unfold Sys.go
              rcases h2 with h2 | h2 <;> rw [h2] <;> dsimp only <;> split
              · rename_i o ho'; exact absurd ⟨o, ho'⟩ ho
              · exact ⟨_, Await.set_get h1 _, .inr rfl⟩
              · rename_i o ho'; exact absurd ⟨o, ho'⟩ ho
              · exact ⟨y, h1, .inr h2⟩
          · rcases Await.step_call (states w f t).client cop i y h1 with h | ⟨-, -, h⟩ | ⟨h, -⟩
            · exact ⟨y, h, h2⟩
            · exact ⟨_, h, h2⟩
            · exact absurd h hg
        generalize f t = op at hm
        cases hm with
        | stay => exact ⟨y, h1, h2⟩
        | call api => exact key _
        | go j => exact key _
        | drop j => exact key _
        | change u => exact key _
        | fill m o => exact key _
    · exact .inr ⟨t', y, o, h1, Nat.lt_succ_of_lt h2, h3⟩

/-- A call whose future has an outcome at the transport comes to its end. -/
theorem over_of_outcome (s0 : Self D) (srv : Srv D H) (f : Nat → Op D H) (hlive : ∀ t, (states (World.init s0 srv) f t).dead = false) {t0 T i n m : Nat}
    (hf : Turns (World.init s0 srv) f i n) {k : Client.Outcome D → CBody D}
    {x : CCall D} {so : InMemory.Outcome D} (hx : (states (World.init s0 srv) f t0).client.calls[i]? = some x)
    (hst : x.st = .check n k ∨ x.st = .wait n k) (hT : t0 ≤ T) (hm : (states (World.init s0 srv) f T).futs[n]? = some m)
    (hso : AMap.get (states (World.init s0 srv) f T).net.a.tab.outcomes m = some so) :
    ∃ U, ∀ u, U ≤ u → (states (World.init s0 srv) f u).client.ub = false →
      ∃ (y : CCall D) (r : Option (Val D)), (states (World.init s0 srv) f u).client.calls[i]? = some y ∧ y.st = .over r := by
  obtain ⟨v, hv1, hv2⟩ := hf.deliver T
  have hgrow : ∀ u, T ≤ u → (states (World.init s0 srv) f u).futs[n]? = some m ∧ AMap.get (states (World.init s0 srv) f u).net.a.tab.outcomes m = some so := by
    intro u hu
    induction hu with
    | refl => exact ⟨hm, hso⟩
    | step _ ih => exact ⟨get_prefix (futs_step _ _) ih.1, get_grows (grows_world _ _ false).outcomes ih.2⟩
  obtain ⟨hm', hso'⟩ := hgrow v hv1
  by_cases hub : (states (World.init s0 srv) f (v + 1)).client.ub = false
  · have hubv := ub_later (World.init s0 srv) f (Nat.le_succ v) hub
    have hcell : ∃ o, (states (World.init s0 srv) f (v + 1)).client.cells[n]? = some (some o) := by
      have hw : (states (World.init s0 srv) f (v + 1)).client = (states (World.init s0 srv) f v).client.step (.fill n (seen so)) := by
        simp only [states, hv2]
        rw [step_alive (hlive v)]
        simp only [World.act, World.deliver, hm', hso']
      have hlen : n < (states (World.init s0 srv) f v).client.cells.length := by
        have hl := (link_world s0 srv (before f v)).len
        rw [← states_run] at hl
        rw [← hl]; exact lt_of_get hm'
      rw [hw]
      unfold Sys.step
      rw [if_neg (by simp [hubv])]
      dsimp only
      cases hc : (states (World.init s0 srv) f v).client.cells[n]? with
      | none => rw [List.getElem?_eq_none_iff] at hc; omega
      | some o =>
        cases o with
        | none => dsimp only; exact ⟨_, by rw [List.getElem?_set_self hlen]⟩
        | some o => dsimp only; exact ⟨o, hc⟩
    have hans : ∃ t' y o, (states (World.init s0 srv) f t').client.calls[i]? = some y ∧ (y.st = .check n k ∨ y.st = .wait n k) ∧
        (states (World.init s0 srv) f t').client.cells[n]? = some (some o) := by
      rcases waits_on (World.init s0 srv) f hx hst (t := v + 1) (by omega) with ⟨y, h1, h2⟩ | ⟨t', y, o, -, -, h3, h4, h5⟩
      · obtain ⟨o, ho⟩ := hcell
        exact ⟨v + 1, y, o, h1, h2, ho⟩
      · exact ⟨t', y, o, h3, h4, h5⟩
    obtain ⟨t', y, o, h1, h2, h3⟩ := hans
    have hwithin : Within 5 (k o) := by
      have hb := client_brief s0 srv f t' i y h1
      rcases h2 with h2 | h2 <;> rw [h2] at hb <;> exact hb o
    obtain ⟨U, -, hU⟩ := many_turns (World.init s0 srv) f hf.go hlive 6 t'
    refine ⟨U, fun u hu hu' => ?_⟩
    obtain ⟨cops, hc1, hc2⟩ := hU u hu
    rcases Await.answered_run cops _ i 5 n k y o h1 h2 h3 hwithin hc2 with h | h
    · rw [hc1, h] at hu'; cases hu'
    · rw [hc1]; exact h
  · exact ⟨v + 1, fun u hu hu' => absurd (ub_later (World.init s0 srv) f hu hu') hub⟩

/-! ### A text in a queue is looked at -/

theorem inbox_upd (s : Net D) (x y : Bool) {f : Endpoint D → Endpoint D} (h : ∀ e, (f e).current = e.current ∧ (f e).queue = e.queue) :
    ((s.upd x f).get y).current = (s.get y).current ∧ ((s.upd x f).get y).queue = (s.get y).queue := by
  rw [get_upd]; split
  · exact h _
  · exact ⟨rfl, rfl⟩

theorem inbox_push (s : Net D) (x y : Bool) (t : Bytes) : ((s.push x t).get y).current = (s.get y).current ∧ ∃ l, ((s.push x t).get y).queue = (s.get y).queue ++ l := by
  rw [get_push]; split
  · exact ⟨rfl, [], by simp⟩
  · exact ⟨rfl, [t], rfl⟩

/-- What the queue of a side becomes when its thread does nothing. -/
theorem inbox_other (s : Net D) (op : NOp D) (y : Bool) (h1 : op ≠ .handle y) (h2 : op ≠ .pop y) :
    ((s.step op).get y).current = (s.get y).current ∧ ∃ l, ((s.step op).get y).queue = (s.get y).queue ++ l := by
  have same : ∀ (x : Bool) (f : Endpoint D → Endpoint D), (∀ e, (f e).current = e.current ∧ (f e).queue = e.queue) →
      ((s.upd x f).get y).current = (s.get y).current ∧ ∃ l, ((s.upd x f).get y).queue = (s.get y).queue ++ l := by
    intro x f hf
    obtain ⟨a, b⟩ := inbox_upd s x y hf
    exact ⟨a, [], by rw [b]; simp⟩
  have both : ∀ (x : Bool) (f : Endpoint D → Endpoint D) (t : Bytes), (∀ e, (f e).current = e.current ∧ (f e).queue = e.queue) →
      (((s.upd x f).push x t).get y).current = (s.get y).current ∧ ∃ l, (((s.upd x f).push x t).get y).queue = (s.get y).queue ++ l := by
    intro x f t hf
    obtain ⟨a, b⟩ := inbox_upd s x y hf
    obtain ⟨c, l, d⟩ := inbox_push (s.upd x f) x y t
    exact ⟨c.trans a, l, by rw [d, b]⟩
  cases op with
  | start x => exact same x _ fun e => ⟨rfl, rfl⟩
  | closeFlag x => exact same x _ fun e => ⟨rfl, rfl⟩
  | closeFail x => exact same x _ fun e => ⟨rfl, rfl⟩
  | send x r => exact same x _ fun e => ⟨rfl, rfl⟩
  | deliver x i =>
    simp only [Net.step, Net.deliver]
    split
    · exact ⟨rfl, [], by simp⟩
    · try dsimp only
      split
      · exact both x _ _ fun e => ⟨rfl, rfl⟩
      · rename_i key r _ _
        obtain ⟨a, b⟩ := inbox_upd s x y (f := fun e => { e with sending := e.sending.eraseIdx i }) fun e => ⟨rfl, rfl⟩
        obtain ⟨a', b'⟩ := inbox_upd (s.upd x fun e => { e with sending := e.sending.eraseIdx i }) x y (f := fun e => { e with tab := e.tab.complete key (.peerGone r.id) }) fun e => ⟨rfl, rfl⟩
        exact ⟨a'.trans a, [], by rw [b', b]; simp⟩
  | notify x n =>
    simp only [Net.step, Net.notify]
    split
    · exact inbox_push _ _ _ _
    · exact same x _ fun e => ⟨rfl, rfl⟩
  | pop x =>
    have hy : y ≠ x := fun e => h2 (by rw [e])
    simp only [Net.step]
    rw [get_upd, if_neg hy]
    exact ⟨rfl, [], by simp⟩
  | handle x =>
    have hy : y ≠ x := fun e => h1 (by rw [e])
    simp only [Net.step]
    rw [get_upd, if_neg hy]
    exact ⟨rfl, [], by simp⟩
  | reply x i out =>
    simp only [Net.step, Net.reply]
    split
    · exact ⟨rfl, [], by simp⟩
    · try dsimp only
      split
      · exact both x _ _ fun e => ⟨rfl, rfl⟩
      · exact same x _ fun e => ⟨rfl, rfl⟩

/-- Until the thread of side `y` handles a message, the messages of that side stay in their places, and a message taken stays taken. -/
theorem inbox_stays (s : Net D) (op : NOp D) (y : Bool) (h : op ≠ .handle y) :
    (s.get y).inbox <+: ((s.step op).get y).inbox ∧ ((s.get y).current ≠ none → ((s.step op).get y).current ≠ none) := by
  by_cases h2 : op = .pop y
  · subst h2
    show (s.get y).inbox <+: ((s.upd y Endpoint.pop).get y).inbox ∧ ((s.get y).current ≠ none → ((s.upd y Endpoint.pop).get y).current ≠ none)
    rw [get_upd_same]
    unfold Endpoint.pop
    split
    · rename_i t q hc hq
      split
      · refine ⟨?_, fun _ => by simp⟩
        unfold Endpoint.inbox
        rw [hc, hq]
        exact List.prefix_rfl
      · exact ⟨List.prefix_rfl, fun h => h⟩
    · exact ⟨List.prefix_rfl, fun h => h⟩
  · obtain ⟨h3, l, h4⟩ := inbox_other s op y h h2
    refine ⟨?_, fun hc => by rw [h3]; exact hc⟩
    unfold Endpoint.inbox
    rw [h3, h4, ← List.append_assoc]
    exact List.prefix_append _ _

/-- With a message in the queue, a turn of the thread has one taken. -/
theorem pop_takes (s : Net D) (y : Bool) (hc : (s.get y).connected = true) (h : (s.get y).inbox ≠ []) : ((s.step (.pop y)).get y).current ≠ none := by
  show ((s.upd y Endpoint.pop).get y).current ≠ none
  rw [get_upd_same]
  unfold Endpoint.inbox at h
  unfold Endpoint.pop
  split
  · rw [if_pos hc]; simp
  · rename_i hn
    intro hcur
    cases hq : (s.get y).queue with
    | nil => rw [hcur, hq] at h; exact h rfl
    | cons t q => exact hn t q hcur hq

/-- Only the step `handle` of side `y` is one of the steps of a system step. -/
theorem netOps_handle {w : World D H} {op : Op D H} {y : Bool} (h : op ≠ .wire (.handle y)) : netOps w op = [] ∨ ∃ nop, netOps w op = [nop] ∧ nop ≠ .handle y := by
  unfold netOps
  split
  · exact .inl rfl
  · cases hn : netOf w op with
    | none => exact .inl rfl
    | some nop =>
      refine .inr ⟨nop, rfl, fun e => ?_⟩
      subst e
      cases op with
      | go i =>
        simp only [netOf] at hn
        split at hn
        · split at hn <;> cases hn
        · cases hn
      | wire op =>
        simp only [netOf] at hn
        split at hn
        · cases hn
        · cases hn; exact h rfl
      | serve i env =>
        simp only [netOf] at hn
        split at hn
        · cases hn
        · split at hn <;> cases hn
      | call api => cases hn
      | drop i => cases hn
      | change u => cases hn
      | deliver n => cases hn
      | own op => cases hn

theorem step_stays (w : World D H) (op : Op D H) (y : Bool) (h : op ≠ .wire (.handle y)) :
    (w.net.get y).inbox <+: ((w.step op).net.get y).inbox ∧ ((w.net.get y).current ≠ none → ((w.step op).net.get y).current ≠ none) := by
  rw [net_step]
  rcases netOps_handle (w := w) h with h1 | ⟨nop, h1, h2⟩
  · rw [h1]; exact ⟨List.prefix_rfl, fun h => h⟩
  · rw [h1]; exact inbox_stays w.net nop y h2

theorem wire_net {w : World D H} (hd : w.dead = false) {op : NOp D} (hr : reserved op = false) : (w.step (.wire op)).net = w.net.step op := by
  rw [step_alive hd]; simp [World.act, hr]

/-- A text in the queue of a side comes to be handled. -/
theorem comes_up (w : World D H) (f : Nat → Op D H) (y : Bool) (hpop : ∀ t, ∃ u, t ≤ u ∧ f u = .wire (.pop y)) (hhan : ∀ t, ∃ u, t ≤ u ∧ f u = .wire (.handle y))
    (hlive : ∀ t, (states w f t).dead = false) (hopen : ∀ t, ((states w f t).net.get y).connected = true) (x : Bytes) :
    ∀ (j t : Nat), ((states w f t).net.get y).inbox[j]? = some x → ∃ u, t ≤ u ∧ f u = .wire (.handle y) ∧ ((states w f u).net.get y).current = some x := by
  -- until the next message is handled, nothing moves
  have wait : ∀ (d t j : Nat), ((states w f t).net.get y).inbox[j]? = some x →
      (∃ u, t ≤ u ∧ u < t + d ∧ f u = .wire (.handle y) ∧ ((states w f u).net.get y).current ≠ none ∧ ((states w f u).net.get y).inbox[j]? = some x) ∨
      (((states w f (t + d)).net.get y).inbox[j]? = some x ∧
        ((∃ u, t ≤ u ∧ u < t + d ∧ f u = .wire (.pop y)) ∨ ((states w f t).net.get y).current ≠ none → ((states w f (t + d)).net.get y).current ≠ none)) := by
    intro d t j h
    induction d with
    | zero => exact .inr ⟨h, fun hh => by rcases hh with ⟨u, h1, h2, -⟩ | hh; omega; exact hh⟩
    | succ d ih =>
      rcases ih with ⟨u, h1, h2, h3⟩ | ⟨h1, h2⟩
      · exact .inl ⟨u, h1, by omega, h3⟩
      · by_cases hh : f (t + d) = .wire (.handle y)
        · cases hcur : ((states w f (t + d)).net.get y).current with
          | some c => exact .inl ⟨t + d, by omega, by omega, hh, by rw [hcur]; simp, h1⟩
          | none =>
            right
            have hstep : ((states w f (t + (d + 1))).net.get y) = ((states w f (t + d)).net.get y) := by
              show ((((states w f (t + d)).step (f (t + d))).net).get y) = _
              rw [hh, wire_net (hlive _) rfl]
              show ((Net.upd _ y Endpoint.handle).get y) = _
              rw [get_upd_same]
              unfold Endpoint.handle
              rw [hcur]
            rw [hstep]
            refine ⟨h1, fun hp => h2 ?_⟩
            rcases hp with ⟨u, g1, g2, g3⟩ | hp
            · left
              refine ⟨u, g1, ?_, g3⟩
              rcases Nat.lt_or_ge u (t + d) with c | c
              · exact c
              · have : u = t + d := by omega
                subst this
                rw [hh] at g3; cases g3
            · exact .inr hp
        · right
          obtain ⟨g1, g2⟩ := step_stays (states w f (t + d)) (f (t + d)) y hh
          refine ⟨get_prefix g1 h1, fun hp => ?_⟩
          by_cases hp' : f (t + d) = .wire (.pop y)
          · show ((((states w f (t + d)).step (f (t + d))).net).get y).current ≠ none
            rw [hp', wire_net (hlive _) rfl]
            exact pop_takes _ y (hopen _) (fun e => by rw [e] at h1; cases h1)
          · refine g2 (h2 ?_)
            rcases hp with ⟨u, k1, k2, k3⟩ | hp
            · left
              refine ⟨u, k1, ?_, k3⟩
              rcases Nat.lt_or_ge u (t + d) with c | c
              · exact c
              · have : u = t + d := by omega
                subst this
                exact absurd k3 hp'
            · exact .inr hp
  -- a message is handled
  have next : ∀ (t j : Nat), ((states w f t).net.get y).inbox[j]? = some x →
      ∃ u, t ≤ u ∧ f u = .wire (.handle y) ∧ ((states w f u).net.get y).current ≠ none ∧ ((states w f u).net.get y).inbox[j]? = some x := by
    intro t j h
    obtain ⟨v, hv1, hv2⟩ := hpop t
    rcases wait (v + 1 - t) t j h with ⟨u, h1, -, h3⟩ | ⟨h1, h2⟩
    · exact ⟨u, h1, h3⟩
    · have e : t + (v + 1 - t) = v + 1 := by omega
      rw [e] at h1 h2
      have hcur := h2 (.inl ⟨v, hv1, by omega, hv2⟩)
      obtain ⟨z, hz1, hz2⟩ := hhan (v + 1)
      rcases wait (z - (v + 1)) (v + 1) j h1 with ⟨u, g1, -, g3⟩ | ⟨g1, g2⟩
      · exact ⟨u, by omega, g3⟩
      · have e' : v + 1 + (z - (v + 1)) = z := by omega
        rw [e'] at g1 g2
        exact ⟨z, by omega, hz2, g2 (.inr hcur), g1⟩
  intro j
  induction j with
  | zero =>
    intro t h
    obtain ⟨u, h1, h2, h3, h4⟩ := next t 0 h
    refine ⟨u, h1, h2, ?_⟩
    unfold Endpoint.inbox at h4
    cases hc : ((states w f u).net.get y).current with
    | none => exact absurd hc h3
    | some c => rw [hc] at h4; cases h4; rfl
  | succ j ih =>
    intro t h
    obtain ⟨u, h1, h2, h3, h4⟩ := next t (j + 1) h
    have hstep : ((states w f (u + 1)).net.get y).inbox[j]? = some x := by
      show ((((states w f u).step (f u)).net).get y).inbox[j]? = some x
      rw [h2, wire_net (hlive _) rfl]
      show (((Net.upd _ y Endpoint.handle).get y)).inbox[j]? = some x
      rw [get_upd_same]
      unfold Endpoint.inbox at h4 ⊢
      cases hc : ((states w f u).net.get y).current with
      | none => exact absurd hc h3
      | some c =>
        rw [hc] at h4
        unfold Endpoint.handle
        rw [hc]
        dsimp only
        rw [(apply_frame _ _).2.1]
        exact h4
    obtain ⟨v, g1, g2⟩ := ih (u + 1) hstep
    exact ⟨v, by omega, g2⟩

/-! ### The claim -/

/-- C129, partial. As long as neither transport is closed and the process lives, a call that waits gives its result if the thread that handles its request comes to an answer and the
threads have their turns; requests of other calls may be handled for ever, and new calls may be made all the time. Missing: as for `C129_result_partial`; a peer that is closed leaves
the calls without an answer (C16). -/
theorem C129_settles_partial (s0 : Self D) (srv : Srv D H) (f : Nat → Op D H) (t0 : Nat) (hc : ∀ t, Carried (World.init s0 srv) (before f t))
    (few : ∀ t, (states (World.init s0 srv) f t).client.cells.length < 2 ^ 32) (hopen : ∀ t op, f t = .wire op → StaysOpen op)
    (hlive : ∀ t, (states (World.init s0 srv) f t).dead = false) (i n : Nat) (hf : Turns (World.init s0 srv) f i n) (x : CCall D) (k : Client.Outcome D → CBody D)
    (hx : (states (World.init s0 srv) f t0).client.calls[i]? = some x) (hst : x.st = .check n k ∨ x.st = .wait n k) :
    ∃ T, ∀ t, T ≤ t → (states (World.init s0 srv) f t).client.ub = false →
      ∃ (y : CCall D) (r : Option (Val D)), (states (World.init s0 srv) f t).client.calls[i]? = some y ∧ y.st = .over r := by
  have hwire : ∀ t op, Op.wire op ∈ before f t → StaysOpen op := by
    intro t op h
    obtain ⟨u, -, hu⟩ := List.mem_map.1 h
    exact hopen u op hu
  have hdrain : ∀ t, Drain (states (World.init s0 srv) f t).net := fun t => by rw [states_run]; exact drain_world (hc t) (hwire t)
  have hplain : ∀ t, PlainAll (states (World.init s0 srv) f t).net := fun t => by rw [states_run]; exact plain_world (hc t)
  -- the request of the call
  obtain ⟨q, hpath⟩ := mem_path_sent (((client_inv s0 srv f t0).tr i x hx).waits n k hst)
  have hlink := link_world s0 srv (before f t0)
  rw [← states_run] at hlink
  obtain ⟨m, id, hm, hasked⟩ := hlink.sent i x n q hx hpath
  have hkeep : ∀ u, t0 ≤ u → (states (World.init s0 srv) f u).futs[n]? = some m ∧ (states (World.init s0 srv) f u).net.a.asked[m]? = some (m, ⟨id, q.method, q.params⟩) := by
    intro u hu
    induction hu with
    | refl => exact ⟨hm, hasked⟩
    | step _ ih => exact ⟨get_prefix (futs_step _ _) ih.1, get_prefix (grows_world _ _ false).asked ih.2⟩
  have hsame : ∀ u, t0 ≤ u → ∀ r, (∃ l, (l, r) ∈ (states (World.init s0 srv) f u).net.a.asked) → idText r.id = idText id → r = ⟨id, q.method, q.params⟩ := by
    intro u hu r ⟨l, hl⟩ hid
    have h1 := (hkeep u hu).2
    have few := few u
    rw [states_run] at hl h1 few
    have hl := asked_at hl
    have hn := ids_world few
    have k1 : (((World.init s0 srv).run (before f u)).net.a.asked.map (fun p => idText p.2.id))[l]? = some (idText id) := by rw [List.getElem?_map, hl, ← hid]; rfl
    have k2 : (((World.init s0 srv).run (before f u)).net.a.asked.map (fun p => idText p.2.id))[m]? = some (idText id) := by rw [List.getElem?_map, h1]; rfl
    have hlm := (List.getElem?_inj (lt_of_get k1) hn).1 (k1.trans k2.symm)
    subst hlm
    rw [hl] at h1
    injection h1 with h1
    injection h1
  -- it is enough that its future has an outcome
  have enough : ∀ T, t0 ≤ T → idText id ∉ AMap.keys (states (World.init s0 srv) f T).net.a.tab.pending → ∃ T', ∀ t, T' ≤ t → (states (World.init s0 srv) f t).client.ub = false →
      ∃ (y : CCall D) (r : Option (Val D)), (states (World.init s0 srv) f t).client.calls[i]? = some y ∧ y.st = .over r := by
    intro T hT hno
    have htab : TabInv (states (World.init s0 srv) f T).net := by
      rw [states_run, net_world]; exact tabInv_run (tabInv_init true true) _
    have hinv := (htab false).1
    have hsent : (m, idText id) ∈ (states (World.init s0 srv) f T).net.a.tab.sent := (((hplain T) false).askedSent m _ (List.mem_of_getElem? (hkeep T hT).2)).1
    rcases hinv.accounted (hinv.sentBound _ hsent) with ⟨k', h2⟩ | h2
    · exfalso
      have h3 := hinv.pend _ _ h2
      have : k' = idText id := by
        obtain ⟨a, ha⟩ := List.getElem?_of_mem h3
        obtain ⟨b, hb⟩ := List.getElem?_of_mem hsent
        have e1 : ((states (World.init s0 srv) f T).net.a.tab.sent.map (·.1))[a]? = some m := by rw [List.getElem?_map, show (states (World.init s0 srv) f T).net.a.tab.sent[a]? = _ from ha]; rfl
        have e2 : ((states (World.init s0 srv) f T).net.a.tab.sent.map (·.1))[b]? = some m := by rw [List.getElem?_map, hb]; rfl
        have := (List.getElem?_inj (lt_of_get e1) hinv.sentFun).1 (e1.trans e2.symm)
        subst this
        have ha' : (states (World.init s0 srv) f T).net.a.tab.sent[a]? = some (m, k') := ha
        rw [ha'] at hb
        injection hb with hb
        injection hb
      subst this
      exact hno (List.mem_map.2 ⟨_, h2, rfl⟩)
    · have : ∃ so, AMap.get (states (World.init s0 srv) f T).net.a.tab.outcomes m = some so := by
        cases hg : AMap.get (states (World.init s0 srv) f T).net.a.tab.outcomes m with
        | some so => exact ⟨so, rfl⟩
        | none => exact absurd h2 (AMap.get_none_iff.1 hg)
      obtain ⟨so, hso⟩ := this
      exact over_of_outcome s0 srv f hlive hf hx hst hT (hkeep T hT).1 hso
  -- its answer in the queue of the client
  have stage4 : ∀ t, t0 ≤ t → ∀ (r : Request D) (out : HandlerOutcome D), PlainReq r → PlainOut out → idText r.id = idText id →
      serResponse (replyFor r out) ∈ (states (World.init s0 srv) f t).net.a.inbox → ∃ T, t0 ≤ T ∧ idText id ∉ AMap.keys (states (World.init s0 srv) f T).net.a.tab.pending := by
    intro t ht r out hr hout hid hin
    obtain ⟨j, hj⟩ := List.getElem?_of_mem hin
    obtain ⟨u, h1, h2, h3⟩ := comes_up (World.init s0 srv) f false (hf.pop false) (hf.handle false) hlive (fun t => (hdrain t).open_ false) _ j t hj
    refine ⟨u + 1, by omega, ?_⟩
    show idText id ∉ AMap.keys ((((states (World.init s0 srv) f u).step (f u)).net).get false).tab.pending
    rw [h2, wire_net (hlive u) rfl]
    show idText id ∉ AMap.keys (((Net.upd _ false Endpoint.handle).get false)).tab.pending
    rw [get_upd_same]
    unfold Endpoint.handle
    rw [h3]
    obtain ⟨r', k1, k2⟩ := event_of_reply hr hout ((states (World.init s0 srv) f u).net.get false).hasHandler
    have := (apply_keys ((states (World.init s0 srv) f u).net.get false) _).2.1 r' k1
    rw [k2, hid] at this
    exact this
  -- in work at the server
  have stage3 : ∀ t, t0 ≤ t → ∀ r : Request D, idText r.id = idText id → r ∈ (states (World.init s0 srv) f t).net.b.jobs →
      ∃ T, t0 ≤ T ∧ idText id ∉ AMap.keys (states (World.init s0 srv) f T).net.a.tab.pending := by
    intro t ht r hid hjob
    have hr := hsame t ht r (((hplain t) true).jobs r hjob) hid
    subst hr
    obtain ⟨u, j, env, ans, h1, h2, h3, h4⟩ := hf.serve t m _ (hkeep t ht).1 (List.mem_of_getElem? (hkeep t ht).2) hjob
    have hpl : PlainReq (⟨id, q.method, q.params⟩ : Request D) := ((hplain u) true).jobsPlain _ (List.mem_of_getElem? h3)
    have hout : PlainAnswer (.resp ans : HandlerOutcome D) := by
      refine (hc (u + 1)).answers u ⟨id, q.method, q.params⟩ env (states (World.init s0 srv) f u).srv ans ?_
      rw [before_succ, h2]
      have hlen : (before f u).length = u := by simp [before]
      have h3' := h3
      have h4' := h4
      rw [states_run] at h3' h4' ⊢
      have := dispatched_last (w := World.init s0 srv) (ops := before f u) h3' (by rw [← states_run]; exact hlive u) h4'
      rw [hlen] at this
      exact this
    refine stage4 (u + 1) (by omega) _ (.resp ans) hpl hout.out rfl ?_
    show serResponse _ ∈ (((states (World.init s0 srv) f u).step (f u)).net).a.inbox
    rw [h2, step_alive (hlive u)]
    simp only [World.act, World.serve, h3, h4]
    show serResponse _ ∈ ((Net.reply _ true j (.resp ans)).get false).inbox
    unfold Net.reply
    rw [show ((states (World.init s0 srv) f u).net.get true).jobs[j]? = some _ from h3]
    dsimp only
    rw [if_pos ((hdrain u).open_ _)]
    rw [get_push, if_neg (by decide), get_upd, if_neg (by decide)]
    unfold Endpoint.inbox
    simp
  -- its request in the queue of the server
  have stage2 : ∀ t, t0 ≤ t → ∀ r : Request D, PlainReq r → idText r.id = idText id → serRequest r ∈ (states (World.init s0 srv) f t).net.b.inbox →
      ∃ T, t0 ≤ T ∧ idText id ∉ AMap.keys (states (World.init s0 srv) f T).net.a.tab.pending := by
    intro t ht r hr hid hin
    obtain ⟨j, hj⟩ := List.getElem?_of_mem hin
    obtain ⟨u, h1, h2, h3⟩ := comes_up (World.init s0 srv) f true (hf.pop true) (hf.handle true) hlive (fun t => (hdrain t).open_ true) _ j t hj
    refine stage3 (u + 1) (by omega) r hid ?_
    show r ∈ ((((states (World.init s0 srv) f u).step (f u)).net).get true).jobs
    rw [h2, wire_net (hlive u) rfl]
    show r ∈ (((Net.upd _ true Endpoint.handle).get true)).jobs
    rw [get_upd_same]
    unfold Endpoint.handle
    rw [h3, (hdrain u).handler true]
    dsimp only
    rw [event_of_request hr]
    exact (apply_keys _ _).2.2.2.2.1 r rfl
  -- being sent
  have stage1 : ∀ t, t0 ≤ t → ∀ r : Request D, PlainReq r → idText r.id = idText id → (idText id, r) ∈ (states (World.init s0 srv) f t).net.a.sending →
      ∃ T, t0 ≤ T ∧ idText id ∉ AMap.keys (states (World.init s0 srv) f T).net.a.tab.pending := by
    intro t ht r hr hid hin
    obtain ⟨u, j, h1, h2, h3⟩ := hf.send t _ hin
    refine stage2 (u + 1) (by omega) r hr hid ?_
    show serRequest r ∈ ((((states (World.init s0 srv) f u).step (f u)).net).get true).inbox
    rw [h2, wire_net (hlive u) rfl]
    show serRequest r ∈ ((Net.deliver _ false j).get true).inbox
    unfold Net.deliver
    rw [show ((states (World.init s0 srv) f u).net.get false).sending[j]? = some _ from h3]
    dsimp only
    rw [if_pos ((hdrain u).open_ _)]
    rw [get_push, if_neg (by decide), get_upd, if_neg (by decide)]
    unfold Endpoint.inbox
    simp
  by_cases hp : idText id ∈ AMap.keys (states (World.init s0 srv) f t0).net.a.tab.pending
  · have : ∃ T, t0 ≤ T ∧ idText id ∉ AMap.keys (states (World.init s0 srv) f T).net.a.tab.pending := by
      obtain ⟨r, g1, g2, g3 | g3 | g3 | ⟨out, g3, g4⟩⟩ := (hdrain t0).alive false _ hp
      · exact stage1 t0 (Nat.le_refl _) r g1 g2 g3
      · exact stage2 t0 (Nat.le_refl _) r g1 g2 g3
      · exact stage3 t0 (Nat.le_refl _) r g2 g3
      · exact stage4 t0 (Nat.le_refl _) r out g1 g3 g2 g4
    obtain ⟨T, h1, h2⟩ := this
    exact enough T h1 h2
  · exact enough t0 (Nat.le_refl _) hp

end Verif.Near
