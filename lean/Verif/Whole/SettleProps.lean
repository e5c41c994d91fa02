import Verif.Whole.Mirror

/-!
C115, continued: when no new calls are made and the tools return, every call of the client that waits gives its result, as long as the connection holds.
-/

namespace Verif.Whole

open Verif.Await Verif.Client Verif.Server Verif.Duplex Verif.Stdio
open Verif.Serve (Prog)
open Verif.InMemory (PlainReq PlainNote)

variable {D H : Type} [DblFmt D]

/-! ### Specification -/

/-- From time `t0` on no call is made and none is about to send its request, no timer runs out, no connection is cut from outside, and what the server
dispatches returns. -/
structure Calming (c : Cfg D) (w : World D H) (f : Nat → Op D H) (t0 : Nat) : Prop where
  call : ∀ t api, t0 ≤ t → f t ≠ .call api
  sent : ∀ (i : Nat) (x : CCall D), (states c w f t0).client.calls[i]? = some x → ∀ b, x.st ≠ .run b
  wire : ∀ t y op, t0 ≤ t → f t = .wire y op → Internal op
  serve : ∀ t env j, t0 ≤ t → f t = .serve env → (states c w f t).pair.b.job = some j → ∃ r, (dispatch env (states c w f t).srv j.req).1 = .answer r
  lives : (states c w f t0).dead = false
  filed : ∀ y, ((states c w f t0).pair.get y).p.checked = []

/-- The threads of the transports, the server and call `i`, with its future `n`, have their turns again and again. -/
structure WTurns (f : Nat → Op D H) (i n : Nat) : Prop where
  push : ∀ y t, ∃ u, t ≤ u ∧ f u = .wire y (.push 0)
  dequeue : ∀ y t, ∃ u, t ≤ u ∧ f u = .wire y .dequeue
  write : ∀ y t, ∃ u k, t ≤ u ∧ f u = .wire y (.write k)
  finish : ∀ y t, ∃ u, t ≤ u ∧ f u = .wire y .finish
  read : ∀ y t, ∃ u k, t ≤ u ∧ f u = .wire y (.read k)
  decode : ∀ y t, ∃ u, t ≤ u ∧ f u = .wire y .decode
  work : ∀ t, ∃ u b, t ≤ u ∧ f u = .wire false (.work b)
  serve : ∀ t, ∃ u env, t ≤ u ∧ f u = .serve env
  deliver : ∀ t, ∃ u, t ≤ u ∧ f u = .deliver n
  go : ∀ t, ∃ u, t ≤ u ∧ f u = .go i

/-! ### The client -/

theorem go_client (c : Cfg D) (w : World D H) (i : Nat) : (w.step c (.go i)).client = w.client.step (.go i) := by
  simp only [World.step, World.go]; split <;> (try split) <;> rfl

theorem client_next (c : Cfg D) (w : World D H) (op : Op D H) : ∃ cops, (w.step c op).client = w.client.run cops := by
  have hm := client_step c w op
  generalize (w.step c op).client = s at hm ⊢
  cases hm with
  | stay => exact ⟨[], rfl⟩
  | call api => exact ⟨[.call (body api)], rfl⟩
  | go i => exact ⟨[.go i], rfl⟩
  | drop i => exact ⟨[.drop i], rfl⟩
  | change u => exact ⟨[.change u], rfl⟩
  | fill n o => exact ⟨[.fill n o], rfl⟩

theorem client_between (c : Cfg D) (w : World D H) (f : Nat → Op D H) {t u : Nat} (h : t ≤ u) :
    ∃ cops, (states c w f u).client = (states c w f t).client.run cops := by
  induction h with
  | refl => exact ⟨[], rfl⟩
  | step _ ih =>
    obtain ⟨a, ha⟩ := ih
    obtain ⟨b, hb⟩ := client_next c (states c w f _) (f _)
    exact ⟨a ++ b, by rw [states, hb, ha, Await.run_append]⟩

theorem goes_append {S Q A R : Type} (i : Nat) (a b : List (Await.Op S Q A R)) : goes i (a ++ b) = goes i a + goes i b := by
  induction a with
  | nil => simp [goes]
  | cons op a ih => cases op <;> simp [goes, ih] <;> omega

theorem futs_step (c : Cfg D) (w : World D H) (op : Op D H) : w.futs <+: (w.step c op).futs := by
  cases op with
  | go i =>
    simp only [World.step, World.go]
    split
    · split
      · exact List.prefix_append _ _
      · exact List.prefix_rfl
    · exact List.prefix_rfl
  | deliver n =>
    simp only [World.step, World.deliver]
    split
    · split <;> exact List.prefix_rfl
    · exact List.prefix_rfl
  | wire y op => simp only [World.step]; split <;> exact List.prefix_rfl
  | serve env =>
    simp only [World.step, World.serve]
    split
    · exact List.prefix_rfl
    · split
      · exact List.prefix_rfl
      · split <;> exact List.prefix_rfl
  | own op => cases op <;> simp only [World.step] <;> (try split) <;> exact List.prefix_rfl
  | _ => exact List.prefix_rfl

/-- Given enough time a call has as many turns as one likes. -/
theorem many_turns (c : Cfg D) (w : World D H) (f : Nat → Op D H) {i n : Nat} (hf : WTurns f i n) (m t : Nat) :
    ∃ U, t ≤ U ∧ ∀ u, U ≤ u → ∃ cops, (states c w f u).client = (states c w f t).client.run cops ∧ m ≤ goes i cops := by
  induction m with
  | zero => exact ⟨t, Nat.le_refl _, fun u hu => (client_between c w f hu).imp fun cops h => ⟨h, Nat.zero_le _⟩⟩
  | succ m ih =>
    obtain ⟨U, h1, h2⟩ := ih
    obtain ⟨v, h3, h4⟩ := hf.go U
    refine ⟨v + 1, by omega, fun u hu => ?_⟩
    obtain ⟨a, ha, hm⟩ := h2 v h3
    obtain ⟨b, hb⟩ := client_between c w f hu
    refine ⟨a ++ .go i :: b, ?_, ?_⟩
    · rw [hb, states, h4, go_client, ha, Await.run_append]; rfl
    · rw [goes_append]; simp [goes]; omega

theorem client_inv (c : Cfg D) (s0 : Self D) (srv : Srv D H) (f : Nat → Op D H) (t : Nat) : Await.Inv (states c (World.init s0 srv) f t).client := by
  rw [states_run]
  obtain ⟨cops, h, -, -⟩ := client_run c s0 srv (before f t)
  rw [h]; exact inv_run s0 cops

theorem client_brief (c : Cfg D) (s0 : Self D) (srv : Srv D H) (f : Nat → Op D H) (t i : Nat) (x : CCall D)
    (hx : (states c (World.init s0 srv) f t).client.calls[i]? = some x) : StHas Brief (fun k => ∀ a, Within 5 (k a)) x.st := by
  rw [states_run] at hx
  obtain ⟨cops, h, h2, -⟩ := client_run c s0 srv (before f t)
  rw [h] at hx
  exact stHas_run brief_closed s0 cops (fun b hb => by obtain ⟨api, rfl, -⟩ := h2 b hb; exact brief_body api) i x hx

theorem ub_later (c : Cfg D) (w : World D H) (f : Nat → Op D H) {t u : Nat} (h : t ≤ u) (hu : (states c w f u).client.ub = false) :
    (states c w f t).client.ub = false := by
  obtain ⟨cops, h1⟩ := client_between c w f h
  cases hb : (states c w f t).client.ub with
  | false => rfl
  | true => rw [h1, Await.run_ub cops _ hb, hb] at hu; cases hu

/-- A call waits for its future until the future has ended. -/
theorem waits_on (c : Cfg D) (w : World D H) (f : Nat → Op D H) {t0 i n : Nat} {k : Client.Outcome D → CBody D} {x : CCall D}
    (hx : (states c w f t0).client.calls[i]? = some x) (hst : x.st = .check n k ∨ x.st = .wait n k) {t : Nat} (ht : t0 ≤ t) :
    (∃ y : CCall D, (states c w f t).client.calls[i]? = some y ∧ (y.st = .check n k ∨ y.st = .wait n k)) ∨
    ∃ t' y o, t0 ≤ t' ∧ t' < t ∧ (states c w f t').client.calls[i]? = some y ∧ (y.st = .check n k ∨ y.st = .wait n k) ∧
      (states c w f t').client.cells[n]? = some (some o) := by
  induction ht with
  | refl => exact .inl ⟨x, hx, hst⟩
  | @step t ht ih =>
    rcases ih with ⟨y, h1, h2⟩ | ⟨t', y, o, h1, h2, h3⟩
    · by_cases ho : ∃ o, (states c w f t).client.cells[n]? = some (some o)
      · obtain ⟨o, ho⟩ := ho
        exact .inr ⟨t, y, o, ht, Nat.lt_succ_self _, h1, h2, ho⟩
      · left
        rw [states]
        have hm := client_step c (states c w f t) (f t)
        generalize ((states c w f t).step c (f t)).client = s at hm ⊢
        have key : ∀ cop : COp D, ∃ z : CCall D, ((states c w f t).client.step cop).calls[i]? = some z ∧ (z.st = .check n k ∨ z.st = .wait n k) := by
          intro cop
          by_cases hg : cop = .go i
          · subst hg
            cases hub : (states c w f t).client.ub with
            | true => rw [Await.step_ub _ _ hub]; exact ⟨y, h1, h2⟩
            | false =>
              have hs : (states c w f t).client.step (.go i) = (states c w f t).client.go i y := by
                unfold Sys.step
                rw [if_neg (by simp [hub])]
                dsimp only
                rw [h1]
              rw [hs]
              unfold Sys.go
              rcases h2 with h2 | h2 <;> rw [h2] <;> dsimp only <;> split
              · rename_i o ho'; exact absurd ⟨o, ho'⟩ ho
              · exact ⟨_, Await.set_get h1 _, .inr rfl⟩
              · rename_i o ho'; exact absurd ⟨o, ho'⟩ ho
              · exact ⟨y, h1, .inr h2⟩
          · rcases Await.step_call (states c w f t).client cop i y h1 with h | ⟨-, -, h⟩ | ⟨h, -⟩
            · exact ⟨y, h, h2⟩
            · exact ⟨_, h, h2⟩
            · exact absurd h hg
        generalize f t = op at hm
        cases hm with
        | stay => exact ⟨y, h1, h2⟩
        | call api => exact key _
        | go j => exact key _
        | drop j => exact key _
        | change u => exact key _
        | fill m o => exact key _
    · exact .inr ⟨t', y, o, h1, Nat.lt_succ_of_lt h2, h3⟩

/-- A call whose future has an outcome at the transport comes to its end. -/
theorem over_of_outcome (c : Cfg D) (s0 : Self D) (srv : Srv D H) (f : Nat → Op D H) {t0 T i n m : Nat} (hf : WTurns f i n) {k : Client.Outcome D → CBody D}
    {x : CCall D} {so : Stdio.Outcome D} (hx : (states c (World.init s0 srv) f t0).client.calls[i]? = some x)
    (hst : x.st = .check n k ∨ x.st = .wait n k) (hT : t0 ≤ T) (hm : (states c (World.init s0 srv) f T).futs[n]? = some m)
    (hso : AMap.get (states c (World.init s0 srv) f T).pair.a.p.outcomes m = some so) :
    ∃ U, ∀ u, U ≤ u → (states c (World.init s0 srv) f u).client.ub = false →
      ∃ (y : CCall D) (r : Option (Val D)), (states c (World.init s0 srv) f u).client.calls[i]? = some y ∧ y.st = .over r := by
  obtain ⟨v, hv1, hv2⟩ := hf.deliver T
  -- the future is still there when it is looked at
  have hgrow : ∀ u, T ≤ u → (states c (World.init s0 srv) f u).futs[n]? = some m ∧ AMap.get (states c (World.init s0 srv) f u).pair.a.p.outcomes m = some so := by
    intro u hu
    induction hu with
    | refl => exact ⟨hm, hso⟩
    | step _ ih => exact ⟨get_prefix (futs_step c _ _) ih.1, get_grows (grows_move (pair_step c _ _) false).outcomes ih.2⟩
  obtain ⟨hm', hso'⟩ := hgrow v hv1
  by_cases hub : (states c (World.init s0 srv) f (v + 1)).client.ub = false
  · have hubv := ub_later c (World.init s0 srv) f (Nat.le_succ v) hub
    have hcell : ∃ o, (states c (World.init s0 srv) f (v + 1)).client.cells[n]? = some (some o) := by
      have hw : (states c (World.init s0 srv) f (v + 1)).client = (states c (World.init s0 srv) f v).client.step (.fill n (seen so)) := by
        simp only [states, hv2, World.step, World.deliver, hm', hso']
      have hlen : n < (states c (World.init s0 srv) f v).client.cells.length := by
        have hl := (link_world c s0 srv (before f v)).len
        rw [← states_run] at hl
        rw [← hl]; exact lt_of_get hm'
      rw [hw]
      unfold Sys.step
      rw [if_neg (by simp [hubv])]
      dsimp only
      cases hc : (states c (World.init s0 srv) f v).client.cells[n]? with
      | none => rw [List.getElem?_eq_none_iff] at hc; omega
      | some o =>
        cases o with
        | none => dsimp only; exact ⟨_, by rw [List.getElem?_set_self hlen]⟩
        | some o => dsimp only; exact ⟨o, hc⟩
    have hans : ∃ t' y o, (states c (World.init s0 srv) f t').client.calls[i]? = some y ∧ (y.st = .check n k ∨ y.st = .wait n k) ∧
        (states c (World.init s0 srv) f t').client.cells[n]? = some (some o) := by
      rcases waits_on c (World.init s0 srv) f hx hst (t := v + 1) (by omega) with ⟨y, h1, h2⟩ | ⟨t', y, o, -, -, h3, h4, h5⟩
      · obtain ⟨o, ho⟩ := hcell
        exact ⟨v + 1, y, o, h1, h2, ho⟩
      · exact ⟨t', y, o, h3, h4, h5⟩
    obtain ⟨t', y, o, h1, h2, h3⟩ := hans
    have hwithin : Within 5 (k o) := by
      have hb := client_brief c s0 srv f t' i y h1
      rcases h2 with h2 | h2 <;> rw [h2] at hb <;> exact hb o
    obtain ⟨U, -, hU⟩ := many_turns c (World.init s0 srv) f hf 6 t'
    refine ⟨U, fun u hu hu' => ?_⟩
    obtain ⟨cops, hc1, hc2⟩ := hU u hu
    rcases Await.answered_run cops _ i 5 n k y o h1 h2 h3 hwithin hc2 with h | h
    · rw [hc1, h] at hu'; cases hu'
    · rw [hc1]; exact h
  · exact ⟨v + 1, fun u hu hu' => absurd (ub_later c (World.init s0 srv) f hu hu') hub⟩

/-! ### The transports -/

theorem lives_on {c : Cfg D} {w : World D H} {f : Nat → Op D H} {t0 : Nat} (hq : Calming c w f t0) {t : Nat} (ht : t0 ≤ t) : (states c w f t).dead = false := by
  induction ht with
  | refl => exact hq.lives
  | @step t ht ih =>
    rw [states]
    cases hop : f t with
    | go i =>
      simp only [World.step, World.go]
      split
      · split <;> exact ih
      · exact ih
    | deliver n =>
      simp only [World.step, World.deliver]
      split
      · split <;> exact ih
      · exact ih
    | wire y op => simp only [World.step]; split <;> exact ih
    | serve env =>
      simp only [World.step, World.serve]
      split
      · exact ih
      · split
        · exact ih
        · rename_i j hj
          obtain ⟨r, hr⟩ := hq.serve t env j ht hop hj
          rw [hr]; exact ih
    | own op => cases op <;> simp only [World.step] <;> (try split) <;> exact ih
    | call api => exact ih
    | drop i => exact ih
    | change u => exact ih

theorem mirror_plain {c : Cfg D} {s0 : Self D} {srv : Srv D H} {f : Nat → Op D H} (hc : ∀ t, Carried c (World.init s0 srv) (before f t)) (t : Nat) :
    PlainStep (mirror (states c (World.init s0 srv) f t) (f t)) := by
  cases hop : f t with
  | go i =>
    simp only [mirror]
    split
    · rename_i q hq
      split
      · rw [states_run] at hq
        exact asking_plain (hc t).calls hq
      · trivial
    · trivial
  | wire y op =>
    simp only [mirror]
    split
    · trivial
    · exact (hc (t + 1)).wires y op (by rw [before_succ, hop]; simp)
  | serve env =>
    simp only [mirror]
    split
    · trivial
    · split
      · trivial
      · split <;> trivial
  | _ => trivial

theorem within_closed {S Q A R : Type} : Closed (fun b : Body S Q A R => ∃ n, Within n b) fun k => ∀ a, Within 5 (k a) :=
  ⟨fun _ ⟨_, h⟩ => ⟨_, h.2⟩, fun _ _ s ⟨_, h⟩ => ⟨_, h.2 s⟩, fun _ _ ⟨_, h⟩ => h.elim, fun _ a h => ⟨5, h a⟩⟩

/-- After its request a call sends nothing more. -/
theorem asks_none {c : Cfg D} {s0 : Self D} {srv : Srv D H} {f : Nat → Op D H} {t0 : Nat} (hcall : ∀ t api, t0 ≤ t → f t ≠ .call api)
    (hsent : ∀ (i : Nat) (x : CCall D), (states c (World.init s0 srv) f t0).client.calls[i]? = some x → ∀ b, x.st ≠ .run b) {t : Nat} (ht : t0 ≤ t) (i : Nat) :
    asking (states c (World.init s0 srv) f t).client i = none := by
  have key : ∀ (j : Nat) (y : CCall D), (states c (World.init s0 srv) f t).client.calls[j]? = some y →
      StHas (fun b => ∃ n, Within n b) (fun k => ∀ a, Within 5 (k a)) y.st := by
    induction ht with
    | refl =>
      intro j y hy
      have hb := client_brief c s0 srv f t0 j y hy
      cases hst : y.st with
      | run b => exact absurd hst (hsent j y hy b)
      | check n k => rw [hst] at hb; exact hb
      | wait n k => rw [hst] at hb; exact hb
      | over r => trivial
    | @step t ht ih =>
      rw [states]
      have hm := client_step c (states c (World.init s0 srv) f t) (f t)
      have hcall := hcall t
      generalize ((states c (World.init s0 srv) f t).step c (f t)).client = s at hm ⊢
      generalize f t = op at hm hcall
      cases hm with
      | stay => exact ih
      | call api => exact absurd rfl (hcall api ht)
      | go i => exact stHas_step within_closed _ _ (fun b hb => nomatch hb) ih
      | drop i => exact stHas_step within_closed _ _ (fun b hb => nomatch hb) ih
      | change u => exact stHas_step within_closed _ _ (fun b hb => nomatch hb) ih
      | fill n o => exact stHas_step within_closed _ _ (fun b hb => nomatch hb) ih
  unfold asking
  split
  · rename_i x hx
    have := key i x hx
    split
    · rename_i q k hst
      rw [hst] at this
      obtain ⟨n, hn⟩ := this
      exact hn.elim
    · rfl
  · rfl

/-! ### What is given to the transports -/

theorem given_internal (max : Nat) (h : Request D → Prog D) (sent : Bytes) {e : End D} (he : AloneEnd e) {op : EndOp D} (hop : Internal op) :
    (e.step max h sent op).given = e.given := by
  cases hop with
  | push i =>
    simp only [End.step, End.push]; split
    · exact (writes_aside _ _).given
    · rfl
  | dequeue => exact (writes_aside _ _).given
  | write k => exact (writes_aside _ _).given
  | finish => exact (writes_aside _ _).given
  | read k => simp only [End.step, End.read]; split <;> rfl
  | decode =>
    simp only [End.step, End.decode]
    split
    · split
      · rfl
      · unfold End.process; split <;> rfl
      · rfl
      · rfl
    · rfl
  | work b =>
    simp only [End.step, End.work]
    split
    · rfl
    · rename_i j hj
      have hj2 := he j hj
      split
      · exact (writes_aside _ _).given
      · rfl
      · rename_i hp _; rw [hp] at hj2; exact hj2.elim
      · rename_i hp _; rw [hp] at hj2; exact hj2.elim

theorem alone_world {c : Cfg D} (halone : ∀ q, Alone (c.handler q)) (s0 : Self D) (srv : Srv D H) (f : Nat → Op D H) (t : Nat) :
    AlonePair (states c (World.init s0 srv) f t).pair := by
  have hh : ∀ y q, Alone (c.duplex.handler y q) := by
    intro y q
    cases y
    · exact halone q
    · exact trivial
  induction t with
  | zero => intro y j hj; cases y <;> cases hj
  | succ t ih =>
    rw [states]
    have hm := pair_step c (states c (World.init s0 srv) f t) (f t)
    generalize ((states c (World.init s0 srv) f t).step c (f t)).pair = s at hm ⊢
    cases hm with
    | stay => exact ih
    | wire y op h => exact alone_step hh ih _
    | ask q => exact alone_step hh ih _
    | reply j o h =>
      refine alone_step hh (fun y => ?_) _
      cases y
      · exact ih false
      · intro j' hj'; cases hj'; exact trivial

/-- From the time on when no more requests are sent, the requests given to the transports stay as they are. -/
theorem given_after {c : Cfg D} {s0 : Self D} {srv : Srv D H} {f : Nat → Op D H} {t0 : Nat} (halone : ∀ q, Alone (c.handler q))
    (hcall : ∀ t api, t0 ≤ t → f t ≠ .call api)
    (hsent : ∀ (i : Nat) (x : CCall D), (states c (World.init s0 srv) f t0).client.calls[i]? = some x → ∀ b, x.st ≠ .run b)
    (hwire : ∀ t y op, t0 ≤ t → f t = .wire y op → Internal op) {t : Nat} (ht : t0 ≤ t) (y : Bool) :
    ((states c (World.init s0 srv) f t).pair.get y).given = ((states c (World.init s0 srv) f t0).pair.get y).given := by
  induction ht with
  | refl => rfl
  | @step t ht ih =>
    rw [← ih, states]
    have hal := alone_world halone s0 srv f t
    have hno := asks_none hcall hsent ht
    generalize hw : states c (World.init s0 srv) f t = w at hal hno ⊢
    cases hop : f t with
    | go i => simp only [World.step, World.go, hno i]
    | deliver n =>
      simp only [World.step, World.deliver]
      split
      · split <;> rfl
      · rfl
    | wire z op =>
      simp only [World.step]
      split
      · rfl
      · rw [step_get]
        split
        · rename_i hz; subst hz
          exact given_internal _ _ _ (hal _) (hwire t _ op ht hop)
        · rfl
    | serve env =>
      simp only [World.step, World.serve]
      split
      · rfl
      · split
        · rfl
        · rename_i j hj
          split
          · cases y
            · rfl
            · show (answer w.pair.b _).given = w.pair.b.given
              simp only [answer, hj, End.work]
              exact (writes_aside _ _).given
          · rfl
          · rfl
    | own op => cases op <;> simp only [World.step] <;> (try split) <;> rfl
    | call api => rfl
    | drop i => rfl
    | change u => rfl

theorem own_prefix {a b : List RpcId} (h : a <+: b) (ho : OwnTexts b) : OwnTexts a := by
  obtain ⟨k, rfl⟩ := h
  refine ⟨fun i j x y hi hj => ho.distinct i j x y ?_ ?_, fun i hi => ho.foreign i (List.mem_append_left _ hi), ?_⟩
  · rw [List.getElem?_append_left (lt_of_get hi)]; exact hi
  · rw [List.getElem?_append_left (lt_of_get hj)]; exact hj
  · have := ho.few
    rw [List.length_append] at this; omega

/-- Own names at the time when no more requests are sent are own names at all times. -/
theorem own_always {c : Cfg D} {s0 : Self D} {srv : Srv D H} {f : Nat → Op D H} {t0 : Nat} (halone : ∀ q, Alone (c.handler q))
    (hcall : ∀ t api, t0 ≤ t → f t ≠ .call api)
    (hsent : ∀ (i : Nat) (x : CCall D), (states c (World.init s0 srv) f t0).client.calls[i]? = some x → ∀ b, x.st ≠ .run b)
    (hwire : ∀ t y op, t0 ≤ t → f t = .wire y op → Internal op) (y : Bool)
    (ho : OwnTexts (((states c (World.init s0 srv) f t0).pair.get y).given.map (·.id))) (t : Nat) :
    OwnTexts (((states c (World.init s0 srv) f t).pair.get y).given.map (·.id)) := by
  by_cases ht : t0 ≤ t
  · rw [given_after halone hcall hsent hwire ht]; exact ho
  · refine own_prefix ?_ ho
    have key : ∀ u, t ≤ u → ((states c (World.init s0 srv) f t).pair.get y).given <+: ((states c (World.init s0 srv) f u).pair.get y).given := by
      intro u hu
      induction hu with
      | refl => exact List.prefix_rfl
      | step _ ih => exact ih.trans (grows_move (pair_step c _ _) y).given
    exact (key t0 (by omega)).map _

/-! ### The mirror -/

theorem mirror_internal {c : Cfg D} {s0 : Self D} {srv : Srv D H} {f : Nat → Op D H} {t0 : Nat} (hq : Calming c (World.init s0 srv) f t0) {t : Nat}
    (ht : t0 ≤ t) : Internal (mirror (states c (World.init s0 srv) f t) (f t)).2 := by
  cases hop : f t with
  | go i =>
    simp only [mirror, asks_none hq.call hq.sent ht i]
    exact .push _
  | wire y op =>
    simp only [mirror]
    split
    · exact .push _
    · exact hq.wire t y op ht hop
  | serve env =>
    simp only [mirror]
    split
    · exact .push _
    · split
      · exact .work _
      · split
        · exact .work _
        · exact .push _
  | _ => exact .push _

/-- The turns of the threads, seen in the mirror. -/
theorem mirror_turns {c : Cfg D} {w : World D H} {f : Nat → Op D H} {t0 i n : Nat} (hq : Calming c w f t0)
    (hint : ∀ t, t0 ≤ t → Internal (mirror (states c w f t) (f t)).2) (hf : WTurns f i n) :
    Turns fun u => mirror (states c w f (t0 + u)) (f (t0 + u)) := by
  have at_ : ∀ (P : Bool × EndOp D → Prop) (t : Nat), (∃ u, t0 + t ≤ u ∧ P (mirror (states c w f u) (f u))) →
      ∃ u, t ≤ u ∧ P (mirror (states c w f (t0 + u)) (f (t0 + u))) := by
    rintro P t ⟨u, h1, h2⟩
    refine ⟨u - t0, by omega, ?_⟩
    rw [show t0 + (u - t0) = u by omega]; exact h2
  have wire : ∀ (y : Bool) (op : EndOp D) (u : Nat), t0 ≤ u → reserved y op = false → f u = .wire y op → mirror (states c w f u) (f u) = (y, op) := by
    intro y op u hu hr hfu
    rw [hfu]
    simp only [mirror, hr, lives_on hq hu, Bool.and_false, Bool.or_false, Bool.false_eq_true, if_false]
  refine ⟨fun u => hint _ (by omega), ?_, ?_, ?_, ?_, ?_, ?_, ?_⟩
  · intro y t
    obtain ⟨u, h1, h2⟩ := hf.push y (t0 + t)
    exact at_ (· = (y, .push 0)) t ⟨u, h1, wire _ _ _ (by omega) (by cases y <;> rfl) h2⟩
  · intro y t
    obtain ⟨u, h1, h2⟩ := hf.dequeue y (t0 + t)
    exact at_ (· = (y, .dequeue)) t ⟨u, h1, wire _ _ _ (by omega) (by cases y <;> rfl) h2⟩
  · intro y t
    obtain ⟨u, k, h1, h2⟩ := hf.write y (t0 + t)
    obtain ⟨v, h3, h4⟩ := at_ (· = (y, .write k)) t ⟨u, h1, wire _ _ _ (by omega) (by cases y <;> rfl) h2⟩
    exact ⟨v, k, h3, h4⟩
  · intro y t
    obtain ⟨u, h1, h2⟩ := hf.finish y (t0 + t)
    exact at_ (· = (y, .finish)) t ⟨u, h1, wire _ _ _ (by omega) (by cases y <;> rfl) h2⟩
  · intro y t
    obtain ⟨u, k, h1, h2⟩ := hf.read y (t0 + t)
    obtain ⟨v, h3, h4⟩ := at_ (· = (y, .read k)) t ⟨u, h1, wire _ _ _ (by omega) (by cases y <;> rfl) h2⟩
    exact ⟨v, k, h3, h4⟩
  · intro y t
    obtain ⟨u, h1, h2⟩ := hf.decode y (t0 + t)
    exact at_ (· = (y, .decode)) t ⟨u, h1, wire _ _ _ (by omega) (by cases y <;> rfl) h2⟩
  · intro y t
    cases y with
    | false =>
      obtain ⟨u, b, h1, h2⟩ := hf.work (t0 + t)
      obtain ⟨v, h3, h4⟩ := at_ (· = (false, .work b)) t ⟨u, h1, wire _ _ _ (by omega) rfl h2⟩
      exact ⟨v, b, h3, h4⟩
    | true =>
      obtain ⟨u, env, h1, h2⟩ := hf.serve (t0 + t)
      have hm : mirror (states c w f u) (f u) = (true, .work false) := by
        rw [h2]
        simp only [mirror, lives_on hq (show t0 ≤ u by omega), Bool.false_eq_true, if_false]
        cases hj : (states c w f u).pair.b.job with
        | none => rfl
        | some j =>
          obtain ⟨r, hr⟩ := hq.serve u env j (by omega) h2 hj
          simp only [hr]
      obtain ⟨v, h3, h4⟩ := at_ (· = (true, .work false)) t ⟨u, h1, hm⟩
      exact ⟨v, false, h3, h4⟩

/-! ### The claim -/

theorem mem_path_sent {S Q A : Type} {n : Nat} {path : List (Ev S Q A)} (h : n ∈ sentOf path) : ∃ q, Ev.sent n q ∈ path := by
  induction path with
  | nil => cases h
  | cons e l ih =>
    cases e with
    | sent c q =>
      rcases List.mem_cons.1 h with rfl | h
      · exact ⟨q, List.mem_cons_self ..⟩
      · obtain ⟨q, hq⟩ := ih h; exact ⟨q, List.mem_cons_of_mem _ hq⟩
    | saw s => obtain ⟨q, hq⟩ := ih h; exact ⟨q, List.mem_cons_of_mem _ hq⟩
    | got c a => obtain ⟨q, hq⟩ := ih h; exact ⟨q, List.mem_cons_of_mem _ hq⟩

/-- C115, partial. When no new requests are sent, all that were are filed, and what the server dispatches returns, then, however the threads take turns, every
call of the client that waits gives its result, as long as both transports stay connected and the client and the arguments live. Missing: as for
`C115_result_partial`; a connection that is cut leaves the calls to the time limit and to `Close` (C03). -/
theorem C115_settles_partial (c : Cfg D) (s0 : Self D) (srv : Srv D H) (f : Nat → Op D H) (t0 : Nat)
    (hc : ∀ t, Carried c (World.init s0 srv) (before f t)) (halone : ∀ q, Alone (c.handler q))
    (ho : ∀ y, OwnTexts (((states c (World.init s0 srv) f t0).pair.get y).given.map (·.id)))
    (hq : Calming c (World.init s0 srv) f t0) (i n : Nat) (hf : WTurns f i n) (x : CCall D) (k : Client.Outcome D → CBody D)
    (hx : (states c (World.init s0 srv) f t0).client.calls[i]? = some x) (hst : x.st = .check n k ∨ x.st = .wait n k) :
    ∃ T, ∀ t, T ≤ t → (∀ y, ((states c (World.init s0 srv) f t).pair.get y).w.connected = true) → (states c (World.init s0 srv) f t).client.ub = false →
      ∃ (y : CCall D) (r : Option (Val D)), (states c (World.init s0 srv) f t).client.calls[i]? = some y ∧ y.st = .over r := by
  replace ho : ∀ t y, OwnTexts (((states c (World.init s0 srv) f t).pair.get y).given.map (·.id)) :=
    fun t y => own_always halone hq.call hq.sent hq.wire y (ho y) t
  have hmir := mirrors_all hc (fun t => ho t false)
  generalize horc : oracle c (World.init s0 srv) f = orc at hmir
  -- the request of the call
  obtain ⟨q, hpath⟩ := mem_path_sent (((client_inv c s0 srv f t0).tr i x hx).waits n k hst)
  have hlink := link_world c s0 srv (before f t0)
  rw [← states_run] at hlink
  obtain ⟨m, hm, hgiven⟩ := hlink.sent i x n q hx hpath
  have hfuts : ∀ u, t0 ≤ u → (states c (World.init s0 srv) f u).futs[n]? = some m := by
    intro u hu
    induction hu with
    | refl => exact hm
    | step _ ih => exact get_prefix (futs_step c _ _) ih
  -- the transports come to rest
  generalize hmo : (fun u => mirror (states c (World.init s0 srv) f u) (f u)) = mo at hmir
  have hpl : Plain (c.with orc) ((List.range t0).map mo) := by
    refine ⟨fun y q => ?_, fun op hop => ?_⟩
    · cases y with
      | false => exact (hc 0).handlers q
      | true => rw [← horc]; exact oracle_plain hc q
    · obtain ⟨t, -, rfl⟩ := List.mem_map.1 hop
      rw [← hmo]; exact mirror_plain hc t
  have hal : ∀ y q, Alone ((c.with orc).handler y q) := by
    intro y q
    cases y with
    | false => exact halone q
    | true => rw [← horc]; exact oracle_alone c _ f q
  have hturns : Turns fun u => mo (t0 + u) := by
    rw [← hmo]; exact mirror_turns hq (fun t ht => mirror_internal hq ht) hf
  have hsame : ∀ t y, ((states c (World.init s0 srv) f t).pair.get y).given = (((Pair.init : Pair D).run (c.with orc) ((List.range t).map mo)).get y).given ∧
      ((states c (World.init s0 srv) f t).pair.get y).p = (((Pair.init : Pair D).run (c.with orc) ((List.range t).map mo)).get y).p ∧
      ((states c (World.init s0 srv) f t).pair.get y).w = (((Pair.init : Pair D).run (c.with orc) ((List.range t).map mo)).get y).w := by
    intro t y
    cases y with
    | false => simp only [Pair.get, (hmir t).a, and_self]
    | true => simp only [Pair.get, (hmir t).b]; exact ⟨rfl, rfl, rfl⟩
  obtain ⟨T, hT1, hT2⟩ := C114_settles_partial (c.with orc) ((List.range t0).map mo) hpl hal (fun u => mo (t0 + u)) hturns
    (fun y => by rw [← (hsame t0 y).1]; exact ho t0 y) (fun y => by rw [← (hsame t0 y).2.1]; exact hq.filed y)
  have hfollow : ∀ u, follow (c.with orc) ((Pair.init : Pair D).run (c.with orc) ((List.range t0).map mo)) (fun u => mo (t0 + u)) u =
      (Pair.init : Pair D).run (c.with orc) ((List.range (t0 + u)).map mo) := by
    intro u
    rw [follow_run, List.range_add, List.map_append, List.map_map]
    simp only [Pair.run, List.foldl_append]
    rfl
  -- if the connection holds, the request has its outcome
  by_cases hconn : ∀ y, ((states c (World.init s0 srv) f (t0 + T)).pair.get y).w.connected = true
  · have hout : ∃ so, AMap.get (states c (World.init s0 srv) f (t0 + T)).pair.a.p.outcomes m = some so := by
      have hin : ∃ so, (m, so) ∈ (states c (World.init s0 srv) f (t0 + T)).pair.a.p.outcomes := by
        by_cases hopen : ∀ o, (m, o) ∉ (((Pair.init : Pair D).run (c.with orc) ((List.range t0).map mo)).get false).p.outcomes
        · obtain ⟨-, h⟩ := hT2 (fun y => by rw [hfollow, ← (hsame (t0 + T) y).2.2]; exact hconn y) false
          obtain ⟨r, -, -, h1, -⟩ := h m _ (by rw [← (hsame t0 false).1]; exact hgiven) hopen
          rw [hfollow, ← (hsame (t0 + T) false).2.1] at h1
          exact ⟨_, h1⟩
        · obtain ⟨o, ho'⟩ := Classical.not_forall.1 hopen
          have ho'' := Classical.not_not.1 ho'
          rw [← (hsame t0 false).2.1] at ho''
          refine ⟨o, ?_⟩
          have hpre : ∀ u, t0 ≤ u → (states c (World.init s0 srv) f t0).pair.a.p.outcomes <+: (states c (World.init s0 srv) f u).pair.a.p.outcomes := by
            intro u hu
            induction hu with
            | refl => exact List.prefix_rfl
            | step _ ih => exact ih.trans (grows_move (pair_step c _ _) false).outcomes
          exact (hpre _ (Nat.le_add_right _ _)).subset ho''
      obtain ⟨so, hso⟩ := hin
      cases hg : AMap.get (states c (World.init s0 srv) f (t0 + T)).pair.a.p.outcomes m with
      | some so' => exact ⟨so', rfl⟩
      | none => exact absurd (List.mem_map_of_mem (f := (·.1)) hso) (AMap.get_none_iff.1 hg)
    obtain ⟨so, hso⟩ := hout
    obtain ⟨U, hU⟩ := over_of_outcome c s0 srv f hf hx hst (Nat.le_add_right t0 T) (hfuts _ (Nat.le_add_right _ _)) hso
    exact ⟨U, fun t ht _ hub => hU t ht hub⟩
  · -- a connection that is cut stays cut
    refine ⟨t0 + T, fun t ht hcon _ => absurd (fun y => ?_) hconn⟩
    have h1 := hT1 (t - t0) (by omega)
    rw [hfollow, hfollow, show t0 + (t - t0) = t by omega] at h1
    rw [(hsame (t0 + T) y).2.2, ← h1, ← (hsame t y).2.2]
    exact hcon y

end Verif.Whole
