import Verif.Web.Inv

/-! Helper lemmas for C116: the invariant holds in every execution, and what the server was given comes from its dispatches. -/

namespace Verif.Web

open Verif.Await Verif.Client Verif.Server Verif.Http
open Verif.Whole (asRequest asking snoc_induction paths_step cells_step cells_other go_quiet go_asks lt_of_get)
open Verif.InMemory (PlainReq PlainNote)

variable {D H : Type} [DblFmt D]

/-! ### Serving -/

/-- Two handlers that say the same to what they are given serve a flight alike. -/
theorem serve_step_same (c : LinkCfg) (s : Http.Link D) (i : Nat) (now : Int) (a : Bytes) (f g : Option TokenInfo → Request D → HandlerOutcome D) (n e : Bool) (d : Bytes)
    (h : ∀ k p w, s.flights[i]? = some ⟨k, p, w, none⟩ →
      Agree f g (Http.serve c.loopback c.server c.auth now (fun tok => ⟨some (f tok), n, e⟩) s.hs d (c.posted w a))) :
    s.step c (.serve i now a f n e d) = s.step c (.serve i now a g n e d) := by
  simp only [Link.step, Link.serve]
  split
  · rename_i k p w hfl
    have hag := h k p w hfl
    have hsame := serve_same c.loopback c.server c.auth now s.hs d (c.posted w a) hag
    rw [← hsame]
    have hmap : (Http.serve c.loopback c.server c.auth now (fun tok => (⟨some (f tok), n, e⟩ : Handlers D)) s.hs d (c.posted w a)).handled.map (fun x => (k, x.1, f x.2 x.1)) =
        (Http.serve c.loopback c.server c.auth now (fun tok => (⟨some (f tok), n, e⟩ : Handlers D)) s.hs d (c.posted w a)).handled.map (fun x => (k, x.1, g x.2 x.1)) :=
      List.map_congr_left fun x hx => by rw [hag x.1 x.2 hx]
    rw [hmap]
  · rfl

theorem served_some {c : LinkCfg} {w : World D H} {i : Nat} {now : Int} {a : Bytes} {env : Env D H} {n e : Bool} {d : Bytes} {out : Served D}
    (h : w.served c i now a env n e d = some out) : i ∉ w.ended ∧ ∃ k p sent, w.link.flights[i]? = some ⟨k, p, sent, none⟩ ∧
      out = Http.serve c.loopback c.server c.auth now (fun tok => ⟨some (handler env w.srv tok), n, e⟩) w.link.hs d (c.posted sent a) := by
  unfold World.served at h
  split at h
  · cases h
  · rename_i hi
    refine ⟨hi, ?_⟩
    split at h
    · rename_i k p sent hfl
      cases h
      exact ⟨k, p, sent, hfl, rfl⟩
    · cases h

/-- What serving a flight does. -/
inductive ServeMove (c : LinkCfg) (w : World D H) (l : List (Nat × Request D)) (i : Nat) (now : Int) (a : Bytes) (env : Env D H) (n e : Bool) (d : Bytes) : World D H → Prop
  | stay : ServeMove c w l i now a env n e d w
  | idle (hadd : (w.link.step c (.serve i now a (fun _ _ => .nul) n e d)).handled = w.link.handled) : ServeMove c w l i now a env n e d { w with link := w.link.step c (.serve i now a (fun _ _ => .nul) n e d) }
  | answered (out : Served D) (k : Nat) (sent : Sent) (st : Bool) (m : Nat) (q : Request D) (tok : Option TokenInfo) (r : Response D)
      (hs : w.served c i now a env n e d = some out) (hfl : w.link.flights[i]? = some ⟨k, .request (keyText q.id) st, sent, none⟩) (hx : (m, q) ∈ l)
      (hh : out.handled = [(q, tok)]) (hr : (dispatch env w.srv q).1 = .answer r)
      (hadd : (w.link.step c (.serve i now a (fun _ _ => .resp r) n e d)).handled = w.link.handled ++ [(k, q, .resp r)]) :
      ServeMove c w l i now a env n e d { w with srv := (dispatch env w.srv q).2, link := w.link.step c (.serve i now a (fun _ _ => .resp r) n e d) }
  | escaped (out : Served D) (k : Nat) (sent : Sent) (st : Bool) (m : Nat) (q : Request D) (tok : Option TokenInfo)
      (hs : w.served c i now a env n e d = some out) (hfl : w.link.flights[i]? = some ⟨k, .request (keyText q.id) st, sent, none⟩) (hx : (m, q) ∈ l)
      (hh : out.handled = [(q, tok)]) (hr : (dispatch env w.srv q).1 = .escaped) (htk : ∀ m, HsOp.take m ∉ out.ops) :
      ServeMove c w l i now a env n e d { w with srv := (dispatch env w.srv q).2, link := w.link.server out.ops, ended := w.ended ++ [i] }

theorem serve_move {c : LinkCfg} (ha : PlainReasons c.auth) {w : World D H} {l : List (Nat × Request D)} (h : Inv c w l) (few : w.slots.length < 2 ^ 32) (i : Nat) (now : Int)
    (a : Bytes) (env : Env D H) (n e : Bool) (d : Bytes) : ServeMove c w l i now a env n e d (w.serve c i now a env n e d) := by
  unfold World.serve
  split
  · exact .stay
  · rename_i out hs
    obtain ⟨-, k, p, sent, hfl, hout⟩ := served_some hs
    have hof := handled_of ha (h.link ha few) h.filed hfl now a (handler env w.srv) n e d
    rw [← hout] at hof
    rcases hof with h1 | ⟨⟨m, q⟩, hx, tok, st, h1, hp⟩
    · simp only [h1]
      have hsame := serve_step_same c w.link i now a (handler env w.srv) (fun _ _ => .nul) n e d (fun k' p' w' hfl' q tok hq => by
        rw [hfl] at hfl'; cases hfl'; rw [← hout, h1] at hq; cases hq)
      rw [hsame]
      refine .idle ?_
      rw [← hsame]
      simp only [Link.step, Link.serve, hfl]
      rw [← hout, h1]
      simp [Link.server]
    · simp only [h1]
      simp only at hp
      subst hp
      split
      · rename_i r hr
        have hhan : ∀ tok', handler env w.srv tok' q = .resp r := by intro tok'; simp only [handler, hr]
        rw [serve_step_same c w.link i now a (handler env w.srv) (fun _ _ => .resp r) n e d (fun k' p' w' hfl' q' tok' hq => by
          rw [hfl] at hfl'; cases hfl'
          rw [← hout, h1] at hq
          cases List.mem_singleton.1 hq
          exact hhan tok)]
        refine .answered out k sent st m q tok r hs hfl hx h1 hr ?_
        rw [← serve_step_same c w.link i now a (handler env w.srv) (fun _ _ => .resp r) n e d (fun k' p' w' hfl' q' tok' hq => by
          rw [hfl] at hfl'; cases hfl'
          rw [← hout, h1] at hq
          cases List.mem_singleton.1 hq
          exact hhan tok)]
        simp only [Link.step, Link.serve, hfl]
        rw [← hout, h1]
        simp [hhan, Link.server]
      · rename_i hr
        exact .escaped out k sent st m q tok hs hfl hx h1 hr (by rw [hout]; exact served_takes _ _ _ _ _ _ _ _)
      · exact .stay

/-! ### The invariant in every step -/

theorem added_plainly {s : Http.Link D} {op : LinkOp D} (h : Plainly op) : added s op = [] := by
  cases op <;> first | rfl | exact absurd h id

theorem Inv.serverOps {c : LinkCfg} (ha : PlainReasons c.auth) (ops : List (HsOp D)) (htk : ∀ m, HsOp.take m ∉ ops) : ∀ {w : World D H} {l : List (Nat × Request D)},
    Inv c w l → w.slots.length < 2 ^ 32 → Inv c { w with link := w.link.server ops } l := by
  induction ops with
  | nil =>
    intro w l h few
    have : w.link.server [] = w.link := by simp [Link.server, Hs.run]
    rw [this]
    exact h
  | cons op ops ih =>
    intro w l h few
    have h1 : Inv c { w with link := w.link.step c (.world op) } l := by
      refine h.wired ha few (.world op) ?_ trivial rfl rfl rfl rfl
      cases op with
      | take m => exact absurd (List.mem_cons_self ..) (htk m)
      | _ => trivial
    have h2 := ih (fun m hm => htk m (List.mem_cons_of_mem _ hm)) h1 few
    have : (w.link.step c (.world op)).server ops = w.link.server (op :: ops) := by
      simp [Link.step, Link.server, Hs.run]
    rw [← this]
    exact h2

theorem Inv.aside {c : LinkCfg} {w w' : World D H} {l : List (Nat × Request D)} (h : Inv c w l) (h1 : w'.client = w.client) (h2 : w'.slots = w.slots) (h3 : w'.link = w.link) :
    Inv c w' l :=
  h.cliented h2 h3 (by rw [h1]) (fun j y hy n q hq => ⟨y, by rw [← h1]; exact hy, hq⟩) (fun n o hn => .inl (by rw [← h1]; exact hn))

/-- The futures and the filed requests after one more step. -/
theorem inv_step {c : LinkCfg} {s0 : Self D} {srv : Srv D H} {ops : List (Op D H)} {op : Op D H} (hc : Carried c (World.init s0 srv) (ops ++ [op]))
    {l : List (Nat × Request D)} (h : Inv c ((World.init s0 srv).run c ops) l) (few : ((World.init s0 srv).run c ops).slots.length < 2 ^ 32) :
    ∃ l', Inv c (((World.init s0 srv).run c ops).step c op) l' ∧ l <+: l' := by
  have ha := hc.reasons
  have hclient : ∀ (w' : World D H) (cop : COp D), (∀ i, cop ≠ .go i) → (∀ n o, cop ≠ .fill n o) → w'.slots = ((World.init s0 srv).run c ops).slots →
      w'.client = ((World.init s0 srv).run c ops).client.step cop → w'.link = ((World.init s0 srv).run c ops).link → ∃ l', Inv c w' l' ∧ l <+: l' := by
    intro w' cop h0 h0' h1 h2 h3
    refine ⟨l, h.cliented h1 h3 (by rw [h2]; exact cells_step _ _ h0) (fun j y hy n q hq => ?_) (fun n o hn => ?_), List.prefix_rfl⟩
    · rw [h2] at hy; exact paths_step _ _ h0 j y hy n q hq
    · rw [h2] at hn
      rcases cells_other _ _ h0 n o hn with h4 | h4
      · exact .inl h4
      · exact absurd h4 (h0' n o)
  have same : ∃ l', Inv c ((World.init s0 srv).run c ops) l' ∧ l <+: l' := ⟨l, h, List.prefix_rfl⟩
  cases op with
  | call api => exact hclient _ (.call (body api)) (fun i => nofun) (fun n o => nofun) rfl rfl rfl
  | drop i => exact hclient _ (.drop i) (fun i => nofun) (fun n o => nofun) rfl rfl rfl
  | change u => exact hclient _ (.change u) (fun i => nofun) (fun n o => nofun) rfl rfl rfl
  | own op => exact ⟨l, h.aside rfl rfl rfl, List.prefix_rfl⟩
  | deliver k =>
    have hnf : ∀ so : SOut D, ∀ i, (Await.Op.fill k (seen so) : COp D) ≠ .go i := fun _ _ h => nomatch h
    simp only [World.step, World.deliver]
    split
    · rename_i m hm
      split
      · rename_i so hso
        refine ⟨l, h.cliented rfl rfl (cells_step _ _ (hnf so)) (fun j y hy n q hq => paths_step _ _ (hnf so) j y hy n q hq) (fun n o hn => ?_), List.prefix_rfl⟩
        rcases cells_other _ _ (hnf so) n o hn with h4 | h4
        · exact .inl h4
        · cases h4; exact .inr ⟨m, so, hm, AMap.get_some_mem hso, rfl⟩
      · exact same
    · exact same
  | go i =>
    by_cases hq : ∃ q, asking ((World.init s0 srv).run c ops).client i = some q ∧
        (((World.init s0 srv).run c ops).client.ub = false ∧ ((World.init s0 srv).run c ops).client.alive = true)
    · obtain ⟨q, hq, hs⟩ := hq
      exact ⟨l, h.asked ha few hq hs (asking_plain hc.prefix.calls hq), List.prefix_rfl⟩
    · have hquiet : asking ((World.init s0 srv).run c ops).client i = none ∨
          ¬ (((World.init s0 srv).run c ops).client.ub = false ∧ ((World.init s0 srv).run c ops).client.alive = true) := by
        cases ha' : asking ((World.init s0 srv).run c ops).client i with
        | none => exact .inl rfl
        | some q => exact .inr fun hs => hq ⟨q, ha', hs⟩
      obtain ⟨h1, h2⟩ := go_quiet ((World.init s0 srv).run c ops).client i hquiet
      have hw : ((World.init s0 srv).run c ops).step c (.go i) =
          { (World.init s0 srv).run c ops with client := ((World.init s0 srv).run c ops).client.step (.go i) } := by
        simp only [World.step, World.go]
        split
        · rename_i q hq'
          split
          · rename_i hs; exact absurd ⟨q, hq', hs⟩ hq
          · rfl
        · rfl
      rw [hw]
      exact ⟨l, h.cliented rfl rfl (by rw [h1]) h2 (fun n o hn => .inl (by rw [← h1]; exact hn)), List.prefix_rfl⟩
  | wire op =>
    have hop : PlainLinkOp op := hc.wires op (by simp)
    have plainly : Plainly op → ((World.init s0 srv).run c ops).step c (.wire op) =
        { (World.init s0 srv).run c ops with link := ((World.init s0 srv).run c ops).link.step c op } →
        ∃ l', Inv c (((World.init s0 srv).run c ops).step c (.wire op)) l' ∧ l <+: l' := by
      intro hp hw
      rw [hw]
      exact ⟨l, h.wired ha few op hop hp (added_plainly hp) rfl rfl rfl, List.prefix_rfl⟩
    cases op with
    | send r => exact same
    | serve i now a f n e d => exact same
    | file t =>
      show ∃ l', Inv c (((World.init s0 srv).run c ops).file c t) l' ∧ l <+: l'
      by_cases hr : ∃ r, ((World.init s0 srv).run c ops).link.ht.tickets[t]? = some (some r)
      · obtain ⟨r, hr⟩ := hr
        exact ⟨_, h.ticketed ha few hr, List.prefix_append _ _⟩
      · have : ((World.init s0 srv).run c ops).file c t = (World.init s0 srv).run c ops := by
          unfold World.file
          split
          · rename_i r hr'; exact absurd ⟨r, hr'⟩ hr
          · rfl
        rw [this]
        exact same
    | _ => exact plainly trivial rfl
  | serve i now a env n e d =>
    have hm := serve_move ha h few i now a env n e d
    show ∃ l', Inv c (((World.init s0 srv).run c ops).serve c i now a env n e d) l' ∧ l <+: l'
    generalize hw' : ((World.init s0 srv).run c ops).serve c i now a env n e d = w' at hm ⊢
    cases hm with
    | stay => exact same
    | idle hadd => exact ⟨l, h.wired ha few (.serve i now a (fun _ _ => .nul) n e d) (fun _ _ => trivial) trivial rfl rfl rfl rfl, List.prefix_rfl⟩
    | answered out k sent st m q tok r hs hfl hx hh hr hadd =>
      have hpl : PlainAnswer (.resp r) := hc.answers ops.length q env _ r (by
        have := dispatched_last hs hh
        rw [hr] at this
        exact this)
      exact ⟨l, h.wired ha few (.serve i now a (fun _ _ => .resp r) n e d) (fun _ _ => hpl) trivial rfl rfl rfl rfl, List.prefix_rfl⟩
    | escaped out k sent st m q tok hs hfl hx hh hr htk => exact ⟨l, (h.serverOps ha out.ops htk few).aside rfl rfl rfl, List.prefix_rfl⟩

theorem slots_step (c : LinkCfg) (w : World D H) (op : Op D H) : w.slots.length ≤ (w.step c op).slots.length := by
  cases op with
  | go i =>
    simp only [World.step, World.go]
    split
    · split
      · simp
      · exact Nat.le_refl _
    · exact Nat.le_refl _
  | deliver k =>
    simp only [World.step, World.deliver]
    split
    · split <;> exact Nat.le_refl _
    · exact Nat.le_refl _
  | wire op =>
    cases op with
    | file t =>
      show _ ≤ (w.file c t).slots.length
      unfold World.file
      split
      · simp
      · exact Nat.le_refl _
    | _ => exact Nat.le_refl _
  | serve i now a env n e d =>
    simp only [World.step, World.serve]
    split
    · exact Nat.le_refl _
    · split
      · exact Nat.le_refl _
      · split <;> exact Nat.le_refl _
  | _ => exact Nat.le_refl _

theorem inv_world (c : LinkCfg) (s0 : Self D) (srv : Srv D H) (ops : List (Op D H)) (hc : Carried c (World.init s0 srv) ops)
    (few : ((World.init s0 srv).run c ops).slots.length < 2 ^ 32) : ∃ l, Inv c ((World.init s0 srv).run c ops) l := by
  induction ops using snoc_induction with
  | h0 => exact ⟨[], inv_init c s0 srv⟩
  | h1 ops op ih =>
    rw [run_snoc] at few ⊢
    have few' := Nat.lt_of_le_of_lt (slots_step c _ op) few
    obtain ⟨l, h⟩ := ih hc.prefix few'
    obtain ⟨l', h', -⟩ := inv_step hc h few'
    exact ⟨l', h'⟩

/-! ### Where what was handled comes from -/

theorem handled_world (c : LinkCfg) (s0 : Self D) (srv : Srv D H) (ops : List (Op D H)) (hc : Carried c (World.init s0 srv) ops)
    (few : ((World.init s0 srv).run c ops).slots.length < 2 ^ 32) {k : Nat} {q : Request D} {o : HandlerOutcome D}
    (hk : (k, q, o) ∈ ((World.init s0 srv).run c ops).link.handled) : ∃ p env σ r, o = .resp r ∧ DispatchedAt c (World.init s0 srv) ops p q env σ (.answer r) := by
  induction ops using snoc_induction with
  | h0 => cases hk
  | h1 ops op ih =>
    rw [run_snoc] at few hk
    have few' := Nat.lt_of_le_of_lt (slots_step c _ op) few
    obtain ⟨l, h⟩ := inv_world c s0 srv ops hc.prefix few'
    have old : (k, q, o) ∈ ((World.init s0 srv).run c ops).link.handled → ∃ p env σ r, o = .resp r ∧ DispatchedAt c (World.init s0 srv) (ops ++ [op]) p q env σ (.answer r) := by
      intro hk
      obtain ⟨p, env, σ, r, h1, h2⟩ := ih hc.prefix few' hk
      exact ⟨p, env, σ, r, h1, h2.more op⟩
    cases op with
    | go i =>
      refine old ?_
      simp only [World.step, World.go] at hk
      split at hk
      · split at hk <;> exact hk
      · exact hk
    | deliver n =>
      refine old ?_
      simp only [World.step, World.deliver] at hk
      split at hk
      · split at hk <;> exact hk
      · exact hk
    | wire lop =>
      refine old ?_
      have hfile : ∀ t, (k, q, o) ∈ (((World.init s0 srv).run c ops).file c t).link.handled → (k, q, o) ∈ ((World.init s0 srv).run c ops).link.handled := by
        intro t ht
        unfold World.file at ht
        split at ht <;> exact ht
      cases lop with
      | file t => exact hfile t hk
      | send r => exact hk
      | serve i now a f n e d => exact hk
      | begin j =>
        have hk' : (k, q, o) ∈ (((World.init s0 srv).run c ops).link.begin c j).handled := hk
        unfold Link.begin at hk'
        split at hk' <;> exact hk'
      | start => rw [← (flights_link c ((World.init s0 srv).run c ops).link .start (fun _ => nofun) (fun _ _ _ _ _ _ _ => nofun)).2]; exact hk
      | note m => rw [← (flights_link c ((World.init s0 srv).run c ops).link (.note m) (fun _ => nofun) (fun _ _ _ _ _ _ _ => nofun)).2]; exact hk
      | failEarly hd j => rw [← (flights_link c ((World.init s0 srv).run c ops).link (.failEarly hd j) (fun _ => nofun) (fun _ _ _ _ _ _ _ => nofun)).2]; exact hk
      | close => rw [← (flights_link c ((World.init s0 srv).run c ops).link .close (fun _ => nofun) (fun _ _ _ _ _ _ _ => nofun)).2]; exact hk
      | arrive hd j => rw [← (flights_link c ((World.init s0 srv).run c ops).link (.arrive hd j) (fun _ => nofun) (fun _ _ _ _ _ _ _ => nofun)).2]; exact hk
      | lose hd j => rw [← (flights_link c ((World.init s0 srv).run c ops).link (.lose hd j) (fun _ => nofun) (fun _ _ _ _ _ _ _ => nofun)).2]; exact hk
      | listen now a f n e d => rw [← (flights_link c ((World.init s0 srv).run c ops).link (.listen now a f n e d) (fun _ => nofun) (fun _ _ _ _ _ _ _ => nofun)).2]; exact hk
      | event hd j => rw [← (flights_link c ((World.init s0 srv).run c ops).link (.event hd j) (fun _ => nofun) (fun _ _ _ _ _ _ _ => nofun)).2]; exact hk
      | world hop => rw [← (flights_link c ((World.init s0 srv).run c ops).link (.world hop) (fun _ => nofun) (fun _ _ _ _ _ _ _ => nofun)).2]; exact hk
    | serve i now a env n e d =>
      have hm := serve_move hc.reasons h few' i now a env n e d
      have hk' : (k, q, o) ∈ (((World.init s0 srv).run c ops).serve c i now a env n e d).link.handled := hk
      clear hk
      generalize hw' : ((World.init s0 srv).run c ops).serve c i now a env n e d = w' at hm hk'
      cases hm with
      | stay => exact old hk'
      | idle hadd =>
        rw [show (k, q, o) ∈ (((World.init s0 srv).run c ops).link.step c (.serve i now a (fun _ _ => .nul) n e d)).handled ↔ _ from by rw [hadd]] at hk'
        exact old hk'
      | answered out k' sent st m q' tok r hs hfl hx hh hr hadd =>
        rw [show (k, q, o) ∈ (((World.init s0 srv).run c ops).link.step c (.serve i now a (fun _ _ => .resp r) n e d)).handled ↔ _ from by rw [hadd]] at hk'
        rcases List.mem_append.1 hk' with h1 | h1
        · exact old h1
        · cases List.mem_singleton.1 h1
          have := dispatched_last hs hh
          rw [hr] at this
          exact ⟨ops.length, env, _, r, rfl, this⟩
      | escaped out k' sent st m q' tok hs hfl hx hh hr htk => exact old hk'
    | _ => exact old hk

end Verif.Web
