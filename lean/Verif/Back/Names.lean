import Verif.Back.Answers
import Verif.Ask.HandlerProps

/-! Helper lemmas for C134: the ids of the requests of the server, some of which the callers give. -/

set_option linter.unusedSectionVars false

namespace Verif.Back

open Verif.Await Verif.Client Verif.Server Verif.Shm
open Verif.Whole (snoc_induction lt_of_get)
open Verif.Ask (asRequest asking named nodup_filterMap sent_stays go_sends call_asks mem_sentOf)
open Verif.Share (NOp seen actor reserved calm_step)
open Verif.Stdio (idText)

variable {D H : Type} [DblFmt D]

/-- The id a request comes with, if any. -/
def nameIn (r : Request D) : Option Bytes := if idText r.id ≠ [] then some (idText r.id) else none

/-- The ids given to the requests that this side is told to send. -/
def given (y : Bool) : NOp D → Option Bytes
  | .send x r => if x = y then nameIn r else none
  | _ => none

/-- The ids of one side differ: those made here, and those of callers, which are among `names`; and no promise was destroyed unset. -/
structure Ids (e : Endpoint D) (names : List Bytes) : Prop where
  tickets : ∀ r ∈ e.tickets, ∃ s, r.id = .str s ∧ (s = [] ∨ s ∈ names)
  made : ∀ n r, (n, r) ∈ e.asked → (∃ k, k ≤ e.counter ∧ idText r.id = lit "shm-req-" ++ natDec k) ∨ idText r.id ∈ names
  apart : (e.asked.map (fun p => idText p.2.id) ++ e.tickets.filterMap nameIn).Nodup
  kept : ∀ n, (n, Outcome.broken) ∉ e.tab.outcomes

theorem Ids.more {e : Endpoint D} {names : List Bytes} (h : Ids e names) {names' : List Bytes} (hn : ∀ k ∈ names, k ∈ names') : Ids e names' :=
  ⟨fun r hr => by
      obtain ⟨s, h1, h2⟩ := h.tickets r hr
      exact ⟨s, h1, h2.imp id (hn s)⟩,
    fun n r hr => (h.made n r hr).imp id (hn _), h.apart, h.kept⟩

theorem Ids.calm {e e' : Endpoint D} {names : List Bytes} (h : Ids e names) (hc : Share.Calm e e') (hk : e.counter ≤ e'.counter) : Ids e' names := by
  obtain ⟨more, h1, h2⟩ := hc.outcomes
  refine ⟨by rw [hc.tickets]; exact h.tickets, fun n r hr => ?_, by rw [hc.asked, hc.tickets]; exact h.apart, fun n hn => ?_⟩
  · rw [hc.asked] at hr
    rcases h.made n r hr with ⟨k, h3, h4⟩ | h3
    · exact .inl ⟨k, Nat.le_trans h3 hk, h4⟩
    · exact .inr h3
  · rw [h1] at hn
    rcases List.mem_append.1 hn with hn | hn
    · exact h.kept n hn
    · exact h2 n hn

theorem Ids.name_ticket {e : Endpoint D} {names : List Bytes} (h : Ids e names) {k : Bytes} (hk : k ∈ e.tickets.filterMap nameIn) : k ∈ names := by
  obtain ⟨r, h1, h2⟩ := List.mem_filterMap.1 hk
  obtain ⟨s, h3, h4⟩ := h.tickets r h1
  unfold nameIn at h2
  split at h2
  · rename_i hne
    cases h2
    rw [h3] at hne ⊢
    exact h4.resolve_left hne
  · cases h2

theorem Ids.send {e : Endpoint D} {names : List Bytes} (h : Ids e names) {r : Request D} {s : Bytes} (hr : r.id = .str s)
    (hnew : ∀ k, nameIn r = some k → k ∉ names ∧ ¬ lit "shm-req-" <+: k) : Ids (e.send r) (names ++ (nameIn r).toList) := by
  unfold Endpoint.send
  split
  · refine ⟨fun q hq => ?_, (h.more (fun k hk => List.mem_append_left _ hk)).made, ?_, h.kept⟩
    · rcases List.mem_append.1 hq with hq | hq
      · exact (h.more (fun k hk => List.mem_append_left _ hk)).tickets q hq
      · cases List.mem_singleton.1 hq
        refine ⟨s, hr, ?_⟩
        by_cases hs : s = []
        · exact .inl hs
        · refine .inr (List.mem_append_right _ ?_)
          unfold nameIn
          rw [hr, if_pos (show idText (.str s) ≠ [] from hs)]
          exact List.mem_singleton.2 rfl
    · rw [List.filterMap_append, ← List.append_assoc]
      cases hn : nameIn r with
      | none => simpa [hn] using h.apart
      | some k =>
        obtain ⟨h1, h2⟩ := hnew k hn
        rw [List.filterMap_cons_some hn, List.filterMap_nil, List.nodup_append]
        refine ⟨h.apart, by simp, fun a ha b hb hab => ?_⟩
        cases List.mem_singleton.1 hb
        subst hab
        rcases List.mem_append.1 ha with ha | ha
        · obtain ⟨⟨n, q⟩, h3, h4⟩ := List.mem_map.1 ha
          have h4 : idText q.id = a := h4
          rcases h.made n q h3 with ⟨j, -, h5⟩ | h5
          · exact h2 (by rw [← h4, h5]; exact List.prefix_append _ _)
          · exact h1 (by rw [← h4]; exact h5)
        · exact h1 (h.name_ticket ha)
  · refine ⟨(h.more (fun k hk => List.mem_append_left _ hk)).tickets, (h.more (fun k hk => List.mem_append_left _ hk)).made, h.apart, fun n hn => ?_⟩
    rcases List.mem_append.1 hn with hn | hn
    · exact h.kept n hn
    · cases List.mem_singleton.1 hn

theorem eraseIdx_perm {α : Type} : ∀ (l : List α) (i : Nat) (a : α), l[i]? = some a → (a :: l.eraseIdx i).Perm l
  | [], i, a, h => by cases h
  | b :: l, 0, a, h => by cases h; exact List.Perm.refl _
  | b :: l, i + 1, a, h => by
    have := eraseIdx_perm l i a h
    exact (List.Perm.swap b a _).trans (this.cons b)

theorem Ids.file {e : Endpoint D} {names : List Bytes} (h : Ids e names) (ht : e.tab.Inv Fits Loose) (hk : e.asked.map (fun p => (p.1, idText p.2.id)) = e.tab.sent)
    (hc : e.counter + 1 < 2 ^ 64) (hform : ∀ k ∈ names, ¬ lit "shm-req-" <+: k) (i : Nat) : Ids (e.file i) names := by
  unfold Endpoint.file
  split
  · exact h
  · rename_i r hr
    obtain ⟨s, hid, hs⟩ := h.tickets r (List.mem_of_getElem? hr)
    have hperm := (eraseIdx_perm _ _ _ hr).filterMap nameIn
    -- what matters of the id chosen
    have key : ∃ id n, chooseId r.id e.counter = (id, n) ∧ e.counter ≤ n ∧ ((∃ k, k ≤ n ∧ idText id = lit "shm-req-" ++ natDec k) ∨ idText id ∈ names) ∧
        (e.asked.map (fun p => idText p.2.id) ++ idText id :: (e.tickets.eraseIdx i).filterMap nameIn).Nodup := by
      by_cases h0 : s = []
      · subst h0
        refine ⟨.str (lit "shm-req-" ++ natDec (e.counter + 1)), e.counter + 1, ?_, Nat.le_succ _, .inl ⟨_, Nat.le_refl _, rfl⟩, ?_⟩
        · rw [hid]; unfold chooseId; rw [nextCount_succ hc]; rfl
        · have hp : ((e.tickets.eraseIdx i).filterMap nameIn).Perm (e.tickets.filterMap nameIn) := by
            rwa [List.filterMap_cons_none (by unfold nameIn; rw [hid]; rfl)] at hperm
          refine (List.perm_middle.nodup_iff).2 (List.nodup_cons.2 ⟨fun hm => ?_, ((List.Perm.append_left _ hp).nodup_iff).2 h.apart⟩)
          rcases List.mem_append.1 hm with hm | hm
          · obtain ⟨⟨n, q⟩, h3, h4⟩ := List.mem_map.1 hm
            have h4 : idText q.id = lit "shm-req-" ++ natDec (e.counter + 1) := h4
            rcases h.made n q h3 with ⟨j, h5, h6⟩ | h5
            · rw [h6] at h4
              have := congrArg digitsVal (List.append_cancel_left h4)
              rw [digitsVal_natDec, digitsVal_natDec] at this
              omega
            · exact hform _ h5 (by rw [h4]; exact List.prefix_append _ _)
          · exact hform _ (h.name_ticket (hp.subset hm)) (List.prefix_append _ _)
      · refine ⟨.str s, e.counter, ?_, Nat.le_refl _, .inr (hs.resolve_left h0), ?_⟩
        · rw [hid]; unfold chooseId; simp [h0]
        · have hp : (s :: (e.tickets.eraseIdx i).filterMap nameIn).Perm (e.tickets.filterMap nameIn) := by
            rwa [List.filterMap_cons_some (b := s) (by unfold nameIn; rw [hid]; exact if_pos h0)] at hperm
          exact ((List.Perm.append_left _ hp).nodup_iff).2 h.apart
    obtain ⟨id, n', hch, hle, hmade, hnd⟩ := key
    dsimp only
    rw [hch]
    have hnew : ∀ p ∈ e.asked, idText p.2.id ≠ idText id := fun p hp he =>
      (List.nodup_append.1 hnd).2.2 _ (List.mem_map.2 ⟨p, hp, rfl⟩) _ (List.mem_cons_self ..) he
    refine ⟨fun q hq => h.tickets q (InMemory.mem_of_eraseIdx hq), fun n q hq => ?_, ?_, fun n hn => ?_⟩
    · rcases List.mem_append.1 hq with hq | hq
      · rcases h.made n q hq with ⟨k, h1, h2⟩ | h1
        · exact .inl ⟨k, Nat.le_trans h1 hle, h2⟩
        · exact .inr h1
      · cases List.mem_singleton.1 hq
        exact hmade
    · show ((e.asked ++ [_]).map _ ++ _).Nodup
      rw [List.map_append, List.append_assoc]
      exact hnd
    · have hnone : AMap.get e.tab.pending (idText id) = none := by
        cases hg : AMap.get e.tab.pending (idText id) with
        | none => rfl
        | some m =>
          have h1 := ht.pend _ _ (AMap.get_some_mem hg)
          rw [← hk] at h1
          obtain ⟨p, hp, he⟩ := List.mem_map.1 h1
          injection he with _ he
          exact absurd he (hnew p hp)
      have hn : (n, Outcome.broken) ∈ (e.tab.insert (idText id) .broken).outcomes := hn
      unfold PTab.insert at hn
      rw [hnone] at hn
      exact h.kept n hn

theorem ids_step {c : Cfg} {s : Net D} {y : Bool} {names : List Bytes} (h : Ids (s.get y) names) (ht : TabInv s) (hk : AskedInv s) (hc : (s.get y).counter + 1 < 2 ^ 64) (op : NOp D)
    (hop : ∀ r, op = .send y r → ∃ t, r.id = .str t) (hnd : (names ++ (given y op).toList).Nodup) (hform : ∀ k ∈ names ++ (given y op).toList, ¬ lit "shm-req-" <+: k) :
    Ids ((s.step c op).get y) (names ++ (given y op).toList) := by
  by_cases h1 : ∃ r, op = .send y r
  · obtain ⟨r, rfl⟩ := h1
    obtain ⟨t, ht'⟩ := hop r rfl
    have hg : given y (.send y r : NOp D) = nameIn r := if_pos rfl
    rw [hg] at hnd hform ⊢
    show Ids ((s.upd y _).get y) _
    rw [get_upd_same]
    refine h.send ht' fun k hk' => ?_
    rw [hk'] at hnd hform
    exact ⟨fun hm => (List.nodup_append.1 hnd).2.2 k hm k (List.mem_singleton.2 rfl) rfl, hform k (List.mem_append_right _ (List.mem_singleton.2 rfl))⟩
  · refine Ids.more (names := names) ?_ (fun k hk => List.mem_append_left _ hk)
    by_cases h2 : ∃ i, op = .file y i
    · obtain ⟨i, rfl⟩ := h2
      show Ids ((s.upd y _).get y) _
      rw [get_upd_same]
      exact h.file (ht y).1 (hk y) hc (fun k hk => hform k (List.mem_append_left _ hk)) i
    · refine h.calm (calm_step c s op y (fun r e => h1 ⟨r, e⟩) fun i e => h2 ⟨i, e⟩) ?_
      rcases counter_step c s op y with g | g <;> rw [g]
      · exact Nat.le_refl _
      · rw [nextCount_succ hc]; exact Nat.le_succ _

theorem ids_run {c : Cfg} {y : Bool} : ∀ (ops : List (NOp D)), (∀ op ∈ ops, ∀ r, op = .send y r → ∃ t, r.id = .str t) → ∀ {s : Net D} {names : List Bytes},
    (names ++ ops.filterMap (given y)).Nodup → (∀ k ∈ names ++ ops.filterMap (given y), ¬ lit "shm-req-" <+: k) →
    Ids (s.get y) names → TabInv s → AskedInv s → (s.get y).counter + ops.length < 2 ^ 64 → Ids ((s.run c ops).get y) (names ++ ops.filterMap (given y))
  | [], _, s, names, _, _, h, _, _, _ => by rw [List.filterMap_nil, List.append_nil]; exact h
  | op :: ops, hops, s, names, hnd, hform, h, ht, hk, hc => by
    simp only [List.length_cons] at hc
    have hsplit : names ++ (op :: ops).filterMap (given y) = (names ++ (given y op).toList) ++ ops.filterMap (given y) := by
      rw [List.append_assoc]
      cases hg : given y op with
      | none => rw [List.filterMap_cons_none hg]; rfl
      | some k => rw [List.filterMap_cons_some hg]; rfl
    rw [hsplit] at hnd hform ⊢
    refine ids_run ops (fun o ho => hops o (List.mem_cons_of_mem _ ho)) (s := s.step c op) hnd hform
      (ids_step h ht hk (by omega) op (hops op (List.mem_cons_self ..)) (List.nodup_append.1 hnd).1 fun k hk => hform k (List.mem_append_left _ hk))
      (tabInv_step ht c op) (askedInv_step hk c op) ?_
    have := counter_step c s op y
    rw [nextCount_succ (by omega)] at this
    omega

/-! ### The ids the callers give -/

theorem given_own {x : Bool} {op : NOp D} {k : Bytes} (h : given x op = some k) : ∃ r, op = .send x r := by
  cases op with
  | send y r =>
    simp only [given] at h
    split at h
    · rename_i e; subst e; exact ⟨r, rfl⟩
    · cases h
  | _ => cases h

/-- The server's side is told to send what the calls ask for. -/
theorem given_world (c : Cfg) (x : Bool) (s0 : SSelf D) (cli : Cli D H) (ops : List (Op D H)) :
    ∃ qs : List (SReq D), qs.length = ((World.init c s0 cli).run c x ops).futs.length ∧ (begun c x s0 cli ops).filterMap (given x) = qs.filterMap Ask.nameOf ∧
      ∀ (n : Nat) (q : SReq D), qs[n]? = some q → ∃ (i : Nat) (z : SCall D), ((World.init c s0 cli).run c x ops).server.calls[i]? = some z ∧ Ev.sent n q ∈ z.path := by
  induction ops using snoc_induction with
  | h0 => exact ⟨[], rfl, by unfold begun; simp [trace, given], fun n q h => (nomatch h)⟩
  | h1 ops op ih =>
    obtain ⟨qs, h4, h5, h6⟩ := ih
    have hlen := (link_world c x s0 cli ops).len
    rw [run_snoc]
    have hb : begun c x s0 cli (ops ++ [op]) = begun c x s0 cli ops ++ netOps x ((World.init c s0 cli).run c x ops) op := by
      simp only [begun, trace_snoc, List.append_assoc]
    rw [hb, List.filterMap_append, h5]
    generalize (World.init c s0 cli).run c x ops = w at *
    have stays : ∀ (i : Nat) (z : SCall D) (n : Nat) (q : SReq D), w.server.calls[i]? = some z → Ev.sent n q ∈ z.path →
        ∃ (i : Nat) (z : SCall D), (w.step c x op).server.calls[i]? = some z ∧ Ev.sent n q ∈ z.path := by
      intro i z n q hx hq
      have hm := server_step c x w op
      generalize (w.step c x op).server = s' at hm
      cases hm with
      | stay => exact ⟨i, z, hx, hq⟩
      | call api => exact ⟨i, sent_stays _ _ hx hq⟩
      | go j => exact ⟨i, sent_stays _ _ hx hq⟩
      | drop j => exact ⟨i, sent_stays _ _ hx hq⟩
      | change u => exact ⟨i, sent_stays _ _ hx hq⟩
      | fill c o => exact ⟨i, sent_stays _ _ hx hq⟩
    by_cases hsend : ∃ i q, op = .go i ∧ asking w.server i = some q ∧ (w.server.ub = false ∧ w.server.alive = true)
    · obtain ⟨i, q, rfl, hask, hs⟩ := hsend
      have hnet : netOps x w (.go i) = [.send x (asRequest q)] := by
        unfold netOps; simp only [netOf, hask, if_pos hs]; rfl
      have hf : (w.step c x (.go i)).futs.length = w.futs.length + 1 ∧ (w.step c x (.go i)).server = w.server.step (.go i) := by
        simp only [World.step, World.go, hask, if_pos hs]
        split <;> simp
      refine ⟨qs ++ [q], by rw [hf.1]; simp [h4], ?_, fun n q' hn => ?_⟩
      · rw [List.filterMap_append, hnet]
        have : given x (.send x (asRequest q) : NOp D) = Ask.nameOf q := by
          rw [show given x (.send x (asRequest q) : NOp D) = nameIn (asRequest q) from if_pos rfl]; rfl
        simp only [List.filterMap_cons, List.filterMap_nil, this]
      · rcases Nat.lt_or_ge n qs.length with hl | hl
        · rw [List.getElem?_append_left hl] at hn
          obtain ⟨i', z, k1, k2⟩ := h6 n q' hn
          exact stays i' z n q' k1 k2
        · rw [List.getElem?_append_right hl] at hn
          cases hk : n - qs.length with
          | succ k => rw [hk] at hn; cases hn
          | zero =>
            rw [hk] at hn
            cases hn
            have hn' : n = w.server.cells.length := by rw [← hlen, ← h4]; omega
            obtain ⟨y, k1, k2⟩ := go_sends w.server i q hask hs
            exact ⟨i, y, by rw [hf.2]; exact k1, by rw [hn']; exact k2⟩
    · have hnone : (netOps x w op).filterMap (given x) = [] := by
        refine List.filterMap_eq_nil_iff.2 fun nop hn => ?_
        cases hg : given x nop with
        | none => rfl
        | some k =>
          obtain ⟨r, rfl⟩ := given_own hg
          obtain ⟨i, q, g1, g2, g3, -⟩ := netOps_send hn
          exact absurd ⟨i, q, g1, g2, g3⟩ hsend
      have hf : (w.step c x op).futs.length = w.futs.length := by
        cases op with
        | go i =>
          simp only [World.step, World.go]
          split
          · rename_i q hq
            split
            · rename_i hs; exact absurd ⟨i, q, rfl, hq, hs⟩ hsend
            · rfl
          · rfl
        | file i => simp only [World.step, World.file]; split <;> simp
        | wire op => simp only [World.step]; split <;> rfl
        | deliver k => simp only [World.step, World.deliver]; split <;> (try split) <;> rfl
        | serve i env => simp only [World.step, World.serve]; split <;> (try split) <;> (try split) <;> rfl
        | own op => simp only [World.step]; split <;> (try split) <;> rfl
        | call api => rfl
        | drop i => rfl
        | change u => rfl
      refine ⟨qs, by rw [hf]; exact h4, by rw [hnone, List.append_nil], fun n q hn => ?_⟩
      obtain ⟨i, z, k1, k2⟩ := h6 n q hn
      exact stays i z n q k1 k2

/-- The ids given to sampling requests are the callers' own: each is given once, and none looks like those the transport makes. -/
structure OwnNames (w : World D H) : Prop where
  once : ∀ (i j : Nat) (z y : SCall D) (p p' : SampleReq D) (k : Bytes), k ≠ [] → w.server.calls[i]? = some z → w.server.calls[j]? = some y →
    z.prog = sbody (.sample p (some k)) → y.prog = sbody (.sample p' (some k)) → i = j
  form : ∀ (i : Nat) (z : SCall D) (p : SampleReq D) (k : Bytes), w.server.calls[i]? = some z → z.prog = sbody (.sample p (some k)) → ¬ lit "shm-req-" <+: k

theorem call_prog (c : Cfg) (x : Bool) (s0 : SSelf D) (cli : Cli D H) (ops : List (Op D H)) {i : Nat} {z : SCall D}
    (hx : ((World.init c s0 cli).run c x ops).server.calls[i]? = some z) : ∃ api, z.prog = sbody api ∧ Op.call api ∈ ops := by
  obtain ⟨cops, h1, h2, -⟩ := server_run c x s0 cli ops
  rw [h1] at hx
  have key : ∀ l : List (SOp D), (∀ b, Await.Op.call b ∈ l → ∃ api, b = sbody api ∧ Op.call api ∈ ops) → ∀ s : SSys D,
      (∀ (i : Nat) (x : SCall D), s.calls[i]? = some x → ∃ api, x.prog = sbody api ∧ Op.call api ∈ ops) →
      ∀ (i : Nat) (x : SCall D), (s.run l).calls[i]? = some x → ∃ api, x.prog = sbody api ∧ Op.call api ∈ ops := by
    intro l
    induction l with
    | nil => exact fun _ s h => h
    | cons op l ih =>
      intro hl s h
      rw [run_cons]
      exact ih (fun b hb => hl b (List.mem_cons_of_mem _ hb)) _
        (progs_step (P := fun b => ∃ api, b = sbody api ∧ Op.call api ∈ ops) s op (fun b hb => hl b (by rw [hb]; exact List.mem_cons_self ..)) h)
  exact key cops h2 (Sys.init s0) (fun i x hx => (nomatch hx)) i z hx

/-- What a call has sent, and how often. -/
theorem world_asks (c : Cfg) (x : Bool) (s0 : SSelf D) (cli : Cli D H) (ops : List (Op D H)) {i : Nat} {z : SCall D} {api : SApi D}
    (hx : ((World.init c s0 cli).run c x ops).server.calls[i]? = some z) (hp : z.prog = sbody api) :
    (∀ n q, Ev.sent n q ∈ z.path → q = enquiry api) ∧ ∀ n n', n ∈ sentOf z.path → n' ∈ sentOf z.path → n = n' := by
  obtain ⟨cops, g1, -, -⟩ := server_run c x s0 cli ops
  exact call_asks s0 cops (by rw [← g1]; exact hx) hp

theorem ids_world (c : Cfg) (x : Bool) (s0 : SSelf D) (cli : Cli D H) (ops : List (Op D H)) (hn : OwnNames ((World.init c s0 cli).run c x ops))
    (few : ops.length + 2 < 2 ^ 64) : ∃ names, Ids (((World.init c s0 cli).run c x ops).net.get x) names := by
  obtain ⟨qs, -, h5, h6⟩ := given_world c x s0 cli ops
  have hname : ∀ (n : Nat) (q : SReq D) (k : Bytes), qs[n]? = some q → Ask.nameOf q = some k → ∃ (i : Nat) (z : SCall D) (p : SampleReq D),
      ((World.init c s0 cli).run c x ops).server.calls[i]? = some z ∧ n ∈ sentOf z.path ∧ z.prog = sbody (.sample p (some k)) ∧ k ≠ [] := by
    intro n q k hq hk
    obtain ⟨i, z, k1, k2⟩ := h6 n q hq
    obtain ⟨api, hp, -⟩ := call_prog c x s0 cli ops k1
    have := (world_asks c x s0 cli ops k1 hp).1 n q k2
    subst this
    obtain ⟨hne, p, rfl⟩ := named hk
    exact ⟨i, z, p, k1, mem_sentOf.2 ⟨_, k2⟩, hp, hne⟩
  refine ⟨[] ++ (begun c x s0 cli ops).filterMap (given x), ?_⟩
  rw [net_world]
  refine ids_run (begun c x s0 cli ops) (fun op ho r e => ?_) (names := []) ?_ (fun k hk => ?_) ?_ (tabInv_init true true) (by intro y; cases y <;> rfl) ?_
  · subst e
    rcases List.mem_append.1 ho with h | h
    · simp at h
    · have key : ∀ ops : List (Op D H), Shm.Op.send x r ∈ trace c x (World.init c s0 cli) ops → ∃ t, r.id = .str t := by
        intro ops
        induction ops using snoc_induction with
        | h0 => intro h; cases h
        | h1 ops op ih =>
          intro h
          rw [trace_snoc] at h
          rcases List.mem_append.1 h with h' | h'
          · exact ih h'
          · obtain ⟨i, q, -, -, -, rfl⟩ := netOps_send h'
            exact ⟨_, rfl⟩
      exact key ops h
  · rw [List.nil_append, h5]
    refine nodup_filterMap _ _ fun n m a b k h7 h8 h9 h10 => ?_
    obtain ⟨i, z, p, k1, k2, k3, k4⟩ := hname n a k h7 h9
    obtain ⟨j, y, p', k1', k2', k3', -⟩ := hname m b k h8 h10
    have := hn.once i j z y p p' k k4 k1 k1' k3 k3'
    subst this
    rw [k1] at k1'
    cases k1'
    exact (world_asks c x s0 cli ops k1 k3).2 n m k2 k2'
  · rw [List.nil_append, h5] at hk
    obtain ⟨q, hq, hq'⟩ := List.mem_filterMap.1 hk
    obtain ⟨n, hn'⟩ := List.getElem?_of_mem hq
    obtain ⟨i, z, p, k1, -, k3, -⟩ := hname n q k hn' hq'
    exact hn.form i z p k k1 k3
  · cases x <;> exact ⟨(fun r h => nomatch h), (fun n r h => nomatch h), List.nodup_nil, (fun n h => nomatch h)⟩
  · have := begun_length c x s0 cli ops
    have h0 : ((Net.init true true : Net D).get x).counter = 0 := by cases x <;> rfl
    rw [h0]; omega

end Verif.Back
