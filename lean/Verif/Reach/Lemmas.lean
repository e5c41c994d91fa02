import Verif.Reach.Names
import Verif.Ask.Calls

/-! Helper lemmas for C136: what a step of the server, the transports and the client together does to each of them. -/

namespace Verif.Reach

open Verif.Await Verif.Client Verif.Server
open Verif.Http (Hs HsOp LinkOp LinkCfg HtHandlers clientReplies Sess)
open Verif.InMemory (PlainReq PlainNote)
open Verif.Whole (snoc_induction lt_of_get)
open Verif.Ask (asRequest asking paths_step cells_step cells_other go_quiet go_asks)
open Verif.Web (seen)

variable {D H : Type} [DblFmt D]

/-! ### Executions, from the end -/

theorem run_nil (c : LinkCfg) (w : World D H) : w.run c [] = w := rfl

theorem run_snoc (c : LinkCfg) (w : World D H) (ops : List (Op D H)) (op : Op D H) : w.run c (ops ++ [op]) = (w.run c ops).step c op := by
  simp [World.run, List.foldl_append]

/-! ### The server -/

/-- What a step does to the server. -/
inductive ServerMove (s : SSys D) : Op D H → SSys D → Prop
  | stay (op : Op D H) : ServerMove s op s
  | call (api : SApi D) : ServerMove s (.call api) (s.step (.call (sbody api)))
  | go (i : Nat) : ServerMove s (.go i) (s.step (.go i))
  | drop (i : Nat) : ServerMove s (.drop i) (s.step (.drop i))
  | change (u : SSelf D → SSelf D) : ServerMove s (.change u) (s.step (.change u))
  | fill (c : Nat) (o : Client.Outcome D) : ServerMove s (.deliver c) (s.step (.fill c o))

theorem heed_server (c : LinkCfg) (w : World D H) (j : Nat) (env : CliEnv D H) (n e : Bool) :
    (w.heed c j env n e).server = w.server ∧ (w.heed c j env n e).slots = w.slots := by
  unfold World.heed
  split
  · exact ⟨rfl, rfl⟩
  · split
    · exact ⟨rfl, rfl⟩
    · split <;> exact ⟨rfl, rfl⟩

theorem server_step (c : LinkCfg) (w : World D H) (op : Op D H) : ServerMove w.server op (w.step c op).server := by
  cases op with
  | call api => exact .call api
  | go i => simp only [World.step, World.go]; split <;> (try split) <;> exact .go i
  | drop i => exact .drop i
  | change u => exact .change u
  | deliver n =>
    simp only [World.step, World.deliver]
    split
    · split
      · exact .fill n _
      · exact .stay _
    · exact .stay _
  | wire op => simp only [World.step]; split <;> exact .stay _
  | heed j env n e =>
    simp only [World.step]
    split
    · exact .stay _
    · rw [(heed_server c w j env n e).1]; exact .stay _
  | own op => cases op <;> simp only [World.step] <;> (try split) <;> exact .stay _

/-- The server goes through an execution of its own. -/
theorem server_run (c : LinkCfg) (s0 : SSelf D) (cli : Cli D H) (ops : List (Op D H)) :
    ∃ cops, ((World.init s0 cli).run c ops).server = (Sys.init s0).run cops ∧
      (∀ b, Await.Op.call b ∈ cops → ∃ api, b = sbody api ∧ Op.call api ∈ ops) ∧ (∀ u, Await.Op.change u ∈ cops → Op.change u ∈ ops) := by
  induction ops using snoc_induction with
  | h0 => exact ⟨[], rfl, by simp, by simp⟩
  | h1 ops op ih =>
    obtain ⟨cops, h1, h2, h3⟩ := ih
    rw [run_snoc]
    have hm := server_step c ((World.init s0 cli).run c ops) op
    have more : ∀ cop : SOp D, ((((World.init s0 cli).run c ops).step c op).server = ((World.init s0 cli).run c ops).server.step cop) →
        (∀ b, cop = .call b → ∃ api, b = sbody api ∧ op = .call api) → (∀ u, cop = .change u → op = .change u) →
        ∃ cops, (((World.init s0 cli).run c ops).step c op).server = (Sys.init s0).run cops ∧
          (∀ b, Await.Op.call b ∈ cops → ∃ api, b = sbody api ∧ Op.call api ∈ ops ++ [op]) ∧ (∀ u, Await.Op.change u ∈ cops → Op.change u ∈ ops ++ [op]) := by
      intro cop h4 h5 h6
      refine ⟨cops ++ [cop], ?_, ?_, ?_⟩
      · rw [h4, h1, Await.run_append]; rfl
      · intro b hb
        rcases List.mem_append.1 hb with hb | hb
        · obtain ⟨api, h7, h8⟩ := h2 b hb
          exact ⟨api, h7, List.mem_append_left _ h8⟩
        · obtain ⟨api, h7, h8⟩ := h5 b (List.mem_singleton.1 hb).symm
          exact ⟨api, h7, by rw [h8]; simp⟩
      · intro u hu
        rcases List.mem_append.1 hu with hu | hu
        · exact List.mem_append_left _ (h3 u hu)
        · rw [h6 u (List.mem_singleton.1 hu).symm]; simp
    generalize hs : (((World.init s0 cli).run c ops).step c op).server = s' at hm more
    cases hm with
    | stay =>
      exact ⟨cops, h1, fun b hb => (h2 b hb).imp fun api h => ⟨h.1, List.mem_append_left _ h.2⟩, fun u hu => List.mem_append_left _ (h3 u hu)⟩
    | call api => exact more _ rfl (fun b hb => by cases hb; exact ⟨api, rfl, rfl⟩) (fun u hu => nomatch hu)
    | go i => exact more _ rfl (fun b hb => nomatch hb) (fun u hu => nomatch hu)
    | drop i => exact more _ rfl (fun b hb => nomatch hb) (fun u hu => nomatch hu)
    | change u => exact more _ rfl (fun b hb => nomatch hb) (fun u' hu => by cases hu; rfl)
    | fill n o => exact more _ rfl (fun b hb => nomatch hb) (fun u hu => nomatch hu)

/-! ### The transports -/

/-- What a step does to the transports. -/
inductive LinkMove (c : LinkCfg) (w : World D H) : Op D H → Http.Link D → Prop
  | stay (op : Op D H) : LinkMove c w op w.link
  | wire (op : LinkOp D) (h : isEvent op = false) : LinkMove c w (.wire op) (w.link.step c op)
  | ask (i : Nat) (q : SReq D) (h : asking w.server i = some q) : LinkMove c w (.go i) (w.link.step c (.world (.take (.request (asRequest q)))))
  | quiet (j : Nat) (env : CliEnv D H) (n e : Bool) (payload : Bytes) (h : heard w.link j = some payload) (ha : asked (D := D) n e payload = none) :
      LinkMove c w (.heed j env n e) (w.link.step c (.event ⟨none, n, e⟩ j))
  | reply (j : Nat) (env : CliEnv D H) (n e : Bool) (payload : Bytes) (q : Request D) (r : Response D) (h : heard w.link j = some payload) (ha : asked n e payload = some q)
      (hr : (onRequest env w.cli q).1 = .answer r) (hd : w.dead = false) :
      LinkMove c w (.heed j env n e) (w.link.step c (.event ⟨some (fun _ => .resp r), n, e⟩ j))

theorem link_step (c : LinkCfg) (w : World D H) (op : Op D H) : LinkMove c w op (w.step c op).link := by
  cases op with
  | call api => exact .stay _
  | go i =>
    simp only [World.step, World.go]
    split
    · rename_i q hq
      split
      · exact .ask i q hq
      · exact .stay _
    · exact .stay _
  | drop i => exact .stay _
  | change u => exact .stay _
  | deliver n =>
    simp only [World.step, World.deliver]
    split
    · split <;> exact .stay _
    · exact .stay _
  | wire op =>
    simp only [World.step]
    split
    · exact .stay _
    · rename_i h
      exact .wire op (by cases hr : isEvent op <;> simp [hr] at h ⊢)
  | heed j env n e =>
    simp only [World.step, World.heed]
    split
    · exact .stay _
    · rename_i hd
      split
      · exact .stay _
      · rename_i payload hp
        split
        · rename_i ha
          exact .quiet j env n e payload hp ha
        · rename_i q ha
          split
          · rename_i r hr
            exact .reply j env n e payload q r hp ha hr (by simpa using hd)
          · exact .stay _
          · exact .stay _
  | own op => cases op <;> simp only [World.step] <;> (try split) <;> exact .stay _

/-- With the step at this place of the execution the client dispatched this request, in the state it was in, with this answer. -/
def DispatchedAt (c : LinkCfg) (w : World D H) (ops : List (Op D H)) (p : Nat) (q : Request D) (env : CliEnv D H) (cli : Cli D H) (r : Response D) : Prop :=
  ∃ j n e payload, ops[p]? = some (.heed j env n e) ∧ heard (w.run c (ops.take p)).link j = some payload ∧ asked n e payload = some q ∧ (w.run c (ops.take p)).cli = cli ∧
    (w.run c (ops.take p)).dead = false ∧ (onRequest env cli q).1 = .answer r

theorem DispatchedAt.more {c : LinkCfg} {w : World D H} {ops : List (Op D H)} {p : Nat} {q : Request D} {env : CliEnv D H} {cli : Cli D H} {r : Response D}
    (h : DispatchedAt c w ops p q env cli r) (op : Op D H) : DispatchedAt c w (ops ++ [op]) p q env cli r := by
  obtain ⟨j, n, e, payload, h1, h2⟩ := h
  have hl := lt_of_get h1
  refine ⟨j, n, e, payload, by rw [List.getElem?_append_left hl]; exact h1, ?_⟩
  rw [List.take_append_of_le_length (Nat.le_of_lt hl)]
  exact h2

theorem dispatched_last {c : LinkCfg} {w : World D H} {ops : List (Op D H)} {env : CliEnv D H} {j : Nat} {n e : Bool} {payload : Bytes} {q : Request D} {r : Response D}
    (hj : heard (w.run c ops).link j = some payload) (ha : asked n e payload = some q) (hd : (w.run c ops).dead = false)
    (hr : (onRequest env (w.run c ops).cli q).1 = .answer r) :
    DispatchedAt c w (ops ++ [.heed j env n e]) ops.length q env (w.run c ops).cli r := by
  have ht : (ops ++ [Op.heed j env n e]).take ops.length = ops := by simp
  refine ⟨j, n, e, payload, by simp, ?_⟩
  rw [ht]
  exact ⟨hj, ha, rfl, hd, hr⟩

/-! ### Specification -/

/-- All that is sent in the execution survives the wire format (C04 to C06, C15), and nothing changes the transport of the server, its mode or what it knows of the client. -/
structure Carried (c : LinkCfg) (w : World D H) (ops : List (Op D H)) : Prop where
  reasons : PlainReasons c.auth
  calls : ∀ api, Op.call api ∈ ops → PlainReq (asRequest (enquiry api))
  wires : ∀ op, Op.wire op ∈ ops → PlainLinkOp op
  answers : ∀ p q env σ r, DispatchedAt c w ops p q env σ r → PlainAnswer (.resp r)
  still : ∀ u, Op.change u ∈ ops → ∀ s, (u s).transport = s.transport ∧ (u s).caps = s.caps ∧ (u s).strict = s.strict

theorem Carried.prefix {c : LinkCfg} {w : World D H} {ops : List (Op D H)} {op : Op D H} (h : Carried c w (ops ++ [op])) : Carried c w ops :=
  ⟨h.reasons, fun api ha => h.calls api (List.mem_append_left _ ha), fun o ho => h.wires o (List.mem_append_left _ ho),
    fun p q env σ r hd => h.answers p q env σ r (hd.more op), fun u hu => h.still u (List.mem_append_left _ hu)⟩

/-- What a call is about to send survives the wire format. -/
theorem asking_plain {c : LinkCfg} {s0 : SSelf D} {cli : Cli D H} {ops : List (Op D H)}
    (hc : ∀ api, Op.call api ∈ ops → PlainReq (asRequest (enquiry api))) {i : Nat} {q : SReq D}
    (h : asking ((World.init s0 cli).run c ops).server i = some q) : PlainReq (asRequest q) := by
  obtain ⟨cops, h1, h2, -⟩ := server_run c s0 cli ops
  have hst := stHas_run (Ask.asks_closed fun q : SReq D => PlainReq (asRequest q)) s0 cops (fun b hb => by
    obtain ⟨api, rfl, h4⟩ := h2 b hb
    exact (Ask.once_sbody api).only.mono fun q hq => by rw [hq]; exact hc api h4)
  rw [h1] at h
  unfold asking at h
  split at h
  · rename_i x hx
    split at h
    · rename_i q0 k hs
      cases h
      have := hst i x hx
      rw [hs] at this
      exact this.1
    · cases h
  · cases h

/-- The transports go through an execution of their own, of plain traffic. What others say to the server is among the steps. -/
theorem link_run (c : LinkCfg) (s0 : SSelf D) (cli : Cli D H) (ops : List (Op D H)) (hc : Carried c (World.init s0 cli) ops) :
    ∃ lops, ((World.init s0 cli).run c ops).link = (Http.Link.init : Http.Link D).run c lops ∧ (∀ op ∈ lops, PlainLinkOp op) ∧
      ∀ f r, LinkOp.world (.answer f r) ∈ lops → Op.wire (.world (.answer f r)) ∈ ops := by
  induction ops using snoc_induction with
  | h0 => exact ⟨[], rfl, (fun op h => by cases h), (fun f r h => by cases h)⟩
  | h1 ops op ih =>
    obtain ⟨lops, h1, h2, h3⟩ := ih hc.prefix
    rw [run_snoc]
    have hm := link_step c ((World.init s0 cli).run c ops) op
    have more : ∀ lop : LinkOp D, PlainLinkOp lop → (∀ f r, lop = .world (.answer f r) → op = .wire (.world (.answer f r))) →
        (((World.init s0 cli).run c ops).step c op).link = ((World.init s0 cli).run c ops).link.step c lop →
        ∃ lops, (((World.init s0 cli).run c ops).step c op).link = (Http.Link.init : Http.Link D).run c lops ∧ (∀ op ∈ lops, PlainLinkOp op) ∧
          ∀ f r, LinkOp.world (.answer f r) ∈ lops → Op.wire (.world (.answer f r)) ∈ ops ++ [op] := by
      intro lop h4 h5 h6
      refine ⟨lops ++ [lop], by rw [h6, h1, link_run_concat], fun o ho => ?_, fun f r hf => ?_⟩
      · rcases List.mem_append.1 ho with ho | ho
        · exact h2 o ho
        · rw [List.mem_singleton.1 ho]; exact h4
      · rcases List.mem_append.1 hf with hf | hf
        · exact List.mem_append_left _ (h3 f r hf)
        · rw [h5 f r (List.mem_singleton.1 hf).symm]; simp
    generalize hs : (((World.init s0 cli).run c ops).step c op).link = s' at hm more
    cases hm with
    | stay => exact ⟨lops, h1, h2, fun f r hf => List.mem_append_left _ (h3 f r hf)⟩
    | wire lop h => exact more lop (hc.wires lop (by simp)) (fun f r e => by rw [e]) rfl
    | ask i q h => exact more (.world (.take (.request (asRequest q)))) (show PlainReq _ from asking_plain hc.prefix.calls h) (fun f r e => nomatch e) rfl
    | quiet j env n e payload h ha => exact more (.event ⟨none, n, e⟩ j) (fun f hf => nomatch hf) (fun f r e => nomatch e) rfl
    | reply j env n e payload q r h ha hr hd =>
      refine more (.event ⟨some (fun _ => .resp r), n, e⟩ j) (fun f hf q' => ?_) (fun f r e => nomatch e) rfl
      cases hf
      exact hc.answers _ q env _ r (dispatched_last h ha hd hr)

/-! ### What is done to the server's transport grows -/

theorem srvDid_grows (c : LinkCfg) (s : Http.Link D) (op : LinkOp D) : s.srvDid <+: (s.step c op).srvDid := by
  have en : ∀ hd k b sid, s.srvDid <+: (s.ended c hd k b sid).srvDid := by
    intro hd k b sid
    unfold Http.Link.ended
    split <;> exact List.prefix_refl _
  cases op with
  | begin k => simp only [Http.Link.step, Http.Link.begin]; split <;> exact List.prefix_refl _
  | serve i now a f n e d => simp only [Http.Link.step, Http.Link.serve]; split; exact List.prefix_append _ _; exact List.prefix_refl _
  | arrive hd i => simp only [Http.Link.step, Http.Link.arrive]; split; exact en _ _ _ _; exact List.prefix_refl _
  | lose hd i => simp only [Http.Link.step, Http.Link.lose]; split; exact en _ _ _ _; exact List.prefix_refl _
  | listen now a f n e d => simp only [Http.Link.step, Http.Link.listen]; split; exact List.prefix_append _ _; exact List.prefix_refl _
  | event hd j =>
    simp only [Http.Link.step, Http.Link.event]
    split
    · split <;> exact List.prefix_refl _
    · exact List.prefix_refl _
  | world op => exact List.prefix_append _ _
  | _ => exact List.prefix_refl _

theorem move_grows {c : LinkCfg} {w : World D H} {op : Op D H} {l : Http.Link D} (h : LinkMove c w op l) : w.link.srvDid <+: l.srvDid ∧ w.link.did <+: l.did := by
  cases h with
  | stay => exact ⟨List.prefix_refl _, List.prefix_refl _⟩
  | _ => exact ⟨srvDid_grows _ _ _, did_grows _ _ _⟩

/-- Without assumptions on the traffic: the sessions are what was done to them. -/
theorem sides_world (c : LinkCfg) (s0 : SSelf D) (cli : Cli D H) (ops : List (Op D H)) : Sides c ((World.init s0 cli).run c ops).link := by
  induction ops using snoc_induction with
  | h0 => exact ⟨rfl, rfl⟩
  | h1 ops op ih =>
    rw [run_snoc]
    have hm := link_step c ((World.init s0 cli).run c ops) op
    generalize (((World.init s0 cli).run c ops).step c op).link = s' at hm
    cases hm with
    | stay => exact ih
    | _ => exact sides_step ih _

end Verif.Reach
