import Verif.Ask.Lemmas

/-!
C130: a call of the server to its client over the in-memory transport gives what the client answered to it, and the client handles each call once at the most.
-/

namespace Verif.Ask

open Verif.Await Verif.Client Verif.Server Verif.InMemory
open Verif.Whole (snoc_induction lt_of_get NoValue error_mk)
open Verif.Near (NOp seen reserved asks OnWay onWay_run handler_run Unanswered)
open Verif.Stdio (idText)

variable {D H : Type} [DblFmt D]

/-! ### Specification -/

/-- All that is sent in the execution survives the wire format (C04 to C06, C15), and nothing changes the transport of the server, its mode or what it knows of the client. -/
structure Carried (w : World D H) (ops : List (Op D H)) : Prop where
  calls : ∀ api, Op.call api ∈ ops → PlainReq (asRequest (enquiry api))
  wires : ∀ op, Op.wire op ∈ ops → PlainOp op
  answers : ∀ p q env σ r, DispatchedAt w ops p q env σ r → PlainAnswer (.resp r)
  still : ∀ u, Op.change u ∈ ops → ∀ s, (u s).transport = s.transport ∧ (u s).caps = s.caps ∧ (u s).strict = s.strict

/-! ### Plain traffic -/

theorem Carried.prefix {w : World D H} {ops : List (Op D H)} {op : Op D H} (h : Carried w (ops ++ [op])) : Carried w ops :=
  ⟨fun api ha => h.calls api (List.mem_append_left _ ha), fun o ho => h.wires o (List.mem_append_left _ ho),
    fun p q env σ r hd => h.answers p q env σ r (hd.more op), fun u hu => h.still u (List.mem_append_left _ hu)⟩

/-- What a call is about to send survives the wire format. -/
theorem asking_plain {s0 : SSelf D} {cli : Cli D H} {ops : List (Op D H)}
    (hc : ∀ api, Op.call api ∈ ops → PlainReq (asRequest (enquiry api))) {i : Nat} {q : SReq D}
    (h : asking ((World.init s0 cli).run ops).server i = some q) : PlainReq (asRequest q) := by
  obtain ⟨cops, h1, h2, -⟩ := server_run s0 cli ops
  have hst := stHas_run (asks_closed fun q : SReq D => PlainReq (asRequest q)) s0 cops (fun b hb => by
    obtain ⟨api, rfl, h4⟩ := h2 b hb
    exact (once_sbody api).only.mono fun q hq => by rw [hq]; exact hc api h4)
  rw [h1] at h
  unfold asking at h
  split at h
  · rename_i x hx
    split at h
    · rename_i q0 k hs
      cases h
      have := hst i x hx
      rw [hs] at this
      exact this.1
    · cases h
  · cases h

theorem netOps_plain {s0 : SSelf D} {cli : Cli D H} {ops : List (Op D H)} {op : Op D H} (hc : Carried (World.init s0 cli) (ops ++ [op])) :
    ∀ nop ∈ netOps ((World.init s0 cli).run ops) op, PlainOp nop := by
  intro nop hn
  unfold netOps at hn
  split at hn
  · cases hn
  · rename_i hd
    have hd : ((World.init s0 cli).run ops).dead = false := by simpa using hd
    cases op with
    | go i =>
      simp only [netOf] at hn
      split at hn
      · rename_i q hq
        split at hn
        · rw [List.mem_singleton.1 (show nop ∈ [_] from hn)]
          exact asking_plain hc.prefix.calls hq
        · cases hn
      · cases hn
    | wire op =>
      simp only [netOf] at hn
      split at hn
      · cases hn
      · rw [List.mem_singleton.1 (show nop ∈ [_] from hn)]
        exact hc.wires op (by simp)
    | serve i env =>
      simp only [netOf] at hn
      split at hn
      · cases hn
      · rename_i q hq
        split at hn
        · rename_i r hr
          rw [List.mem_singleton.1 (show nop ∈ [_] from hn)]
          exact (hc.answers _ q env _ r (dispatched_last hq hd hr)).out
        · cases hn
    | call api => cases hn
    | drop i => cases hn
    | change u => cases hn
    | deliver n => cases hn
    | own op => cases hn

theorem trace_plain {s0 : SSelf D} {cli : Cli D H} {ops : List (Op D H)} (hc : Carried (World.init s0 cli) ops) :
    ∀ nop ∈ trace (World.init s0 cli) ops, PlainOp nop := by
  induction ops using snoc_induction with
  | h0 => intro nop h; cases h
  | h1 ops op ih =>
    intro nop hn
    rw [trace_snoc] at hn
    rcases List.mem_append.1 hn with h | h
    · exact ih hc.prefix nop h
    · exact netOps_plain hc nop h

theorem begun_plain {s0 : SSelf D} {cli : Cli D H} {ops : List (Op D H)} (hc : Carried (World.init s0 cli) ops) :
    ∀ nop ∈ begun s0 cli ops, PlainOp nop := started_plain (trace_plain hc)

theorem plain_world {s0 : SSelf D} {cli : Cli D H} {ops : List (Op D H)} (hc : Carried (World.init s0 cli) ops) :
    PlainAll ((World.init s0 cli).run ops).net := by
  rw [net_world]
  exact plainAll_run (plainAll_init true true) (fifo_init true true) _ (begun_plain hc)

/-! ### Each request arrives once -/

/-- The requests the server has in work or has answered came each from one request of the client's side. -/
theorem arrived_world {s0 : SSelf D} {cli : Cli D H} {ops : List (Op D H)} (hc : Carried (World.init s0 cli) ops) :
    ∃ rest, (((World.init s0 cli).run ops).net.b.jobs ++ ((World.init s0 cli).run ops).net.b.answered.map (·.1) ++ rest).Perm
      (((World.init s0 cli).run ops).net.a.asked.map (·.2)) := by
  have hplain := begun_plain hc
  rw [net_world]
  generalize begun s0 cli ops = nops at *
  have hw : OnWay (((Net.init true true : Net D).run nops).get false) :=
    onWay_run (plainAll_init true true) (fifo_init true true) ⟨[], List.Perm.refl _⟩ nops hplain
  obtain ⟨pre, h1, h2⟩ := fifo_run (fifo_init (D := D) true true) nops true
  have h3 : ((((Net.init true true : Net D).run nops).get true).events.filterMap Event.req?).Perm _ := C16_handled_once (D := D) true true nops true
  have hh : (((Net.init true true : Net D).run nops).get true).hasHandler = true := by rw [handler_run]; rfl
  obtain ⟨rest, hw⟩ := hw
  rw [h2, hh, List.filterMap_map] at h3
  have h4 : (((Net.init true true : Net D).run nops).get (!true)).log.filterMap asks =
      pre.filterMap (Event.req? ∘ eventOf (D := D) true) ++ ((((Net.init true true : Net D).run nops).get true).current.toList ++
        (((Net.init true true : Net D).run nops).get true).queue).filterMap asks := by
    rw [h1, List.append_assoc, List.filterMap_append]; rfl
  rw [show (((Net.init true true : Net D).run nops).get false).log.filterMap asks = _ from h4] at hw
  refine ⟨((((Net.init true true : Net D).run nops).get true).current.toList ++ (((Net.init true true : Net D).run nops).get true).queue).filterMap asks ++
    (((Net.init true true : Net D).run nops).get false).sending.map (·.2) ++ rest, ?_⟩
  refine List.Perm.trans ?_ hw
  rw [← List.append_assoc]
  refine List.Perm.append_right _ ?_
  refine List.Perm.trans ?_ List.perm_append_comm
  rw [← List.append_assoc]
  refine List.Perm.append_right _ ?_
  exact (h3.symm.append_right _)

/-! ### The claims -/

theorem ids_world {s0 : SSelf D} {cli : Cli D H} {ops : List (Op D H)} (names : OwnNames ((World.init s0 cli).run ops)) (few : ((World.init s0 cli).run ops).server.cells.length < 2 ^ 32) :
    (((World.init s0 cli).run ops).net.a.asked.map (fun p => idText p.2.id)).Nodup := by
  have := C16_ids_differ true true (begun s0 cli ops) false (ownIds_world s0 cli ops names few)
  rwa [← net_world] at this

/-- A request the transport of the client sent is known by its id. -/
theorem asked_fun {s0 : SSelf D} {cli : Cli D H} {ops : List (Op D H)} (names : OwnNames ((World.init s0 cli).run ops)) (few : ((World.init s0 cli).run ops).server.cells.length < 2 ^ 32)
    {n m : Nat} {q : Request D} (h1 : ((World.init s0 cli).run ops).net.a.asked[n]? = some (n, q)) (h2 : ((World.init s0 cli).run ops).net.a.asked[m]? = some (m, q)) : n = m := by
  have hn := ids_world names few
  have k1 : (((World.init s0 cli).run ops).net.a.asked.map (fun p => idText p.2.id))[n]? = some (idText q.id) := by rw [List.getElem?_map, h1]; rfl
  have k2 : (((World.init s0 cli).run ops).net.a.asked.map (fun p => idText p.2.id))[m]? = some (idText q.id) := by rw [List.getElem?_map, h2]; rfl
  exact (List.getElem?_inj (lt_of_get k1) hn).1 (k1.trans k2.symm)

theorem asked_at {s0 : SSelf D} {cli : Cli D H} {ops : List (Op D H)} {n : Nat} {q : Request D}
    (h : (n, q) ∈ ((World.init s0 cli).run ops).net.a.asked) : ((World.init s0 cli).run ops).net.a.asked[n]? = some (n, q) := by
  obtain ⟨k, hk⟩ := List.getElem?_of_mem h
  have := (numbered_world s0 cli ops false).2 k n q hk
  rw [this]; rw [this] at hk; exact hk

theorem trace_open {w : World D H} {ops : List (Op D H)} (h : ∀ op, Op.wire op ∈ ops → StaysOpen op) : ∀ nop ∈ trace w ops, StaysOpen nop := by
  induction ops using Whole.snoc_induction with
  | h0 => intro nop h; cases h
  | h1 ops op ih =>
    intro nop hn
    rw [trace_snoc] at hn
    rcases List.mem_append.1 hn with hn | hn
    · exact ih (fun o ho => h o (List.mem_append_left _ ho)) nop hn
    · unfold netOps at hn
      split at hn
      · cases hn
      · cases op with
        | go i =>
          simp only [netOf] at hn
          split at hn
          · split at hn
            · rw [List.mem_singleton.1 (show nop ∈ [_] from hn)]; trivial
            · cases hn
          · cases hn
        | wire op =>
          simp only [netOf] at hn
          split at hn
          · cases hn
          · rw [List.mem_singleton.1 (show nop ∈ [_] from hn)]
            exact h op (by simp)
        | serve i env =>
          simp only [netOf] at hn
          split at hn
          · cases hn
          · split at hn
            · rw [List.mem_singleton.1 (show nop ∈ [_] from hn)]; trivial
            · cases hn
        | call api => cases hn
        | drop i => cases hn
        | change u => cases hn
        | deliver n => cases hn
        | own op => cases hn

theorem drain_world {s0 : SSelf D} {cli : Cli D H} {ops : List (Op D H)} (hc : Carried (World.init s0 cli) ops) (ho : ∀ op, Op.wire op ∈ ops → StaysOpen op) :
    Drain ((World.init s0 cli).run ops).net := by
  rw [net_world]
  exact drain_started (trace_plain hc) (trace_open ho)

/-- Without a close, the transport of the client completes its futures with answers only. -/
theorem answers_world {s0 : SSelf D} {cli : Cli D H} {ops : List (Op D H)} (hc : Carried (World.init s0 cli) ops) (ho : ∀ op, Op.wire op ∈ ops → StaysOpen op) :
    AnswerOnly ((World.init s0 cli).run ops).net.a := by
  rw [net_world]
  show AnswerOnly ((Net.run _ _).get false)
  unfold begun Net.run
  rw [List.foldl_append]
  refine InMemory.answered_run drain_open (s := (Net.init true true : Net D).run [.start false, .start true]) ?_ (trace _ ops) (trace_plain hc) (trace_open ho)
  exact fun n o h => (by cases h)

/-- What became of call `i`: the request the client handled for it was filed under its future. -/
theorem result_of (s0 : SSelf D) (cli : Cli D H) (ops : List (Op D H)) (hc : Carried (World.init s0 cli) ops) (names : OwnNames ((World.init s0 cli).run ops))
    (few : ((World.init s0 cli).run ops).server.cells.length < 2 ^ 32) (i : Nat) (x : SCall D) (api : SApi D) (res : SOut D)
    (hx : ((World.init s0 cli).run ops).server.calls[i]? = some x) (hprog : x.prog = sbody api) (hst : x.st = .over res) :
    (declined s0.transport s0.caps s0.strict api = some res ∧ sentOf x.path = []) ∨
    (∃ o kind op, Unanswered o ∧ Op.wire op ∈ ops ∧ ¬ StaysOpen op ∧ res = reports s0.strict kind api o) ∨
    ∃ p id env σ r kind, DispatchedAt (World.init s0 cli) ops p ⟨id, (enquiry api).method, (enquiry api).params⟩ env σ r ∧
      res = reports s0.strict kind api (.resp ⟨id, r.result, r.error⟩) ∧
      (∀ t, api = .taskResult t → r.error = none → r.result ≠ none → ∃ s', Ev.saw s' ∈ x.path ∧ kind = s'.kinds t) ∧
      ∃ n m, sentOf x.path = [n] ∧ ((World.init s0 cli).run ops).futs[n]? = some m ∧
        ((World.init s0 cli).run ops).net.a.asked[m]? = some (m, ⟨id, (enquiry api).method, (enquiry api).params⟩) := by
  obtain ⟨cops, h1, h2, h3⟩ := server_run s0 cli ops
  have hcalm : ∀ op ∈ cops, Unaltered op := by
    intro op hop
    cases op with
    | call b => obtain ⟨api, h4, -⟩ := h2 b hop; exact ⟨api, h4⟩
    | change u => exact hc.still u (h3 u hop)
    | _ => trivial
  have hx' := hx
  rw [h1] at hx'
  rcases C113_outcome s0 cops hcalm i x hx' api hprog res hst with h | ⟨-, n, o, kind, h4, h5, h6, h7, hk, -⟩
  · exact .inl h
  · have hl := link_world s0 cli ops
    obtain ⟨m, id, h8, h9⟩ := hl.sent i x n _ hx h5
    obtain ⟨m', so, h10, h11, h12⟩ := hl.cell n o (by rw [h1]; exact h6)
    rw [h8] at h10
    cases h10
    have hown := ownIds_world s0 cli ops names few
    have hmem := AMap.get_some_mem h11
    have shut : ¬ (so = .broken ∨ ∃ r, so = .response r) → ∃ op, Op.wire op ∈ ops ∧ ¬ StaysOpen op := by
      intro hno
      apply Classical.byContradiction
      intro hn
      exact hno (answers_world hc (fun op hop => Classical.byContradiction fun h => hn ⟨op, hop, h⟩) m so hmem)
    cases so with
    | response r =>
      right; right
      have hans := C16_own_answer_partial true true (begun s0 cli ops) (begun_plain hc) false hown m r
      rw [← net_world] at hans
      obtain ⟨req, out, h13, h14, -, h16⟩ := hans hmem
      have h13 := asked_at h13
      rw [h9] at h13
      cases h13
      obtain ⟨p, env, σ, r', rfl, h17⟩ := answered_world s0 cli ops _ _ h14
      have hid := (((plain_world hc) true).answeredPlain _ _ h14).1
      rw [answer_read hid (hc.answers _ _ _ _ _ h17)] at h16
      refine ⟨p, id, env, σ, r', kind, h17, ?_, fun t ht he hres => hk t ht ?_, n, m, h4, h8, h9⟩
      · rw [h7, h12, h16]; rfl
      · rw [h12, h16]
        show (r'.error.isNone && r'.result.isSome) = true
        rw [he]
        cases hres' : r'.result with
        | none => exact absurd hres' hres
        | some v => rfl
    | peerGone id =>
      obtain ⟨op, g1, g2⟩ := shut (fun hr => by rcases hr with hr | ⟨r, hr⟩ <;> cases hr)
      exact .inr (.inl ⟨o, kind, op, ⟨_, _, by simp, h12⟩, g1, g2, h7⟩)
    | closed id =>
      obtain ⟨op, g1, g2⟩ := shut (fun hr => by rcases hr with hr | ⟨r, hr⟩ <;> cases hr)
      exact .inr (.inl ⟨o, kind, op, ⟨_, _, by simp, h12⟩, g1, g2, h7⟩)
    | broken =>
      have hb := C16_none_broken true true (begun s0 cli ops) false hown m
      rw [← net_world] at hb
      exact absurd hmem hb

/-- Each request of the server's transport is that of one call. -/
theorem asked_call (s0 : SSelf D) (cli : Cli D H) (ops : List (Op D H)) {n : Nat} {g : Request D}
    (hg : ((World.init s0 cli).run ops).net.a.asked[n]? = some (n, g)) :
    ∃ (i : Nat) (x : SCall D) (api : SApi D), ((World.init s0 cli).run ops).server.calls[i]? = some x ∧ n ∈ sentOf x.path ∧ x.prog = sbody api ∧
      g = ⟨g.id, (enquiry api).method, (enquiry api).params⟩ := by
  have hl := link_world s0 cli ops
  obtain ⟨ho, -⟩ := only_world s0 cli ops
  obtain ⟨cops, g1, -, -⟩ := server_run s0 cli ops
  have hperm := (inv_run s0 cops).perm
  rw [← g1] at hperm
  have hlt := lt_of_get hg
  have hlt' : n < ((World.init s0 cli).run ops).server.cells.length := by rw [← hl.len, ho, List.length_range]; exact hlt
  obtain ⟨x, hx, hnx⟩ := List.mem_flatMap.1 (hperm.symm.subset (List.mem_range.2 hlt'))
  obtain ⟨i, hi⟩ := List.getElem?_of_mem hx
  obtain ⟨api, hp, -⟩ := call_prog s0 cli ops hi
  obtain ⟨q0, hq0⟩ := mem_sentOf.1 hnx
  have hq := (world_asks s0 cli ops hi hp).1 n q0 hq0
  subst hq
  obtain ⟨m, id, k1, k2⟩ := hl.sent i x n _ hi hq0
  rw [ho, List.getElem?_range hlt] at k1
  cases k1
  rw [hg] at k2
  cases k2
  exact ⟨i, x, api, hi, hnx, hp, rfl⟩

/-- The answers of the client with the places of the execution they were given at. -/
theorem places_world (s0 : SSelf D) (cli : Cli D H) (ops : List (Op D H)) :
    ∃ L : List (Nat × Request D), ((World.init s0 cli).run ops).net.b.answered.map (·.1) = L.map (·.2) ∧ (∀ e ∈ L, e.1 < ops.length) ∧
      ∀ p q env σ r, DispatchedAt (World.init s0 cli) ops p q env σ r → (p, q) ∈ L := by
  induction ops using snoc_induction with
  | h0 => exact ⟨[], rfl, fun e h => (nomatch h), fun p q env σ r h => by obtain ⟨i, h, -⟩ := h; cases h⟩
  | h1 ops op ih =>
    obtain ⟨L, h1, h2, h3⟩ := ih
    have old : ∀ p q env σ r, DispatchedAt (World.init s0 cli) (ops ++ [op]) p q env σ r → p < ops.length → (p, q) ∈ L := by
      rintro p q env σ r ⟨i, k1, k2⟩ hl
      rw [List.getElem?_append_left hl] at k1
      rw [List.take_append_of_le_length (Nat.le_of_lt hl)] at k2
      exact h3 p q env σ r ⟨i, k1, k2⟩
    have last : ∀ p q env σ r, DispatchedAt (World.init s0 cli) (ops ++ [op]) p q env σ r → ¬ p < ops.length →
        p = ops.length ∧ ∃ i, op = .serve i env ∧ ((World.init s0 cli).run ops).net.b.jobs[i]? = some q ∧ ((World.init s0 cli).run ops).dead = false ∧
          (onRequest env ((World.init s0 cli).run ops).cli q).1 = .answer r := by
      rintro p q env σ r ⟨i, k1, k2, k3, k4, k5⟩ hl
      have hp := lt_of_get k1
      rw [List.length_append, List.length_singleton] at hp
      have hp : p = ops.length := by omega
      subst hp
      have ht : (ops ++ [op]).take ops.length = ops := by simp
      rw [ht] at k2 k3 k4
      rw [List.getElem?_append_right (Nat.le_refl _), Nat.sub_self] at k1
      cases k1
      subst k3
      exact ⟨rfl, i, rfl, k2, k4, k5⟩
    rw [run_snoc]
    rcases answered_step ((World.init s0 cli).run ops) op with g | ⟨i, env, q, r, rfl, g1, g2, g3, -, -, g4⟩
    · refine ⟨L, by rw [g]; exact h1, fun e he => by have := h2 e he; rw [List.length_append]; omega, fun p q env σ r hd => ?_⟩
      by_cases hl : p < ops.length
      · exact old p q env σ r hd hl
      · exfalso
        obtain ⟨-, i, rfl, k2, k4, k5⟩ := last p q env σ r hd hl
        rw [step_alive k4] at g
        simp only [World.act, World.serve, k2, k5] at g
        rw [(Near.reply_b _ i (.resp r) k2).1] at g
        have := congrArg List.length g
        simp at this
    · refine ⟨L ++ [(ops.length, q)], by rw [g4, List.map_append, List.map_append, h1]; rfl, fun e he => ?_, fun p q' env' σ r' hd => ?_⟩
      · rw [List.length_append, List.length_singleton]
        rcases List.mem_append.1 he with he | he
        · have := h2 e he; omega
        · cases List.mem_singleton.1 he; exact Nat.lt_succ_self _
      · by_cases hl : p < ops.length
        · exact List.mem_append_left _ (old p q' env' σ r' hd hl)
        · obtain ⟨rfl, i', hop, k2, -, -⟩ := last p q' env' σ r' hd hl
          cases hop
          rw [g2] at k2
          cases k2
          exact List.mem_append_right _ (List.mem_singleton.2 rfl)

/-! ### The claims -/

/-- C130, partial. A call of the server to its client that has given its result asked nothing and was declined for want of a transport, of a capability the client announced or of
well-formed parameters; or a transport was closed and it was told that the peer is not connected or that the transport was closed; or the client handled a request with the method and
the parameters of this call, in some state it went through, and the result is what the call makes of that answer. Missing: traffic the wire format does not carry (C04 to C06, C15),
ids of callers that are given twice or look like those of the transport, and more than four thousand million requests. -/
theorem C130_result_partial (s0 : SSelf D) (cli : Cli D H) (ops : List (Op D H)) (hc : Carried (World.init s0 cli) ops) :
    let w := (World.init s0 cli).run ops
    OwnNames w → w.server.cells.length < 2 ^ 32 →
      ∀ (i : Nat) (x : SCall D) (api : SApi D) (res : SOut D), w.server.calls[i]? = some x → x.prog = sbody api → x.st = .over res →
        (declined s0.transport s0.caps s0.strict api = some res ∧ sentOf x.path = []) ∨
        (∃ o kind op, Unanswered o ∧ Op.wire op ∈ ops ∧ ¬ StaysOpen op ∧ res = reports s0.strict kind api o) ∨
        ∃ p id env σ r kind, DispatchedAt (World.init s0 cli) ops p ⟨id, (enquiry api).method, (enquiry api).params⟩ env σ r ∧
          res = reports s0.strict kind api (.resp ⟨id, r.result, r.error⟩) ∧
          (∀ t, api = .taskResult t → r.error = none → r.result ≠ none → ∃ s', Ev.saw s' ∈ x.path ∧ kind = s'.kinds t) ∧
          -- it was for this call alone that the request was handled
          ∀ p' q' env' σ' r', DispatchedAt (World.init s0 cli) ops p' q' env' σ' r' → q'.id = id → p' = p ∧
            ∀ (j : Nat) (y : SCall D) n, w.server.calls[j]? = some y → n ∈ sentOf y.path → w.net.a.asked[n]? = some (n, q') → j = i := by
  intro w names few i x api res hx hprog hst
  rcases result_of s0 cli ops hc names few i x api res hx hprog hst with h | h | ⟨p, id, env, σ, r, kind, h1, h2, h3, n, m, h4, h5, h6⟩
  · exact .inl h
  · exact .inr (.inl h)
  · refine .inr (.inr ⟨p, id, env, σ, r, kind, h1, h2, h3, fun p' q' env' σ' r' hd hid => ?_⟩)
    obtain ⟨L, k1, k2, k3⟩ := places_world s0 cli ops
    obtain ⟨rest, harr⟩ := arrived_world hc
    have hids : ((w.net.a.asked.map (·.2)).map (fun q => idText q.id)).Nodup := by rw [List.map_map]; exact ids_world names few
    have hans : (L.map (fun e => idText e.2.id)).Nodup := by
      have hn := (harr.map (fun q => idText q.id)).nodup_iff.2 hids
      rw [List.map_append, List.map_append] at hn
      have hn := (List.nodup_append.1 (List.nodup_append.1 hn).1).2.1
      rw [k1, List.map_map] at hn
      exact hn
    obtain ⟨a, ha⟩ := List.getElem?_of_mem (k3 _ _ _ _ _ h1)
    obtain ⟨b, hb⟩ := List.getElem?_of_mem (k3 _ _ _ _ _ hd)
    have ea : (L.map (fun e => idText e.2.id))[a]? = some (idText id) := by rw [List.getElem?_map, ha]; rfl
    have eb : (L.map (fun e => idText e.2.id))[b]? = some (idText id) := by rw [List.getElem?_map, hb, Option.map_some, hid]
    have hab := (List.getElem?_inj (lt_of_get ea) hans).1 (ea.trans eb.symm)
    subst hab
    rw [ha] at hb
    cases hb
    refine ⟨rfl, fun j y n' hy hn' hq' => ?_⟩
    have hmm : n' = m := asked_fun names few hq' h6
    subst hmm
    have hf : w.futs[n]? = some n := by
      rw [show w.futs = _ from (only_world s0 cli ops).1] at h5 ⊢
      have := lt_of_get h5
      rw [List.length_range] at this
      rw [List.getElem?_range this]
    rw [h5] at hf
    cases hf
    obtain ⟨cops, g1, -, -⟩ := server_run s0 cli ops
    have hinv := inv_run s0 cops
    rw [show w.server = _ from g1] at hy
    rw [g1] at hx
    exact flat_nodup (hinv.perm.nodup_iff.2 List.nodup_range) hx hy (c := n) (by rw [h4]; simp) hn'

/-- C130, partial. Every request the client has handled was that of one call of the server, and no call was handled twice. Missing: as for `C130_result_partial`. -/
theorem C130_handled_partial (s0 : SSelf D) (cli : Cli D H) (ops : List (Op D H)) (hc : Carried (World.init s0 cli) ops) :
    let w := (World.init s0 cli).run ops
    OwnNames w → w.server.cells.length < 2 ^ 32 →
      ∃ caller : Nat → Nat,
        (∀ p q env σ r, DispatchedAt (World.init s0 cli) ops p q env σ r →
          ∃ x api, w.server.calls[caller p]? = some x ∧ x.prog = sbody api ∧ q.method = (enquiry api).method ∧ q.params = (enquiry api).params) ∧
        ∀ p q env σ r p' q' env' σ' r', DispatchedAt (World.init s0 cli) ops p q env σ r → DispatchedAt (World.init s0 cli) ops p' q' env' σ' r' →
          caller p = caller p' → p = p' := by
  intro w names few
  obtain ⟨L, k1, k2, k3⟩ := places_world s0 cli ops
  obtain ⟨rest, harr⟩ := arrived_world hc
  have hids : ((w.net.a.asked.map (·.2)).map (fun q => idText q.id)).Nodup := by rw [List.map_map]; exact ids_world names few
  have hans : (L.map (fun e => idText e.2.id)).Nodup := by
    have hn := (harr.map (fun q => idText q.id)).nodup_iff.2 hids
    rw [List.map_append, List.map_append] at hn
    have hn := (List.nodup_append.1 (List.nodup_append.1 hn).1).2.1
    rw [k1, List.map_map] at hn
    exact hn
  have hex : ∀ p : Nat, ∃ i : Nat, ∀ q env σ r, DispatchedAt (World.init s0 cli) ops p q env σ r → ∃ (n : Nat) (x : SCall D) (api : SApi D),
      w.server.calls[i]? = some x ∧ n ∈ sentOf x.path ∧ x.prog = sbody api ∧ q = ⟨q.id, (enquiry api).method, (enquiry api).params⟩ ∧ w.net.a.asked[n]? = some (n, q) := by
    intro p
    by_cases h : ∃ q env σ r, DispatchedAt (World.init s0 cli) ops p q env σ r
    · obtain ⟨q, env, σ, r, hd⟩ := h
      have hm : q ∈ w.net.b.answered.map (·.1) := by rw [k1]; exact List.mem_map.2 ⟨_, k3 _ _ _ _ _ hd, rfl⟩
      obtain ⟨⟨n, q0⟩, g1, g2⟩ := List.mem_map.1 (harr.subset (List.mem_append_left _ (List.mem_append_right _ hm)))
      have g2 : q0 = q := g2
      subst g2
      have g1 := asked_at g1
      obtain ⟨i, x, api, a1, a2, a3, a4⟩ := asked_call s0 cli ops g1
      refine ⟨i, fun q' env' σ' r' hd' => ?_⟩
      obtain ⟨j, b1, b2, -⟩ := hd
      obtain ⟨j', b1', b2', -⟩ := hd'
      rw [b1] at b1'
      cases b1'
      rw [b2] at b2'
      cases b2'
      exact ⟨n, x, api, a1, a2, a3, a4, g1⟩
    · exact ⟨0, fun q env σ r hd => absurd ⟨q, env, σ, r, hd⟩ h⟩
  obtain ⟨caller, hcaller⟩ := Classical.axiomOfChoice hex
  refine ⟨caller, fun p q env σ r hd => ?_, fun p q env σ r p' q' env' σ' r' hd hd' he => ?_⟩
  · obtain ⟨n, x, api, a1, -, a3, a4, -⟩ := hcaller p q env σ r hd
    exact ⟨x, api, a1, a3, congrArg Request.method a4, congrArg Request.params a4⟩
  · obtain ⟨n, x, api, a1, a2, a3, -, a5⟩ := hcaller p q env σ r hd
    obtain ⟨n', x', api', a1', a2', a3', -, a5'⟩ := hcaller p' q' env' σ' r' hd'
    rw [he, a1'] at a1
    cases a1
    have hnn := (world_asks s0 cli ops a1' a3).2 _ _ a2 a2'
    subst hnn
    rw [a5] at a5'
    injection a5' with a5'
    injection a5' with _ a5'
    subst a5'
    obtain ⟨a, ha⟩ := List.getElem?_of_mem (k3 _ _ _ _ _ hd)
    obtain ⟨b, hb⟩ := List.getElem?_of_mem (k3 _ _ _ _ _ hd')
    have ea : (L.map (fun e => idText e.2.id))[a]? = some (idText q.id) := by rw [List.getElem?_map, ha]; rfl
    have eb : (L.map (fun e => idText e.2.id))[b]? = some (idText q.id) := by rw [List.getElem?_map, hb]; rfl
    have hab := (List.getElem?_inj (lt_of_get ea) hans).1 (ea.trans eb.symm)
    subst hab
    rw [ha] at hb
    cases hb
    rfl

end Verif.Ask
