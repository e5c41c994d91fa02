import Verif.Back.Names

/-!
C134: a call of the server to its client over the shared-memory transport gives what the client answered to it, or an error that says why there was no answer, and the client handles each
call once at the most; a call that says `result` or `error` never reaches the client.
-/

namespace Verif.Back

open Verif.Await Verif.Client Verif.Server Verif.Shm
open Verif.Whole (snoc_induction lt_of_get)
open Verif.Ask (asRequest asking once_sbody mem_sentOf asks_closed)
open Verif.Share (NOp seen actor reserved asks OnWay onWay_run handler_run Large large_run Up up_run Ends Unfiled unfiled_run nodup_inj chosen_says)
open Verif.Stdio (idText)
open Verif.InMemory (PlainReq PlainNote PlainOut)

variable {D H : Type} [DblFmt D]

/-! ### Specification -/

/-- All that is sent in the execution survives the wire format (C04 to C06, C15), and nothing changes the transport of the server, its mode or what it knows of the client. -/
structure Carried (c : Cfg) (x : Bool) (w : World D H) (ops : List (Op D H)) : Prop where
  calls : ∀ api, Op.call api ∈ ops → PlainReq (asRequest (enquiry api))
  wires : ∀ op, Op.wire op ∈ ops → PlainOp op
  answers : ∀ p q env σ r, DispatchedAt c x w ops p q env σ r → PlainAnswer (.resp r)
  still : ∀ u, Op.change u ∈ ops → ∀ s, (u s).transport = s.transport ∧ (u s).caps = s.caps ∧ (u s).strict = s.strict

/-- What a call is told when its request got no answer of the client, and why: the request was larger than the limit of the server, the queue did not take it, or a transport was told to end
or the limit of the server is smaller than that of the queues. -/
def Unanswered (c : Cfg) (x : Bool) (ops : List (Op D H)) (q : SReq D) (o : Client.Outcome D) : Prop :=
  ∃ id text, o = .resp ⟨id, none, some (.obj [(lit "code", .int (-32603)), (lit "message", .str text)])⟩ ∧
    ((text = lit "Payload too large" ∧ c.size x < (serRequest ⟨id, q.method, q.params⟩).length) ∨ text = lit "Send failed" ∨
      (text ∈ [lit "Peer not connected", lit "Transport closed"] ∧ (c.size x < c.sizeA ∨ ∃ op, Op.wire op ∈ ops ∧ Ends op)))

/-! ### Plain traffic -/

theorem Carried.prefix {c : Cfg} {x : Bool} {w : World D H} {ops : List (Op D H)} {op : Op D H} (h : Carried c x w (ops ++ [op])) : Carried c x w ops :=
  ⟨fun api ha => h.calls api (List.mem_append_left _ ha), fun o ho => h.wires o (List.mem_append_left _ ho),
    fun p q env σ r hd => h.answers p q env σ r (hd.more op), fun u hu => h.still u (List.mem_append_left _ hu)⟩

/-- What a call is about to send survives the wire format. -/
theorem asking_plain {c : Cfg} {x : Bool} {s0 : SSelf D} {cli : Cli D H} {ops : List (Op D H)}
    (hc : ∀ api, Op.call api ∈ ops → PlainReq (asRequest (enquiry api))) {i : Nat} {q : SReq D}
    (h : asking ((World.init c s0 cli).run c x ops).server i = some q) : PlainReq (asRequest q) := by
  obtain ⟨cops, h1, h2, -⟩ := server_run c x s0 cli ops
  have hst := stHas_run (asks_closed fun q : SReq D => PlainReq (asRequest q)) s0 cops (fun b hb => by
    obtain ⟨api, rfl, h4⟩ := h2 b hb
    exact (once_sbody api).only.mono fun q hq => by rw [hq]; exact hc api h4)
  rw [h1] at h
  unfold asking at h
  split at h
  · rename_i z hz
    split at h
    · rename_i q0 k hs
      cases h
      have := hst i z hz
      rw [hs] at this
      exact this.1
    · cases h
  · cases h

theorem netOps_cases {x : Bool} {w : World D H} {op : Op D H} {nop : NOp D} (hn : nop ∈ netOps x w op) :
    (∃ i q, op = .go i ∧ asking w.server i = some q ∧ nop = .send x (asRequest q)) ∨ (∃ i, nop = .file x i) ∨ (op = .wire nop) ∨
    ∃ i env q r, op = .serve i env ∧ (w.net.get (!x)).jobs[i]? = some q ∧ w.dead = false ∧ (onRequest env w.cli q).1 = .answer r ∧ nop = .reply (!x) i (.resp r) := by
  unfold netOps at hn
  cases op with
  | go i =>
    simp only [netOf] at hn
    split at hn
    · rename_i q hq
      split at hn
      · exact .inl ⟨i, q, rfl, hq, List.mem_singleton.1 (show nop ∈ [_] from hn)⟩
      · cases hn
    · cases hn
  | file i =>
    simp only [netOf] at hn
    split at hn
    · exact .inr (.inl ⟨i, List.mem_singleton.1 (show nop ∈ [_] from hn)⟩)
    · cases hn
  | wire op =>
    simp only [netOf] at hn
    split at hn
    · cases hn
    · exact .inr (.inr (.inl (by rw [List.mem_singleton.1 (show nop ∈ [_] from hn)])))
  | serve i env =>
    simp only [netOf] at hn
    split at hn
    · cases hn
    · rename_i hd
      split at hn
      · cases hn
      · rename_i q hq
        split at hn
        · rename_i r hr
          exact .inr (.inr (.inr ⟨i, env, q, r, rfl, hq, by simpa using hd, hr, List.mem_singleton.1 (show nop ∈ [_] from hn)⟩))
        · cases hn
  | call api => cases hn
  | drop i => cases hn
  | change u => cases hn
  | deliver n => cases hn
  | own op => cases hn

theorem netOps_plain {c : Cfg} {x : Bool} {s0 : SSelf D} {cli : Cli D H} {ops : List (Op D H)} {op : Op D H} (hc : Carried c x (World.init c s0 cli) (ops ++ [op])) :
    ∀ nop ∈ netOps x ((World.init c s0 cli).run c x ops) op, PlainOp nop := by
  intro nop hn
  rcases netOps_cases hn with ⟨i, q, rfl, hq, rfl⟩ | ⟨i, rfl⟩ | rfl | ⟨i, env, q, r, rfl, hq, hd, hr, rfl⟩
  · exact asking_plain hc.prefix.calls hq
  · trivial
  · exact hc.wires nop (by simp)
  · exact (hc.answers _ q env _ r (dispatched_last hq hd hr)).out

theorem trace_plain {c : Cfg} {x : Bool} {s0 : SSelf D} {cli : Cli D H} {ops : List (Op D H)} (hc : Carried c x (World.init c s0 cli) ops) :
    ∀ nop ∈ trace c x (World.init c s0 cli) ops, PlainOp nop := by
  induction ops using snoc_induction with
  | h0 => intro nop h; cases h
  | h1 ops op ih =>
    intro nop hn
    rw [trace_snoc] at hn
    rcases List.mem_append.1 hn with h | h
    · exact ih hc.prefix nop h
    · exact netOps_plain hc nop h

theorem trace_open {c : Cfg} {x : Bool} {w : World D H} {ops : List (Op D H)} (h : ∀ op, Op.wire op ∈ ops → ¬ Ends op) : ∀ nop ∈ trace c x w ops, ¬ Ends nop := by
  induction ops using snoc_induction with
  | h0 => intro nop h; cases h
  | h1 ops op ih =>
    intro nop hn
    rw [trace_snoc] at hn
    rcases List.mem_append.1 hn with hn | hn
    · exact ih (fun o ho => h o (List.mem_append_left _ ho)) nop hn
    · rcases netOps_cases hn with ⟨i, q, -, -, rfl⟩ | ⟨i, rfl⟩ | rfl | ⟨i, env, q, r, -, -, -, -, rfl⟩
      · exact fun e => e
      · exact fun e => e
      · exact h nop (by simp)
      · exact fun e => e

theorem begun_plain {c : Cfg} {x : Bool} {s0 : SSelf D} {cli : Cli D H} {ops : List (Op D H)} (hc : Carried c x (World.init c s0 cli) ops) :
    ∀ nop ∈ begun c x s0 cli ops, PlainOp nop := by
  intro nop hn
  rcases List.mem_append.1 hn with h | h
  · simp only [List.mem_cons, List.not_mem_nil, or_false] at h
    rcases h with rfl | rfl <;> trivial
  · exact trace_plain hc nop h

theorem plain_world {c : Cfg} {x : Bool} {s0 : SSelf D} {cli : Cli D H} {ops : List (Op D H)} (hc : Carried c x (World.init c s0 cli) ops) :
    PlainAll ((World.init c s0 cli).run c x ops).net := by
  rw [net_world]
  exact plainAll_run (plainAll_init true true) (fifo_init true true) c _ (begun_plain hc)

theorem large_world {c : Cfg} {x : Bool} {s0 : SSelf D} {cli : Cli D H} {ops : List (Op D H)} (hc : Carried c x (World.init c s0 cli) ops) :
    Large c x (((World.init c s0 cli).run c x ops).net.get x) := by
  rw [net_world]
  exact large_run _ (begun_plain hc) (fun n id h => (by cases x <;> cases h)) (plainAll_init true true) (fifo_init true true)

/-- Without a transport being told to end, and with a limit of the server that is no smaller than that of the queues, the server stays connected. -/
theorem up_world {c : Cfg} {x : Bool} {s0 : SSelf D} {cli : Cli D H} {ops : List (Op D H)} (hc : Carried c x (World.init c s0 cli) ops) (hs : c.sizeA ≤ c.size x)
    (ho : ∀ op, Op.wire op ∈ ops → ¬ Ends op) : Up (((World.init c s0 cli).run c x ops).net.get x) := by
  rw [net_world]
  have hsplit : (Net.init true true : Net D).run c (begun c x s0 cli ops) =
      ((Net.init true true : Net D).run c [.start false, .start true]).run c (trace c x (World.init c s0 cli) ops) := by
    unfold begun Net.run; rw [List.foldl_append]
  rw [hsplit]
  refine up_run hs _ (fun op hop => ⟨trace_plain hc op hop, trace_open ho op hop⟩) (plainAll_run (plainAll_init true true) (fifo_init true true) c _ ?_)
    (fifo_run (fifo_init true true) c _) ?_ ?_
  · intro nop h
    simp only [List.mem_cons, List.not_mem_nil, or_false] at h
    rcases h with rfl | rfl <;> trivial
  · intro t ht
    cases x <;> cases ht
  · cases x <;> exact ⟨rfl, rfl, (fun n o h => nomatch h)⟩

/-- The requests the server has in work or has answered came each from one request of the server's side. -/
theorem arrived_world {c : Cfg} {x : Bool} {s0 : SSelf D} {cli : Cli D H} {ops : List (Op D H)} (hc : Carried c x (World.init c s0 cli) ops) :
    ∃ rest, ((((World.init c s0 cli).run c x ops).net.get (!x)).jobs ++ (((World.init c s0 cli).run c x ops).net.get (!x)).answered.map (·.1) ++ rest).Perm
      ((((World.init c s0 cli).run c x ops).net.get x).asked.map (·.2)) := by
  have hplain := begun_plain hc
  rw [net_world]
  generalize begun c x s0 cli ops = nops at *
  have hw : OnWay (((Net.init true true : Net D).run c nops).get x) :=
    onWay_run (plainAll_init true true) (fifo_init true true) ⟨[], by cases x <;> exact List.Perm.refl _⟩ nops hplain
  obtain ⟨pre, h1, h2⟩ := fifo_run (fifo_init (D := D) true true) c nops (!x)
  have h3 : ((((Net.init true true : Net D).run c nops).get (!x)).events.filterMap Event.req?).Perm _ := C47_answered_once (D := D) c true true nops (!x)
  have hh : (((Net.init true true : Net D).run c nops).get (!x)).hasHandler = true := by rw [handler_run]; cases x <;> rfl
  obtain ⟨rest, hw⟩ := hw
  rw [h2, hh, List.filterMap_map] at h3
  rw [Bool.not_not] at h1
  have h4 : (((Net.init true true : Net D).run c nops).get x).log.filterMap asks =
      pre.filterMap (Event.req? ∘ eventOf (D := D) true) ++ ((((Net.init true true : Net D).run c nops).get (!x)).current.toList ++
        (((Net.init true true : Net D).run c nops).get (!x)).queue).filterMap asks := by
    rw [h1, List.append_assoc, List.filterMap_append]; rfl
  rw [h4] at hw
  refine ⟨((((Net.init true true : Net D).run c nops).get (!x)).current.toList ++ (((Net.init true true : Net D).run c nops).get (!x)).queue).filterMap asks ++
    (((Net.init true true : Net D).run c nops).get x).sending.map (·.2) ++ rest, ?_⟩
  refine List.Perm.trans ?_ hw
  rw [← List.append_assoc]
  refine List.Perm.append_right _ ?_
  refine List.Perm.trans ?_ List.perm_append_comm
  rw [← List.append_assoc]
  refine List.Perm.append_right _ ?_
  exact (h3.symm.append_right _)

/-! ### The claims -/

theorem apart_world {c : Cfg} {x : Bool} {s0 : SSelf D} {cli : Cli D H} {ops : List (Op D H)} (names : OwnNames ((World.init c s0 cli).run c x ops)) (few : ops.length + 2 < 2 ^ 64) :
    ((((World.init c s0 cli).run c x ops).net.get x).asked.map (fun p => idText p.2.id)).Nodup := by
  obtain ⟨l, h⟩ := ids_world c x s0 cli ops names few
  exact (List.nodup_append.1 h.apart).1

/-- A request the transport of the server sent is known by its id. -/
theorem asked_by_id {c : Cfg} {x : Bool} {s0 : SSelf D} {cli : Cli D H} {ops : List (Op D H)} (names : OwnNames ((World.init c s0 cli).run c x ops)) (few : ops.length + 2 < 2 ^ 64)
    {n m : Nat} {q q' : Request D} (h1 : (n, q) ∈ (((World.init c s0 cli).run c x ops).net.get x).asked) (h2 : (m, q') ∈ (((World.init c s0 cli).run c x ops).net.get x).asked)
    (h : idText q.id = idText q'.id) : n = m ∧ q = q' := by
  have := nodup_inj (apart_world names few) h1 h2 h
  cases this
  exact ⟨rfl, rfl⟩

theorem sent_apart {c : Cfg} {x : Bool} {s0 : SSelf D} {cli : Cli D H} {ops : List (Op D H)} (names : OwnNames ((World.init c s0 cli).run c x ops)) (few : ops.length + 2 < 2 ^ 64) :
    (((((World.init c s0 cli).run c x ops).net.get x).tab.sent).map (·.2)).Nodup := by
  rw [← asked_world c x s0 cli ops x, List.map_map]
  exact apart_world names few

theorem outcome_fun {c : Cfg} {x : Bool} {s0 : SSelf D} {cli : Cli D H} {ops : List (Op D H)} {n : Nat} {o o' : Shm.Outcome D}
    (h1 : (n, o) ∈ (((World.init c s0 cli).run c x ops).net.get x).tab.outcomes) (h2 : (n, o') ∈ (((World.init c s0 cli).run c x ops).net.get x).tab.outcomes) : o = o' := by
  have := nodup_inj (tab_world c x s0 cli ops x).1.once h1 h2 rfl
  cases this
  rfl

theorem unfiled_world (c : Cfg) (x : Bool) (s0 : SSelf D) (cli : Cli D H) (ops : List (Op D H)) : Unfiled (((World.init c s0 cli).run c x ops).net.get x) := by
  rw [net_world]
  exact unfiled_run _ (tabInv_init true true) (by intro y; cases y <;> rfl) (fun n id q h => (by cases x <;> cases h))

/-- What became of call `i`: the request the server dispatched for it was filed under its future. -/
theorem result_of (c : Cfg) (x : Bool) (s0 : SSelf D) (cli : Cli D H) (ops : List (Op D H)) (hc : Carried c x (World.init c s0 cli) ops)
    (hw : NoWords (((World.init c s0 cli).run c x ops).net.get (!x)))
    (names : OwnNames ((World.init c s0 cli).run c x ops)) (few : ops.length + 2 < 2 ^ 64) (i : Nat) (z : SCall D) (api : SApi D) (res : SOut D)
    (hx : ((World.init c s0 cli).run c x ops).server.calls[i]? = some z) (hprog : z.prog = sbody api) (hst : z.st = .over res) :
    (declined s0.transport s0.caps s0.strict api = some res ∧ sentOf z.path = []) ∨
    (∃ o kind, Unanswered c x ops (enquiry api) o ∧ res = reports s0.strict kind api o) ∨
    ∃ p id env σ r kind, DispatchedAt c x (World.init c s0 cli) ops p ⟨id, (enquiry api).method, (enquiry api).params⟩ env σ r ∧
      res = reports s0.strict kind api (.resp ⟨id, r.result, r.error⟩) ∧
      (∀ t, api = .taskResult t → r.error = none → r.result ≠ none → ∃ s', Ev.saw s' ∈ z.path ∧ kind = s'.kinds t) ∧
      (serResponse ⟨id, r.result, r.error⟩).length ≤ c.size (!x) ∧ (serResponse ⟨id, r.result, r.error⟩).length ≤ c.sizeA ∧
      ∃ n m, sentOf z.path = [n] ∧ ((World.init c s0 cli).run c x ops).futs[n]? = some (some m) ∧
        (m, ⟨id, (enquiry api).method, (enquiry api).params⟩) ∈ (((World.init c s0 cli).run c x ops).net.get x).asked := by
  obtain ⟨cops, h1, h2, h3⟩ := server_run c x s0 cli ops
  have hcalm : ∀ op ∈ cops, Unaltered op := by
    intro op hop
    cases op with
    | call b => obtain ⟨api, h4, -⟩ := h2 b hop; exact ⟨api, h4⟩
    | change u => exact hc.still u (h3 u hop)
    | _ => trivial
  have hx' := hx
  rw [h1] at hx'
  rcases C113_outcome s0 cops hcalm i z hx' api hprog res hst with h | ⟨-, n, o, kind, h4, h5, h6, h7, hk, -⟩
  · exact .inl h
  · have hl := link_world c x s0 cli ops
    obtain ⟨m, so, h10, hmem, h12⟩ := hl.cell n o (by rw [h1]; exact h6)
    have hsent : (∃ id, (m, ⟨id, (enquiry api).method, (enquiry api).params⟩) ∈ (((World.init c s0 cli).run c x ops).net.get x).asked) ∨ ∃ id, so = .refused id := by
      rcases hl.sent i z n _ hx h5 with ⟨j, g1, -⟩ | ⟨m', g1, g2⟩
      · rw [hl.waiting j n g1] at h10; cases h10
      · rw [h10] at g1
        cases g1
        rcases g2 with g2 | g2
        · obtain ⟨id, -, g2⟩ := g2; exact .inl ⟨id, g2⟩
        · obtain ⟨id, g2⟩ := g2; exact .inr ⟨id, outcome_fun hmem g2⟩
    have shut : (match so with | .refused _ => False | .peerGone _ => False | .closed _ => False | _ => True) ∨ (c.size x < c.sizeA ∨ ∃ op, Op.wire op ∈ ops ∧ Ends op) := by
      apply Classical.byContradiction
      intro hn
      have hn := not_or.1 hn
      have hn2 := not_or.1 hn.2
      exact hn.1 ((up_world hc (Nat.le_of_not_lt hn2.1) (fun op hop he => hn2.2 ⟨op, hop, he⟩)).outcomes m so hmem)
    cases so with
    | response r =>
      right; right
      obtain ⟨id, h9⟩ := hsent.resolve_right (fun e => by obtain ⟨_, e⟩ := e; cases e)
      have hans := C90_answer_is_reply_partial c true true (begun c x s0 cli ops) (begun_plain hc) x m r
      rw [← net_world] at hans
      obtain ⟨req, out, h13, h14, -, h16⟩ := hans (sent_apart names few) hw hmem
      obtain rfl := Shm.asked_fun (tab_world c x s0 cli ops) (asked_world c x s0 cli ops) h9 h13
      obtain ⟨p, env, σ, r', rfl, h17, h18⟩ := answered_world c x s0 cli ops _ _ _ h14
      have hid := ((plain_world hc (!x)).answered _ _ _ h14).2.1.1
      rw [answer_read hid (hc.answers _ _ _ _ _ h17)] at h16
      refine ⟨p, id, env, σ, r', kind, h17, ?_, fun t ht he hres => hk t ht ?_, (h18 rfl).1, (h18 rfl).2, n, m, h4, h10, h9⟩
      · rw [h7, h12, h16]; rfl
      · rw [h12, h16]
        show (r'.error.isNone && r'.result.isSome) = true
        rw [he]
        cases hres' : r'.result with
        | none => exact absurd hres' hres
        | some v => rfl
    | refused id => exact .inr (.inl ⟨o, kind, ⟨_, _, h12, .inr (.inr ⟨by simp, shut.resolve_left (fun e => e)⟩)⟩, h7⟩)
    | peerGone id => exact .inr (.inl ⟨o, kind, ⟨_, _, h12, .inr (.inr ⟨by simp, shut.resolve_left (fun e => e)⟩)⟩, h7⟩)
    | closed id => exact .inr (.inl ⟨o, kind, ⟨_, _, h12, .inr (.inr ⟨by simp, shut.resolve_left (fun e => e)⟩)⟩, h7⟩)
    | sendFailed id => exact .inr (.inl ⟨o, kind, ⟨_, _, h12, .inr (.inl rfl)⟩, h7⟩)
    | tooLarge id =>
      refine .inr (.inl ⟨o, kind, ⟨_, _, h12, .inl ⟨rfl, ?_⟩⟩, h7⟩)
      obtain ⟨id', h9⟩ := hsent.resolve_right (fun e => by obtain ⟨_, e⟩ := e; cases e)
      obtain ⟨m', r, g1, g2, g3⟩ := large_world hc m id hmem
      rcases (tab_world c x s0 cli ops x).1.fits m _ hmem with g | ⟨k, g4, g5⟩
      · exact absurd g (fun e => e)
      · rw [← asked_world c x s0 cli ops x] at g4
        obtain ⟨⟨m2, r2⟩, g6, g7⟩ := List.mem_map.1 g4
        injection g7 with g7 g8
        have g7 : m2 = m := g7
        subst g7
        obtain rfl := Shm.asked_fun (tab_world c x s0 cli ops) (asked_world c x s0 cli ops) g6 h9
        have g8 : idText id' = k := g8
        have g5 : idText id = k := g5
        have g2 : r.id = id := g2
        obtain ⟨-, rfl⟩ := asked_by_id names few g1 h9 (by show idText r.id = idText id'; rw [g2, g5, g8])
        have g2 : id' = id := g2
        rw [← g2]; exact g3
    | broken => exact absurd hmem ((ids_world c x s0 cli ops names few).elim fun _ h => h.kept m)

/-- Each request of the server's transport is that of one call. -/
theorem asked_call (c : Cfg) (x : Bool) (s0 : SSelf D) (cli : Cli D H) (ops : List (Op D H)) {m : Nat} {g : Request D}
    (hg : (m, g) ∈ (((World.init c s0 cli).run c x ops).net.get x).asked) :
    ∃ (i n : Nat) (z : SCall D) (api : SApi D), ((World.init c s0 cli).run c x ops).server.calls[i]? = some z ∧ n ∈ sentOf z.path ∧
      ((World.init c s0 cli).run c x ops).futs[n]? = some (some m) ∧ z.prog = sbody api ∧ g = ⟨g.id, (enquiry api).method, (enquiry api).params⟩ := by
  have hl := link_world c x s0 cli ops
  obtain ⟨n, hn⟩ := hl.known m g hg
  obtain ⟨cops, g1, -, -⟩ := server_run c x s0 cli ops
  have hperm := (inv_run s0 cops).perm
  rw [← g1] at hperm
  have hlt : n < ((World.init c s0 cli).run c x ops).server.cells.length := by rw [← hl.len]; exact lt_of_get hn
  obtain ⟨z, hz, hnx⟩ := List.mem_flatMap.1 (hperm.symm.subset (List.mem_range.2 hlt))
  obtain ⟨i, hi⟩ := List.getElem?_of_mem hz
  obtain ⟨api, hp, -⟩ := call_prog c x s0 cli ops hi
  obtain ⟨q0, hq0⟩ := mem_sentOf.1 hnx
  have hq := (world_asks c x s0 cli ops hi hp).1 n q0 hq0
  subst hq
  refine ⟨i, n, z, api, hi, hnx, hn, hp, ?_⟩
  rcases hl.sent i z n _ hi hq0 with ⟨j, k1, -⟩ | ⟨m', k1, k2⟩
  · rw [hl.waiting j n k1] at hn; cases hn
  · rw [hn] at k1
    cases k1
    rcases k2 with ⟨id, k2⟩ | ⟨id, k2⟩
    · obtain rfl := Shm.asked_fun (tab_world c x s0 cli ops) (asked_world c x s0 cli ops) k2.2 hg
      rfl
    · exact absurd hg (unfiled_world c x s0 cli ops m _ g k2)

/-- The answers of the client with the places of the execution they were given at. -/
theorem places_world (c : Cfg) (x : Bool) (s0 : SSelf D) (cli : Cli D H) (ops : List (Op D H)) :
    ∃ L : List (Nat × Request D), ((((World.init c s0 cli).run c x ops).net.get (!x)).answered.map (·.1) = L.map (·.2)) ∧ (∀ e ∈ L, e.1 < ops.length) ∧
      ∀ p q env σ r, DispatchedAt c x (World.init c s0 cli) ops p q env σ r → (p, q) ∈ L := by
  induction ops using snoc_induction with
  | h0 => exact ⟨[], by cases x <;> rfl, fun e h => (nomatch h), fun p q env σ r h => by obtain ⟨i, h, -⟩ := h; cases h⟩
  | h1 ops op ih =>
    obtain ⟨L, h1, h2, h3⟩ := ih
    have old : ∀ p q env σ r, DispatchedAt c x (World.init c s0 cli) (ops ++ [op]) p q env σ r → p < ops.length → (p, q) ∈ L := by
      rintro p q env σ r ⟨i, k1, k2⟩ hl
      rw [List.getElem?_append_left hl] at k1
      rw [List.take_append_of_le_length (Nat.le_of_lt hl)] at k2
      exact h3 p q env σ r ⟨i, k1, k2⟩
    have last : ∀ p q env σ r, DispatchedAt c x (World.init c s0 cli) (ops ++ [op]) p q env σ r → ¬ p < ops.length →
        p = ops.length ∧ ∃ i, op = .serve i env ∧ (((World.init c s0 cli).run c x ops).net.get (!x)).jobs[i]? = some q ∧ ((World.init c s0 cli).run c x ops).dead = false ∧
          (onRequest env ((World.init c s0 cli).run c x ops).cli q).1 = .answer r := by
      rintro p q env σ r ⟨i, k1, k2, k3, k4, k5⟩ hl
      have hp := lt_of_get k1
      rw [List.length_append, List.length_singleton] at hp
      have hp : p = ops.length := by omega
      subst hp
      have ht : (ops ++ [op]).take ops.length = ops := by simp
      rw [ht] at k2 k3 k4
      rw [List.getElem?_append_right (Nat.le_refl _), Nat.sub_self] at k1
      cases k1
      subst k3
      exact ⟨rfl, i, rfl, k2, k4, k5⟩
    rw [run_snoc]
    rcases answered_step c x ((World.init c s0 cli).run c x ops) op with g | ⟨i, env, q, r, rfl, g1, g2, g3, -, -, g4⟩
    · refine ⟨L, by rw [g]; exact h1, fun e he => by have := h2 e he; rw [List.length_append]; omega, fun p q env σ r hd => ?_⟩
      by_cases hl : p < ops.length
      · exact old p q env σ r hd hl
      · exfalso
        obtain ⟨-, i, rfl, k2, k4, k5⟩ := last p q env σ r hd hl
        simp only [World.step, World.serve, k2, k4, k5, Bool.false_eq_true, if_false] at g
        rw [Share.reply_own c _ (!x) i (.resp r) k2] at g
        have := congrArg List.length g
        simp at this
    · refine ⟨L ++ [(ops.length, q)], by rw [g4, List.map_append, List.map_append, h1]; rfl, fun e he => ?_, fun p q' env' σ r' hd => ?_⟩
      · rw [List.length_append, List.length_singleton]
        rcases List.mem_append.1 he with he | he
        · have := h2 e he; omega
        · cases List.mem_singleton.1 he; exact Nat.lt_succ_self _
      · by_cases hl : p < ops.length
        · exact List.mem_append_left _ (old p q' env' σ r' hd hl)
        · obtain ⟨rfl, i', hop, k2, -, -⟩ := last p q' env' σ r' hd hl
          cases hop
          rw [g2] at k2
          cases k2
          exact List.mem_append_right _ (List.mem_singleton.2 rfl)

/-- C134, partial. A call of the server to its client over the shared-memory transport that has given its result asked nothing and was declined for want of a transport, of a capability the
client announced or of well-formed parameters; or it was told why there is no answer, and that is so (a request larger than the limit; a queue that did not take it; a transport that was told
to end, or a limit smaller than that of the queues); or the client handled a request with the method and the parameters of this call, in some state it went through, the answer was no longer
than either limit, and the result is what the call makes of that answer; and it was for this call alone that the client handled this request. Missing: traffic the wire format does not carry
(C04 to C06, C15), requests and notifications of the client that are taken for answers (C47), ids of callers that are given twice or look like those of the transport, and executions longer
than the counter of the ids. -/
theorem C134_result_partial (c : Cfg) (x : Bool) (s0 : SSelf D) (cli : Cli D H) (ops : List (Op D H)) (hc : Carried c x (World.init c s0 cli) ops) (few : ops.length + 2 < 2 ^ 64) :
    let w := (World.init c s0 cli).run c x ops
    OwnNames w → NoWords (w.net.get (!x)) →
      ∃ place : Nat → Nat → Prop, (∀ i j p, place i p → place j p → i = j) ∧
        ∀ (i : Nat) (z : SCall D) (api : SApi D) (res : SOut D), w.server.calls[i]? = some z → z.prog = sbody api → z.st = .over res →
          (declined s0.transport s0.caps s0.strict api = some res ∧ sentOf z.path = []) ∨
          (∃ o kind, Unanswered c x ops (enquiry api) o ∧ res = reports s0.strict kind api o) ∨
          ∃ p id env σ r kind, place i p ∧ DispatchedAt c x (World.init c s0 cli) ops p ⟨id, (enquiry api).method, (enquiry api).params⟩ env σ r ∧
            res = reports s0.strict kind api (.resp ⟨id, r.result, r.error⟩) ∧
            (∀ t, api = .taskResult t → r.error = none → r.result ≠ none → ∃ s', Ev.saw s' ∈ z.path ∧ kind = s'.kinds t) ∧
            (serResponse ⟨id, r.result, r.error⟩).length ≤ c.size (!x) ∧ (serResponse ⟨id, r.result, r.error⟩).length ≤ c.sizeA := by
  intro w names hw
  refine ⟨fun i p => ∃ (z : SCall D) (n m k : Nat) (env : CliEnv D H) (q : Request D), w.server.calls[i]? = some z ∧ sentOf z.path = [n] ∧ w.futs[n]? = some (some m) ∧
    ops[p]? = some (.serve k env) ∧ (((World.init c s0 cli).run c x (ops.take p)).net.get (!x)).jobs[k]? = some q ∧ (m, q) ∈ (w.net.get x).asked, ?_, ?_⟩
  · rintro i j p ⟨z, n, m, k, env, q, h1, h2, h3, h4, h5, h6⟩ ⟨z', n', m', k', env', q', h1', h2', h3', h4', h5', h6'⟩
    rw [h4] at h4'
    cases h4'
    rw [h5] at h5'
    cases h5'
    obtain ⟨rfl, -⟩ := asked_by_id names few h6 h6' rfl
    obtain rfl := (link_world c x s0 cli ops).once n n' m h3 h3'
    obtain ⟨cops, g1, -, -⟩ := server_run c x s0 cli ops
    have hinv := inv_run s0 cops
    rw [show w.server = _ from g1] at h1 h1'
    exact flat_nodup (hinv.perm.nodup_iff.2 List.nodup_range) h1' h1 (c := n) (by rw [h2']; simp) (by rw [h2]; simp)
  · intro i z api res hx hprog hst
    rcases result_of c x s0 cli ops hc hw names few i z api res hx hprog hst with h | h | ⟨p, id, env, σ, r, kind, h1, h2, h3, h3a, h3b, n, m, h4, h5, h6⟩
    · exact .inl h
    · exact .inr (.inl h)
    · have h1' := h1
      obtain ⟨k, hk1, hk2, -⟩ := h1'
      exact .inr (.inr ⟨p, id, env, σ, r, kind, ⟨z, n, m, k, env, _, hx, h4, h5, hk1, hk2, h6⟩, h1, h2, h3, h3a, h3b⟩)

/-- C134, partial. Every request the client has handled was that of one call of the server, and no call was handled twice. Missing: as for `C134_result_partial`. -/
theorem C134_handled_partial (c : Cfg) (x : Bool) (s0 : SSelf D) (cli : Cli D H) (ops : List (Op D H)) (hc : Carried c x (World.init c s0 cli) ops) (few : ops.length + 2 < 2 ^ 64) :
    let w := (World.init c s0 cli).run c x ops
    OwnNames w →
      ∃ caller : Nat → Nat,
        (∀ p q env σ r, DispatchedAt c x (World.init c s0 cli) ops p q env σ r →
          ∃ z api, w.server.calls[caller p]? = some z ∧ z.prog = sbody api ∧ q.method = (enquiry api).method ∧ q.params = (enquiry api).params) ∧
        ∀ p q env σ r p' q' env' σ' r', DispatchedAt c x (World.init c s0 cli) ops p q env σ r → DispatchedAt c x (World.init c s0 cli) ops p' q' env' σ' r' →
          caller p = caller p' → p = p' := by
  intro w names
  obtain ⟨L, k1, k2, k3⟩ := places_world c x s0 cli ops
  obtain ⟨rest, harr⟩ := arrived_world hc
  have hids : (((w.net.get x).asked.map (·.2)).map (fun q => idText q.id)).Nodup := by rw [List.map_map]; exact apart_world names few
  have hans : (L.map (fun e => idText e.2.id)).Nodup := by
    have hn := (harr.map (fun q => idText q.id)).nodup_iff.2 hids
    rw [List.map_append, List.map_append] at hn
    have hn := (List.nodup_append.1 (List.nodup_append.1 hn).1).2.1
    rw [k1, List.map_map] at hn
    exact hn
  have hex : ∀ p : Nat, ∃ i : Nat, ∀ q env σ r, DispatchedAt c x (World.init c s0 cli) ops p q env σ r → ∃ (n m : Nat) (z : SCall D) (api : SApi D),
      w.server.calls[i]? = some z ∧ n ∈ sentOf z.path ∧ z.prog = sbody api ∧ q = ⟨q.id, (enquiry api).method, (enquiry api).params⟩ ∧ w.futs[n]? = some (some m) ∧
      (m, q) ∈ (w.net.get x).asked := by
    intro p
    by_cases h : ∃ q env σ r, DispatchedAt c x (World.init c s0 cli) ops p q env σ r
    · obtain ⟨q, env, σ, r, hd⟩ := h
      have hm : q ∈ (w.net.get (!x)).answered.map (·.1) := by rw [k1]; exact List.mem_map.2 ⟨_, k3 _ _ _ _ _ hd, rfl⟩
      obtain ⟨⟨m, q0⟩, g1, g2⟩ := List.mem_map.1 (harr.subset (List.mem_append_left _ (List.mem_append_right _ hm)))
      have g2 : q0 = q := g2
      subst g2
      obtain ⟨i, n, z, api, a1, a2, a3, a4, a5⟩ := asked_call c x s0 cli ops g1
      refine ⟨i, fun q' env' σ' r' hd' => ?_⟩
      obtain ⟨j, b1, b2, -⟩ := hd
      obtain ⟨j', b1', b2', -⟩ := hd'
      rw [b1] at b1'
      cases b1'
      rw [b2] at b2'
      cases b2'
      exact ⟨n, m, z, api, a1, a2, a4, a5, a3, g1⟩
    · exact ⟨0, fun q env σ r hd => absurd ⟨q, env, σ, r, hd⟩ h⟩
  obtain ⟨caller, hcaller⟩ := Classical.axiomOfChoice hex
  refine ⟨caller, fun p q env σ r hd => ?_, fun p q env σ r p' q' env' σ' r' hd hd' he => ?_⟩
  · obtain ⟨n, m, z, api, a1, -, a3, a4, -⟩ := hcaller p q env σ r hd
    exact ⟨z, api, a1, a3, congrArg Request.method a4, congrArg Request.params a4⟩
  · obtain ⟨n, m, z, api, a1, a2, a3, -, a5, a6⟩ := hcaller p q env σ r hd
    obtain ⟨n', m', z', api', a1', a2', a3', -, a5', a6'⟩ := hcaller p' q' env' σ' r' hd'
    rw [he, a1'] at a1
    cases a1
    have hnn := (world_asks c x s0 cli ops a1' a3).2 _ _ a2 a2'
    subst hnn
    rw [a5] at a5'
    injection a5' with a5'
    injection a5' with a5'
    subst a5'
    obtain rfl := Shm.asked_fun (tab_world c x s0 cli ops) (asked_world c x s0 cli ops) a6 a6'
    obtain ⟨a, ha⟩ := List.getElem?_of_mem (k3 _ _ _ _ _ hd)
    obtain ⟨b, hb⟩ := List.getElem?_of_mem (k3 _ _ _ _ _ hd')
    have ea : (L.map (fun e => idText e.2.id))[a]? = some (idText q.id) := by rw [List.getElem?_map, ha]; rfl
    have eb : (L.map (fun e => idText e.2.id))[b]? = some (idText q.id) := by rw [List.getElem?_map, hb]; rfl
    have hab := (List.getElem?_inj (lt_of_get ea) hans).1 (ea.trans eb.symm)
    subst hab
    rw [ha] at hb
    cases hb
    rfl

/-! ### Calls that say `result` or `error` -/

theorem chosen_words {id : RpcId} {q : SReq D} (h : (∀ t, ReqSays (lit "result") (⟨.str t, q.method, q.params⟩ : Request D)) ∨ ∀ t, ReqSays (lit "error") (⟨.str t, q.method, q.params⟩ : Request D)) :
    ReqMisread (⟨id, q.method, q.params⟩ : Request D) :=
  chosen_says (h.imp (fun h => h []) fun h => h [])

/-- **C134 fails** for a call that says `result` or `error`, as its method, as the name of a member of its parameters or as a string in them: the client never handles it, and if the call
ends it was told that there is no answer. -/
theorem C134_words_counterexample (c : Cfg) (x : Bool) (s0 : SSelf D) (cli : Cli D H) (ops : List (Op D H)) (hc : Carried c x (World.init c s0 cli) ops) (few : ops.length + 2 < 2 ^ 64) :
    let w := (World.init c s0 cli).run c x ops
    ∀ (api : SApi D), ((∀ t, ReqSays (lit "result") (⟨.str t, (enquiry api).method, (enquiry api).params⟩ : Request D)) ∨ ∀ t, ReqSays (lit "error") (⟨.str t, (enquiry api).method, (enquiry api).params⟩ : Request D)) →
      (∀ p id env σ r, ¬ DispatchedAt c x (World.init c s0 cli) ops p ⟨id, (enquiry api).method, (enquiry api).params⟩ env σ r) ∧
      (OwnNames w → NoWords (w.net.get (!x)) → ∀ (i : Nat) (z : SCall D) (res : SOut D), w.server.calls[i]? = some z → z.prog = sbody api → z.st = .over res →
        (declined s0.transport s0.caps s0.strict api = some res ∧ sentOf z.path = []) ∨
        ∃ o kind, Unanswered c x ops (enquiry api) o ∧ res = reports s0.strict kind api o) := by
  intro w api hm
  have hno : ∀ p id env σ r, ¬ DispatchedAt c x (World.init c s0 cli) ops p ⟨id, (enquiry api).method, (enquiry api).params⟩ env σ r := by
    rintro p id env σ r ⟨k, h1, h2, -⟩
    have hpre : Carried c x (World.init c s0 cli) (ops.take p) := by
      have : ops.take p ++ ops.drop p = ops := List.take_append_drop p ops
      rw [← this] at hc
      generalize ops.take p = l at hc ⊢
      generalize ops.drop p = l' at hc
      induction l' using snoc_induction with
      | h0 => simpa using hc
      | h1 l' op ih => rw [← List.append_assoc] at hc; exact ih hc.prefix
    exact ((plain_world hpre (!x)).jobs _ (List.mem_of_getElem? h2)).2.2 (chosen_words hm)
  refine ⟨hno, fun names hw i z res hx hprog hst => ?_⟩
  rcases result_of c x s0 cli ops hc hw names few i z api res hx hprog hst with h | h | ⟨p, id, env, σ, r, kind, h1, -⟩
  · exact .inl h
  · exact .inr h
  · exact absurd h1 (hno _ _ _ _ _)

end Verif.Back
