import Verif.Share.Open

/-!
C133: a call of the client over the shared-memory transport gives what the server answered to it, or an error that says why there was no answer, and each call has the tool it asks for run
once at the most; a call that says `result` or `error` never reaches the server.
-/

namespace Verif.Share

open Verif.Await Verif.Client Verif.Server Verif.Shm
open Verif.Whole (asRequest asking snoc_induction lt_of_get RunFor AsksOnly asks_closed asks_body asRequest_plain NoValue answer_tool answer_prompt error_value)
open Verif.Stdio (idText)
open Verif.InMemory (PlainReq PlainNote PlainOut perm_eraseIdx)

variable {D H : Type} [DblFmt D]

/-! ### Specification -/

/-- All that is sent in the execution survives the wire format (C04 to C06, C15), and nothing changes the mode of the client. -/
structure Carried (c : Cfg) (x : Bool) (w : World D H) (ops : List (Op D H)) : Prop where
  calls : ∀ api, Op.call api ∈ ops → ∀ v, (question api).params = some v → v.Wire
  wires : ∀ op, Op.wire op ∈ ops → PlainOp op
  answers : ∀ p q env σ r, DispatchedAt c x w ops p q env σ r → PlainAnswer (.resp r)
  mode : ∀ u, Op.change u ∈ ops → ∀ s, (u s).strict = s.strict

/-- What a call is told when its request got no answer of the server, and why: the request was larger than the limit of the client, the queue did not take it, or a transport was told to end
or the limit of the client is smaller than that of the queues. -/
def Unanswered (c : Cfg) (x : Bool) (ops : List (Op D H)) (q : Req D) (o : Client.Outcome D) : Prop :=
  ∃ id text, o = .resp ⟨id, none, some (.obj [(lit "code", .int (-32603)), (lit "message", .str text)])⟩ ∧
    ((text = lit "Payload too large" ∧ c.size x < (serRequest ⟨id, q.method, q.params⟩).length) ∨ text = lit "Send failed" ∨
      (text ∈ [lit "Peer not connected", lit "Transport closed"] ∧ (c.size x < c.sizeA ∨ ∃ op, Op.wire op ∈ ops ∧ Ends op)))

/-! ### Plain traffic -/

theorem Carried.prefix {c : Cfg} {x : Bool} {w : World D H} {ops : List (Op D H)} {op : Op D H} (h : Carried c x w (ops ++ [op])) : Carried c x w ops :=
  ⟨fun api ha => h.calls api (List.mem_append_left _ ha), fun o ho => h.wires o (List.mem_append_left _ ho),
    fun p q env σ r hd => h.answers p q env σ r (hd.more op), fun u hu => h.mode u (List.mem_append_left _ hu)⟩

/-- What a call is about to send survives the wire format. -/
theorem asking_plain {c : Cfg} {x : Bool} {s0 : Self D} {srv : Srv D H} {ops : List (Op D H)}
    (hc : ∀ api, Op.call api ∈ ops → ∀ v, (question api).params = some v → v.Wire) {i : Nat} {q : Req D}
    (h : asking ((World.init c s0 srv).run c x ops).client i = some q) : PlainReq (asRequest q) := by
  obtain ⟨cops, h1, h2, -⟩ := client_run c x s0 srv ops
  have hst := stHas_run (asks_closed fun q : Req D => PlainReq (asRequest q)) s0 cops (fun b hb => by
    obtain ⟨api, rfl, h4⟩ := h2 b hb
    exact (asks_body api).mono fun q hq => by rw [hq]; exact asRequest_plain (hc api h4))
  rw [h1] at h
  unfold asking at h
  split at h
  · rename_i z hz
    split at h
    · rename_i q0 k hs
      cases h
      have := hst i z hz
      rw [hs] at this
      exact this.1
    · cases h
  · cases h

theorem netOps_cases {x : Bool} {w : World D H} {op : Op D H} {nop : NOp D} (hn : nop ∈ netOps x w op) :
    (∃ i q, op = .go i ∧ asking w.client i = some q ∧ nop = .send x (asRequest q)) ∨ (∃ i, nop = .file x i) ∨ (op = .wire nop) ∨
    ∃ i env q r, op = .serve i env ∧ (w.net.get (!x)).jobs[i]? = some q ∧ w.dead = false ∧ (dispatch env w.srv q).1 = .answer r ∧ nop = .reply (!x) i (.resp r) := by
  unfold netOps at hn
  cases op with
  | go i =>
    simp only [netOf] at hn
    split at hn
    · rename_i q hq
      split at hn
      · exact .inl ⟨i, q, rfl, hq, List.mem_singleton.1 (show nop ∈ [_] from hn)⟩
      · cases hn
    · cases hn
  | file i =>
    simp only [netOf] at hn
    split at hn
    · exact .inr (.inl ⟨i, List.mem_singleton.1 (show nop ∈ [_] from hn)⟩)
    · cases hn
  | wire op =>
    simp only [netOf] at hn
    split at hn
    · cases hn
    · exact .inr (.inr (.inl (by rw [List.mem_singleton.1 (show nop ∈ [_] from hn)])))
  | serve i env =>
    simp only [netOf] at hn
    split at hn
    · cases hn
    · rename_i hd
      split at hn
      · cases hn
      · rename_i q hq
        split at hn
        · rename_i r hr
          exact .inr (.inr (.inr ⟨i, env, q, r, rfl, hq, by simpa using hd, hr, List.mem_singleton.1 (show nop ∈ [_] from hn)⟩))
        · cases hn
  | call api => cases hn
  | drop i => cases hn
  | change u => cases hn
  | deliver n => cases hn
  | own op => cases hn

theorem netOps_plain {c : Cfg} {x : Bool} {s0 : Self D} {srv : Srv D H} {ops : List (Op D H)} {op : Op D H} (hc : Carried c x (World.init c s0 srv) (ops ++ [op])) :
    ∀ nop ∈ netOps x ((World.init c s0 srv).run c x ops) op, PlainOp nop := by
  intro nop hn
  rcases netOps_cases hn with ⟨i, q, rfl, hq, rfl⟩ | ⟨i, rfl⟩ | rfl | ⟨i, env, q, r, rfl, hq, hd, hr, rfl⟩
  · exact asking_plain hc.prefix.calls hq
  · trivial
  · exact hc.wires nop (by simp)
  · exact (hc.answers _ q env _ r (dispatched_last hq hd hr)).out

theorem trace_plain {c : Cfg} {x : Bool} {s0 : Self D} {srv : Srv D H} {ops : List (Op D H)} (hc : Carried c x (World.init c s0 srv) ops) :
    ∀ nop ∈ trace c x (World.init c s0 srv) ops, PlainOp nop := by
  induction ops using snoc_induction with
  | h0 => intro nop h; cases h
  | h1 ops op ih =>
    intro nop hn
    rw [trace_snoc] at hn
    rcases List.mem_append.1 hn with h | h
    · exact ih hc.prefix nop h
    · exact netOps_plain hc nop h

theorem trace_open {c : Cfg} {x : Bool} {w : World D H} {ops : List (Op D H)} (h : ∀ op, Op.wire op ∈ ops → ¬ Ends op) : ∀ nop ∈ trace c x w ops, ¬ Ends nop := by
  induction ops using snoc_induction with
  | h0 => intro nop h; cases h
  | h1 ops op ih =>
    intro nop hn
    rw [trace_snoc] at hn
    rcases List.mem_append.1 hn with hn | hn
    · exact ih (fun o ho => h o (List.mem_append_left _ ho)) nop hn
    · rcases netOps_cases hn with ⟨i, q, -, -, rfl⟩ | ⟨i, rfl⟩ | rfl | ⟨i, env, q, r, -, -, -, -, rfl⟩
      · exact fun e => e
      · exact fun e => e
      · exact h nop (by simp)
      · exact fun e => e

theorem begun_plain {c : Cfg} {x : Bool} {s0 : Self D} {srv : Srv D H} {ops : List (Op D H)} (hc : Carried c x (World.init c s0 srv) ops) :
    ∀ nop ∈ begun c x s0 srv ops, PlainOp nop := by
  intro nop hn
  rcases List.mem_append.1 hn with h | h
  · simp only [List.mem_cons, List.not_mem_nil, or_false] at h
    rcases h with rfl | rfl <;> trivial
  · exact trace_plain hc nop h

theorem plain_world {c : Cfg} {x : Bool} {s0 : Self D} {srv : Srv D H} {ops : List (Op D H)} (hc : Carried c x (World.init c s0 srv) ops) :
    PlainAll ((World.init c s0 srv).run c x ops).net := by
  rw [net_world]
  exact plainAll_run (plainAll_init true true) (fifo_init true true) c _ (begun_plain hc)

theorem large_world {c : Cfg} {x : Bool} {s0 : Self D} {srv : Srv D H} {ops : List (Op D H)} (hc : Carried c x (World.init c s0 srv) ops) :
    Large c x (((World.init c s0 srv).run c x ops).net.get x) := by
  rw [net_world]
  exact large_run _ (begun_plain hc) (fun n id h => (by cases x <;> cases h)) (plainAll_init true true) (fifo_init true true)

/-- Without a transport being told to end, and with a limit of the client that is no smaller than that of the queues, the client stays connected. -/
theorem up_world {c : Cfg} {x : Bool} {s0 : Self D} {srv : Srv D H} {ops : List (Op D H)} (hc : Carried c x (World.init c s0 srv) ops) (hs : c.sizeA ≤ c.size x)
    (ho : ∀ op, Op.wire op ∈ ops → ¬ Ends op) : Up (((World.init c s0 srv).run c x ops).net.get x) := by
  rw [net_world]
  have hsplit : (Net.init true true : Net D).run c (begun c x s0 srv ops) =
      ((Net.init true true : Net D).run c [.start false, .start true]).run c (trace c x (World.init c s0 srv) ops) := by
    unfold begun Net.run; rw [List.foldl_append]
  rw [hsplit]
  refine up_run hs _ (fun op hop => ⟨trace_plain hc op hop, trace_open ho op hop⟩) (plainAll_run (plainAll_init true true) (fifo_init true true) c _ ?_)
    (fifo_run (fifo_init true true) c _) ?_ ?_
  · intro nop h
    simp only [List.mem_cons, List.not_mem_nil, or_false] at h
    rcases h with rfl | rfl <;> trivial
  · intro t ht
    cases x <;> cases ht
  · cases x <;> exact ⟨rfl, rfl, (fun n o h => nomatch h)⟩

/-! ### Each request arrives once -/

/-- The request a text brings. -/
def asks (t : Bytes) : Option (Request D) := (eventOf true t).req?

/-- What is on its way to the other side, or has gone there, was asked for, each once. -/
def OnWay (e : Endpoint D) : Prop :=
  ∃ rest : List (Request D), (e.sending.map (fun x : Bytes × Request D => x.2) ++ e.log.filterMap asks ++ rest).Perm (e.asked.map (fun x : Nat × Request D => x.2))

theorem OnWay.same {e e' : Endpoint D} (h : OnWay e) (h1 : e'.sending = e.sending) (h2 : e'.log = e.log) (h3 : e'.asked = e.asked) : OnWay e' := by
  unfold OnWay; rw [h1, h2, h3]; exact h

theorem onWay_upd {s : Net D} {y : Bool} (h : OnWay (s.get y)) (x : Bool) {f : Endpoint D → Endpoint D} (hf : ∀ e, OnWay e → OnWay (f e)) :
    OnWay ((s.upd x f).get y) := by
  rw [get_upd]; split
  · exact hf _ h
  · exact h

/-- A text that is no request is put on the line. -/
theorem onWay_push {s : Net D} {y : Bool} (h : OnWay (s.get y)) (x : Bool) {t : Bytes} (ht : asks (D := D) t = none) : OnWay ((s.push x t).get y) := by
  rw [get_push]; split
  · obtain ⟨rest, h⟩ := h
    refine ⟨rest, ?_⟩
    simp only [List.filterMap_append, List.filterMap_cons, List.filterMap_nil, ht, List.append_nil]
    exact h
  · exact OnWay.same (e' := { s.get y with queue := (s.get y).queue ++ [t] }) h rfl rfl rfl

theorem onWay_put {c : Cfg} {s : Net D} {y : Bool} (h : OnWay (s.get y)) (x : Bool) {t : Bytes} (ht : asks (D := D) t = none) : OnWay ((s.put c x t).get y) := by
  unfold Net.put; split
  · exact onWay_push h x ht
  · exact h

theorem asks_note {n : Notification D} (h : PlainNote n) : asks (D := D) (serNotification n) = none := by
  unfold asks
  by_cases hm : NoteMisread n
  · rw [event_note_misread h hm]; rfl
  · rw [event_note h hm]; split <;> rfl

theorem onWay_step {c : Cfg} {s : Net D} (hp : PlainAll s) {y : Bool} (h : OnWay (s.get y)) (op : NOp D) (hop : PlainOp op) : OnWay ((s.step c op).get y) := by
  cases op with
  | start x =>
    show OnWay ((s.start x).get y)
    rcases get_start s x y with g | g <;> rw [g]
    · exact h
    · exact h.same rfl rfl rfl
  | closeFlag x => exact onWay_upd h x fun e h => h.same rfl rfl rfl
  | closeTell => exact onWay_put h _ (asks_note plain_bye)
  | closeEnd x =>
    show OnWay ((s.closeEnd x).get y)
    rcases get_closeEnd s x y with g | g <;> rw [g]
    · exact h
    · exact h.same rfl rfl rfl
  | tick x => exact onWay_upd h x fun e h => h.same rfl rfl rfl
  | loopEnd x => exact onWay_upd h x fun e h => by unfold Endpoint.loopEnd; split <;> exact h.same rfl rfl rfl
  | send x r => exact onWay_upd h x fun e h => by unfold Endpoint.send; split <;> exact h.same rfl rfl rfl
  | file x i =>
    refine onWay_upd h x fun e h => ?_
    unfold Endpoint.file
    split
    · exact h
    · obtain ⟨rest, h⟩ := h
      refine ⟨rest, ?_⟩
      simp only [List.map_append, List.map_cons, List.map_nil, List.append_assoc]
      refine List.Perm.trans ?_ (h.append_right _)
      simp only [List.append_assoc]
      refine List.Perm.append_left _ ?_
      refine List.Perm.trans List.perm_append_comm ?_
      rw [List.append_assoc]
  | deliver x i =>
    simp only [Net.step, Net.deliver]
    split
    · exact h
    · rename_i key r hg
      obtain ⟨n, hn⟩ := (hp x).sending key r (List.mem_of_getElem? hg)
      have hr := ((hp x).askedSent n r hn).2
      try dsimp only
      by_cases hy : y = x
      · subst hy
        obtain ⟨rest, h⟩ := h
        have hperm : ((s.get y).sending.map (·.2)).Perm (r :: ((s.get y).sending.eraseIdx i).map (·.2)) := ((perm_eraseIdx hg).map (·.2)).symm
        have lost : ((((s.get y).sending.eraseIdx i).map (fun x : Bytes × Request D => x.2)) ++ (s.get y).log.filterMap asks ++ (r :: rest)).Perm
            ((s.get y).asked.map (fun x : Nat × Request D => x.2)) := by
          refine List.Perm.trans ?_ h
          refine List.Perm.trans ?_ ((hperm.symm.append_right _).append_right _)
          simp only [List.cons_append]
          exact List.perm_middle
        split
        · by_cases hm : ReqMisread r
          · refine ⟨r :: rest, ?_⟩
            rw [get_push, if_pos rfl, get_upd_same]
            simp only [List.filterMap_append, List.filterMap_cons, List.filterMap_nil, asks, event_misread hr hm, Event.req?, List.append_nil]
            exact lost
          · refine ⟨rest, ?_⟩
            rw [get_push, if_pos rfl, get_upd_same]
            simp only [List.filterMap_append, List.filterMap_cons, List.filterMap_nil, asks, event_request hr hm, if_true, Event.req?]
            refine List.Perm.trans ?_ h
            refine List.Perm.trans ?_ ((hperm.symm.append_right _).append_right _)
            simp only [List.append_assoc, List.cons_append]
            refine List.Perm.trans ?_ List.perm_middle
            refine List.Perm.append_left _ ?_
            exact List.perm_middle
        · refine ⟨r :: rest, ?_⟩
          rw [get_upd_same, get_upd_same]
          exact lost
      · have hother : OnWay ((s.upd x fun e => { e with sending := e.sending.eraseIdx i }).get y) := by rw [get_upd, if_neg hy]; exact h
        split
        · rw [get_push, if_neg hy]; exact hother
        · rw [get_upd, if_neg hy]; exact hother
  | notify x n => exact onWay_put h _ (asks_note hop)
  | take x => exact onWay_upd h x fun e h => h.same (take_frame c x e).2.2.2.2.2.2.2.1 (take_frame c x e).1 (take_frame c x e).2.1
  | handle x => exact onWay_upd h x fun e h => h.same (handle_frame e).2.2.2.1 (handle_frame e).1 (handle_frame e).2.1
  | reply x i out =>
    simp only [Net.step, Net.reply]
    split
    · exact h
    · rename_i req hreq
      have h1 : ∀ ok, OnWay ((s.upd x fun e => { e with jobs := e.jobs.eraseIdx i, answered := e.answered ++ [(req, out, ok)] }).get y) :=
        fun ok => onWay_upd h x fun e h => h.same rfl rfl rfl
      try dsimp only
      split
      · refine onWay_push (h1 _) _ ?_
        unfold asks; rw [event_reply req hop]; rfl
      · exact h1 _

theorem onWay_run {c : Cfg} {s : Net D} (hp : PlainAll s) (hf : Fifo s) {y : Bool} (h : OnWay (s.get y)) (ops : List (NOp D)) (hops : ∀ op ∈ ops, PlainOp op) :
    OnWay ((s.run c ops).get y) := by
  induction ops generalizing s with
  | nil => exact h
  | cons op ops ih =>
    have hop := hops op (List.mem_cons_self ..)
    exact ih (plainAll_step hp hf c op hop) (fifo_step hf c op) (onWay_step hp h op hop) fun o ho => hops o (List.mem_cons_of_mem _ ho)

/-- The requests the server has in work or has answered came each from one request of the client's side. -/
theorem arrived_world {c : Cfg} {x : Bool} {s0 : Self D} {srv : Srv D H} {ops : List (Op D H)} (hc : Carried c x (World.init c s0 srv) ops) :
    ∃ rest, ((((World.init c s0 srv).run c x ops).net.get (!x)).jobs ++ (((World.init c s0 srv).run c x ops).net.get (!x)).answered.map (·.1) ++ rest).Perm
      ((((World.init c s0 srv).run c x ops).net.get x).asked.map (·.2)) := by
  have hplain := begun_plain hc
  rw [net_world]
  generalize begun c x s0 srv ops = nops at *
  have hw : OnWay (((Net.init true true : Net D).run c nops).get x) :=
    onWay_run (plainAll_init true true) (fifo_init true true) ⟨[], by cases x <;> exact List.Perm.refl _⟩ nops hplain
  obtain ⟨pre, h1, h2⟩ := fifo_run (fifo_init (D := D) true true) c nops (!x)
  have h3 : ((((Net.init true true : Net D).run c nops).get (!x)).events.filterMap Event.req?).Perm _ := C47_answered_once (D := D) c true true nops (!x)
  have hh : (((Net.init true true : Net D).run c nops).get (!x)).hasHandler = true := by rw [handler_run]; cases x <;> rfl
  obtain ⟨rest, hw⟩ := hw
  rw [h2, hh, List.filterMap_map] at h3
  rw [Bool.not_not] at h1
  have h4 : (((Net.init true true : Net D).run c nops).get x).log.filterMap asks =
      pre.filterMap (Event.req? ∘ eventOf (D := D) true) ++ ((((Net.init true true : Net D).run c nops).get (!x)).current.toList ++
        (((Net.init true true : Net D).run c nops).get (!x)).queue).filterMap asks := by
    rw [h1, List.append_assoc, List.filterMap_append]; rfl
  rw [h4] at hw
  refine ⟨((((Net.init true true : Net D).run c nops).get (!x)).current.toList ++ (((Net.init true true : Net D).run c nops).get (!x)).queue).filterMap asks ++
    (((Net.init true true : Net D).run c nops).get x).sending.map (·.2) ++ rest, ?_⟩
  refine List.Perm.trans ?_ hw
  rw [← List.append_assoc]
  refine List.Perm.append_right _ ?_
  refine List.Perm.trans ?_ List.perm_append_comm
  rw [← List.append_assoc]
  refine List.Perm.append_right _ ?_
  exact (h3.symm.append_right _)

/-! ### The claims -/

theorem nodup_inj {α β : Type} {f : α → β} {l : List α} (h : (l.map f).Nodup) {a b : α} (ha : a ∈ l) (hb : b ∈ l) (hab : f a = f b) : a = b := by
  induction l with
  | nil => cases ha
  | cons z l ih =>
    rw [List.map_cons, List.nodup_cons] at h
    rcases List.mem_cons.1 ha with ha | ha <;> rcases List.mem_cons.1 hb with hb | hb
    · rw [ha, hb]
    · exact absurd (List.mem_map.2 ⟨b, hb, by rw [← hab, ha]⟩) h.1
    · exact absurd (List.mem_map.2 ⟨a, ha, by rw [hab, hb]⟩) h.1
    · exact ih h.2 ha hb

/-- A request the transport of the client sent is known by its id. -/
theorem asked_by_id {c : Cfg} {x : Bool} {s0 : Self D} {srv : Srv D H} {ops : List (Op D H)} (few : ops.length + 2 < 2 ^ 64)
    {n m : Nat} {q q' : Request D} (h1 : (n, q) ∈ (((World.init c s0 srv).run c x ops).net.get x).asked) (h2 : (m, q') ∈ (((World.init c s0 srv).run c x ops).net.get x).asked)
    (h : idText q.id = idText q'.id) : n = m ∧ q = q' := by
  have := nodup_inj (ids_world c x s0 srv ops few).apart h1 h2 h
  cases this
  exact ⟨rfl, rfl⟩

theorem sent_apart {c : Cfg} {x : Bool} {s0 : Self D} {srv : Srv D H} {ops : List (Op D H)} (few : ops.length + 2 < 2 ^ 64) :
    (((((World.init c s0 srv).run c x ops).net.get x).tab.sent).map (·.2)).Nodup := by
  rw [← asked_world c x s0 srv ops x, List.map_map]
  exact (ids_world c x s0 srv ops few).apart

theorem outcome_fun {c : Cfg} {x : Bool} {s0 : Self D} {srv : Srv D H} {ops : List (Op D H)} {n : Nat} {o o' : Shm.Outcome D}
    (h1 : (n, o) ∈ (((World.init c s0 srv).run c x ops).net.get x).tab.outcomes) (h2 : (n, o') ∈ (((World.init c s0 srv).run c x ops).net.get x).tab.outcomes) : o = o' := by
  have := nodup_inj (tab_world c x s0 srv ops x).1.once h1 h2 rfl
  cases this
  rfl

theorem unfiled_world (c : Cfg) (x : Bool) (s0 : Self D) (srv : Srv D H) (ops : List (Op D H)) : Unfiled (((World.init c s0 srv).run c x ops).net.get x) := by
  rw [net_world]
  exact unfiled_run _ (tabInv_init true true) (by intro y; cases y <;> rfl) (fun n id q h => (by cases x <;> cases h))

/-- What became of call `i`: the request the server dispatched for it was filed under its future. -/
theorem result_of (c : Cfg) (x : Bool) (s0 : Self D) (srv : Srv D H) (ops : List (Op D H)) (hc : Carried c x (World.init c s0 srv) ops)
    (hw : NoWords (((World.init c s0 srv).run c x ops).net.get (!x)))
    (few : ops.length + 2 < 2 ^ 64) (i : Nat) (z : CCall D) (api : Api D) (res : Option (Val D))
    (hx : ((World.init c s0 srv).run c x ops).client.calls[i]? = some z) (hprog : z.prog = body api) (hst : z.st = .over res) :
    (∃ k d s', api = .list k ∧ Ev.saw s' ∈ z.path ∧ s'.cache.hit k = some d ∧ res = some (.items d)) ∨
    (∃ o kind, Unanswered c x ops (question api) o ∧ res = says s0.strict kind api o) ∨
    ∃ p id env σ r kind, DispatchedAt c x (World.init c s0 srv) ops p ⟨id, (question api).method, (question api).params⟩ env σ r ∧
      res = says s0.strict kind api (.resp ⟨id, r.result, r.error⟩) ∧
      (∀ t, api = .taskResult t → r.error = none → r.result ≠ none → ∃ s', Ev.saw s' ∈ z.path ∧ kind = s'.kinds t) ∧
      (serResponse ⟨id, r.result, r.error⟩).length ≤ c.size (!x) ∧ (serResponse ⟨id, r.result, r.error⟩).length ≤ c.sizeA ∧
      ∃ n m, sentOf z.path = [n] ∧ ((World.init c s0 srv).run c x ops).futs[n]? = some (some m) ∧
        (m, ⟨id, (question api).method, (question api).params⟩) ∈ (((World.init c s0 srv).run c x ops).net.get x).asked := by
  obtain ⟨cops, h1, h2, h3⟩ := client_run c x s0 srv ops
  have hcalm : ∀ op ∈ cops, _root_.Verif.Calm op := by
    intro op hop
    cases op with
    | call b => obtain ⟨api, h4, -⟩ := h2 b hop; exact ⟨api, h4⟩
    | change u => exact hc.mode u (h3 u hop)
    | _ => trivial
  have hx' := hx
  rw [h1] at hx'
  rcases C102_outcome s0 cops hcalm i z hx' api hprog res hst with ⟨k, d, s', h4, h5, h6, -, h7⟩ | ⟨n, o, kind, h4, h5, h6, h7, hk, -⟩
  · exact .inl ⟨k, d, s', h4, h5, h6, h7⟩
  · have hl := link_world c x s0 srv ops
    obtain ⟨m, so, h10, hmem, h12⟩ := hl.cell n o (by rw [h1]; exact h6)
    have hsent : (∃ id, (m, ⟨id, (question api).method, (question api).params⟩) ∈ (((World.init c s0 srv).run c x ops).net.get x).asked) ∨ so = .refused (.str []) := by
      rcases hl.sent i z n _ hx h5 with ⟨j, g1, -⟩ | ⟨m', g1, g2⟩
      · rw [hl.waiting j n g1] at h10; cases h10
      · rw [h10] at g1
        cases g1
        rcases g2 with g2 | g2
        · exact .inl g2
        · exact .inr (outcome_fun hmem g2)
    have shut : (match so with | .refused _ => False | .peerGone _ => False | .closed _ => False | _ => True) ∨ (c.size x < c.sizeA ∨ ∃ op, Op.wire op ∈ ops ∧ Ends op) := by
      apply Classical.byContradiction
      intro hn
      have hn := not_or.1 hn
      have hn2 := not_or.1 hn.2
      exact hn.1 ((up_world hc (Nat.le_of_not_lt hn2.1) (fun op hop he => hn2.2 ⟨op, hop, he⟩)).outcomes m so hmem)
    cases so with
    | response r =>
      right; right
      obtain ⟨id, h9⟩ := hsent.resolve_right (fun e => nomatch e)
      have hans := C90_answer_is_reply_partial c true true (begun c x s0 srv ops) (begun_plain hc) x m r
      rw [← net_world] at hans
      obtain ⟨req, out, h13, h14, -, h16⟩ := hans (sent_apart few) hw hmem
      obtain rfl := Shm.asked_fun (tab_world c x s0 srv ops) (asked_world c x s0 srv ops) h9 h13
      obtain ⟨p, env, σ, r', rfl, h17, h18⟩ := answered_world c x s0 srv ops _ _ _ h14
      have hid := ((plain_world hc (!x)).answered _ _ _ h14).2.1.1
      rw [answer_read hid (hc.answers _ _ _ _ _ h17)] at h16
      refine ⟨p, id, env, σ, r', kind, h17, ?_, fun t ht he hres => hk t ht ?_, (h18 rfl).1, (h18 rfl).2, n, m, h4, h10, h9⟩
      · rw [h7, h12, h16]; rfl
      · rw [h12, h16]
        show (r'.error.isNone && r'.result.isSome) = true
        rw [he]
        cases hres' : r'.result with
        | none => exact absurd hres' hres
        | some v => rfl
    | refused id => exact .inr (.inl ⟨o, kind, ⟨_, _, h12, .inr (.inr ⟨by simp, shut.resolve_left (fun e => e)⟩)⟩, h7⟩)
    | peerGone id => exact .inr (.inl ⟨o, kind, ⟨_, _, h12, .inr (.inr ⟨by simp, shut.resolve_left (fun e => e)⟩)⟩, h7⟩)
    | closed id => exact .inr (.inl ⟨o, kind, ⟨_, _, h12, .inr (.inr ⟨by simp, shut.resolve_left (fun e => e)⟩)⟩, h7⟩)
    | sendFailed id => exact .inr (.inl ⟨o, kind, ⟨_, _, h12, .inr (.inl rfl)⟩, h7⟩)
    | tooLarge id =>
      refine .inr (.inl ⟨o, kind, ⟨_, _, h12, .inl ⟨rfl, ?_⟩⟩, h7⟩)
      obtain ⟨id', h9⟩ := hsent.resolve_right (fun e => nomatch e)
      obtain ⟨m', r, g1, g2, g3⟩ := large_world hc m id hmem
      rcases (tab_world c x s0 srv ops x).1.fits m _ hmem with g | ⟨k, g4, g5⟩
      · exact absurd g (fun e => e)
      · rw [← asked_world c x s0 srv ops x] at g4
        obtain ⟨⟨m2, r2⟩, g6, g7⟩ := List.mem_map.1 g4
        injection g7 with g7 g8
        have g7 : m2 = m := g7
        subst g7
        obtain rfl := Shm.asked_fun (tab_world c x s0 srv ops) (asked_world c x s0 srv ops) g6 h9
        have g8 : idText id' = k := g8
        have g5 : idText id = k := g5
        have g2 : r.id = id := g2
        obtain ⟨-, rfl⟩ := asked_by_id few g1 h9 (by show idText r.id = idText id'; rw [g2, g5, g8])
        have g2 : id' = id := g2
        rw [← g2]; exact g3
    | broken => exact absurd hmem ((ids_world c x s0 srv ops few).kept m)

/-- C133, partial. A call of the client over the shared-memory transport that has given its result is a listing served from the cache, or it was told why there is no answer, and that is so
(a request larger than the limit; a queue that did not take it; a transport that was told to end, or a limit smaller than that of the queues), or the server dispatched a request with the
method and the parameters of this call, in some state it went through, the answer was no longer than either limit, and the result is what the call makes of that answer; and this dispatch was
for this call alone. Missing: traffic the wire format does not carry (C04 to C06, C15), requests and notifications of the server that are taken for answers (C47), and executions longer than
the counter of the ids. -/
theorem C133_result_partial (c : Cfg) (x : Bool) (s0 : Self D) (srv : Srv D H) (ops : List (Op D H)) (hc : Carried c x (World.init c s0 srv) ops) (few : ops.length + 2 < 2 ^ 64) :
    let w := (World.init c s0 srv).run c x ops
    NoWords (w.net.get (!x)) →
      ∃ place : Nat → Nat → Prop, (∀ i j p, place i p → place j p → i = j) ∧
        ∀ (i : Nat) (z : CCall D) (api : Api D) (res : Option (Val D)), w.client.calls[i]? = some z → z.prog = body api → z.st = .over res →
          (∃ k d s', api = .list k ∧ Ev.saw s' ∈ z.path ∧ s'.cache.hit k = some d ∧ res = some (.items d)) ∨
          (∃ o kind, Unanswered c x ops (question api) o ∧ res = says s0.strict kind api o) ∨
          ∃ p id env σ r kind, place i p ∧ DispatchedAt c x (World.init c s0 srv) ops p ⟨id, (question api).method, (question api).params⟩ env σ r ∧
            res = says s0.strict kind api (.resp ⟨id, r.result, r.error⟩) ∧
            (∀ t, api = .taskResult t → r.error = none → r.result ≠ none → ∃ s', Ev.saw s' ∈ z.path ∧ kind = s'.kinds t) ∧
            (serResponse ⟨id, r.result, r.error⟩).length ≤ c.size (!x) ∧ (serResponse ⟨id, r.result, r.error⟩).length ≤ c.sizeA := by
  intro w hw
  refine ⟨fun i p => ∃ (z : CCall D) (n m k : Nat) (env : Env D H) (q : Request D), w.client.calls[i]? = some z ∧ sentOf z.path = [n] ∧ w.futs[n]? = some (some m) ∧
    ops[p]? = some (.serve k env) ∧ (((World.init c s0 srv).run c x (ops.take p)).net.get (!x)).jobs[k]? = some q ∧ (m, q) ∈ (w.net.get x).asked, ?_, ?_⟩
  · rintro i j p ⟨z, n, m, k, env, q, h1, h2, h3, h4, h5, h6⟩ ⟨z', n', m', k', env', q', h1', h2', h3', h4', h5', h6'⟩
    rw [h4] at h4'
    cases h4'
    rw [h5] at h5'
    cases h5'
    obtain ⟨rfl, -⟩ := asked_by_id few h6 h6' rfl
    obtain rfl := (link_world c x s0 srv ops).once n n' m h3 h3'
    obtain ⟨cops, g1, -, -⟩ := client_run c x s0 srv ops
    have hinv := inv_run s0 cops
    rw [show w.client = _ from g1] at h1 h1'
    exact flat_nodup (hinv.perm.nodup_iff.2 List.nodup_range) h1' h1 (c := n) (by rw [h2']; simp) (by rw [h2]; simp)
  · intro i z api res hx hprog hst
    rcases result_of c x s0 srv ops hc hw few i z api res hx hprog hst with h | h | ⟨p, id, env, σ, r, kind, h1, h2, h3, h3a, h3b, n, m, h4, h5, h6⟩
    · exact .inl h
    · exact .inr (.inl h)
    · have h1' := h1
      obtain ⟨k, hk1, hk2, -⟩ := h1'
      exact .inr (.inr ⟨p, id, env, σ, r, kind, ⟨z, n, m, k, env, _, hx, h4, h5, hk1, hk2, h6⟩, h1, h2, h3, h3a, h3b⟩)

theorem call_prog (c : Cfg) (x : Bool) (s0 : Self D) (srv : Srv D H) (ops : List (Op D H)) {i : Nat} {z : CCall D}
    (hx : ((World.init c s0 srv).run c x ops).client.calls[i]? = some z) : ∃ api, z.prog = body api := by
  obtain ⟨cops, h1, h2, -⟩ := client_run c x s0 srv ops
  rw [h1] at hx
  have key : ∀ l : List (COp D), (∀ b, Await.Op.call b ∈ l → ∃ api, b = body api) → ∀ s : CSys D, (∀ (i : Nat) (x : CCall D), s.calls[i]? = some x → ∃ api, x.prog = body api) →
      ∀ (i : Nat) (x : CCall D), (s.run l).calls[i]? = some x → ∃ api, x.prog = body api := by
    intro l
    induction l with
    | nil => exact fun _ s h => h
    | cons op l ih =>
      intro hl s h
      rw [run_cons]
      exact ih (fun b hb => hl b (List.mem_cons_of_mem _ hb)) _
        (progs_step (P := fun b => ∃ api, b = body api) s op (fun b hb => hl b (by rw [hb]; exact List.mem_cons_self ..)) h)
  exact key cops (fun b hb => (h2 b hb).imp fun api h => h.1) (Sys.init s0) (fun i x hx => (nomatch hx)) i z hx

/-- Each request of the client's transport is that of one call. -/
theorem asked_call (c : Cfg) (x : Bool) (s0 : Self D) (srv : Srv D H) (ops : List (Op D H)) {m : Nat} {g : Request D}
    (hg : (m, g) ∈ (((World.init c s0 srv).run c x ops).net.get x).asked) :
    ∃ (i n : Nat) (z : CCall D) (api : Api D), ((World.init c s0 srv).run c x ops).client.calls[i]? = some z ∧ n ∈ sentOf z.path ∧
      ((World.init c s0 srv).run c x ops).futs[n]? = some (some m) ∧ z.prog = body api ∧ g = ⟨g.id, (question api).method, (question api).params⟩ := by
  have hl := link_world c x s0 srv ops
  obtain ⟨n, hn⟩ := hl.known m g hg
  obtain ⟨cops, g1, -, -⟩ := client_run c x s0 srv ops
  have hperm := (inv_run s0 cops).perm
  rw [← g1] at hperm
  have hlt : n < ((World.init c s0 srv).run c x ops).client.cells.length := by rw [← hl.len]; exact lt_of_get hn
  obtain ⟨z, hz, hnx⟩ := List.mem_flatMap.1 (hperm.symm.subset (List.mem_range.2 hlt))
  obtain ⟨i, hi⟩ := List.getElem?_of_mem hz
  obtain ⟨api, hp⟩ := call_prog c x s0 srv ops hi
  obtain ⟨q0, hq0⟩ := Web.mem_sentOf.1 hnx
  have hq := (Web.call_asks s0 cops (by rw [← g1]; exact hi) hp).1 n q0 hq0
  subst hq
  refine ⟨i, n, z, api, hi, hnx, hn, hp, ?_⟩
  rcases hl.sent i z n _ hi hq0 with ⟨j, k1, -⟩ | ⟨m', k1, k2⟩
  · rw [hl.waiting j n k1] at hn; cases hn
  · rw [hn] at k1
    cases k1
    rcases k2 with ⟨id, k2⟩ | k2
    · obtain rfl := Shm.asked_fun (tab_world c x s0 srv ops) (asked_world c x s0 srv ops) k2 hg
      rfl
    · exact absurd hg (unfiled_world c x s0 srv ops m _ g k2)

/-- C133, partial. Every use the server made of a tool was asked for by one call of the client, with that name and these arguments, and no call had a tool run twice. Missing: as for
`C133_result_partial`. -/
theorem C133_calls_partial (c : Cfg) (x : Bool) (s0 : Self D) (srv : Srv D H) (ops : List (Op D H)) (hc : Carried c x (World.init c s0 srv) ops) (few : ops.length + 2 < 2 ^ 64) :
    let w := (World.init c s0 srv).run c x ops
    ∃ L : List (Run D × Nat), w.srv.runs = srv.runs ++ L.map (·.1) ∧ (L.map (·.2)).Nodup ∧
        ∀ run i, (run, i) ∈ L → ∃ z api, w.client.calls[i]? = some z ∧ z.prog = body api ∧ RunFor run (asRequest (question api)) := by
  intro w
  obtain ⟨L, h1, h2, h3⟩ := runs_world c x s0 srv ops
  obtain ⟨rest, harr⟩ := arrived_world hc
  have hids : (((w.net.get x).asked.map (·.2)).map (fun q => idText q.id)).Nodup := by rw [List.map_map]; exact (ids_world c x s0 srv ops few).apart
  -- the requests of the uses are different requests of the client
  have hsub : (L.map (·.2)).Sublist ((w.net.get (!x)).answered.map (·.1)) ∨ ∃ (q : Request D), q ∈ (w.net.get (!x)).jobs ∧ (L.map (·.2)).Sublist ((w.net.get (!x)).answered.map (·.1) ++ [q]) := by
    rcases h3 with h | ⟨-, h⟩
    · exact .inl h
    · exact .inr h
  have hall : (((w.net.get (!x)).jobs ++ (w.net.get (!x)).answered.map (·.1)).map (fun q => idText q.id)).Nodup := by
    have hn := (harr.map (fun q => idText q.id)).nodup_iff.2 hids
    rw [List.map_append] at hn
    exact (List.nodup_append.1 hn).1
  have hnod : ((L.map (·.2)).map (fun q => idText q.id)).Nodup ∧ ∀ q ∈ L.map (·.2), q ∈ (w.net.get (!x)).jobs ++ (w.net.get (!x)).answered.map (·.1) := by
    rw [List.map_append, List.nodup_append] at hall
    obtain ⟨hj, ha, hd⟩ := hall
    rcases hsub with h | ⟨q, hq, h⟩
    · exact ⟨(h.map _).nodup ha, fun q hq => List.mem_append_right _ (h.subset hq)⟩
    · refine ⟨(h.map _).nodup ?_, fun q' hq' => ?_⟩
      · rw [List.map_append, List.nodup_append]
        refine ⟨ha, by simp, fun a ha b hb hab => ?_⟩
        have hb := List.mem_singleton.1 (show b ∈ [_] from hb)
        exact hd _ (List.mem_map_of_mem hq) _ ha (by rw [hab, hb])
      · rcases List.mem_append.1 (h.subset hq') with h' | h'
        · exact List.mem_append_right _ h'
        · rw [List.mem_singleton.1 h']; exact List.mem_append_left _ hq
  have hex : ∀ e : Run D × Request D, ∃ i : Nat, e ∈ L → ∃ (n m : Nat) (z : CCall D) (api : Api D), w.client.calls[i]? = some z ∧ n ∈ sentOf z.path ∧ z.prog = body api ∧
      RunFor e.1 (asRequest (question api)) ∧ w.futs[n]? = some (some m) ∧ (m, e.2) ∈ (w.net.get x).asked := by
    intro e
    by_cases he : e ∈ L
    · have hm := hnod.2 e.2 (List.mem_map_of_mem he)
      obtain ⟨⟨m, q⟩, g1, g2⟩ := List.mem_map.1 (harr.subset (List.mem_append_left _ hm))
      have g2 : q = e.2 := g2
      subst g2
      obtain ⟨i, n, z, api, k1, k2, k5, k3, k4⟩ := asked_call c x s0 srv ops g1
      obtain ⟨r1, r2⟩ := h2 e he
      refine ⟨i, fun _ => ⟨n, m, z, api, k1, k2, k3, ⟨?_, ?_⟩, k5, g1⟩⟩
      · rw [k4] at r1; exact r1
      · rw [k4] at r2; exact r2
    · exact ⟨0, fun h => absurd h he⟩
  obtain ⟨who, hwho⟩ := Classical.axiomOfChoice hex
  obtain ⟨cops, g1, -, -⟩ := client_run c x s0 srv ops
  refine ⟨L.map fun e => (e.1, who e), by rw [List.map_map]; exact h1, ?_, fun run i hm => ?_⟩
  · have hnod := hnod.1
    rw [List.map_map] at hnod ⊢
    refine List.pairwise_map.2 ((List.pairwise_map.1 hnod).imp_of_mem fun {a b} ha hb hab he => hab ?_)
    obtain ⟨n, m, z, api, k1, k2, k3, -, k5, k6⟩ := hwho a ha
    obtain ⟨n', m', z', api', k1', k2', k3', -, k5', k6'⟩ := hwho b hb
    simp only [Function.comp] at he ⊢
    rw [he, k1'] at k1
    cases k1
    have hnn := (Web.call_asks s0 cops (by rw [← g1]; exact k1') k3).2 _ _ k2 k2'
    subst hnn
    rw [k5] at k5'
    injection k5' with k5'
    injection k5' with k5'
    subst k5'
    rw [Shm.asked_fun (tab_world c x s0 srv ops) (asked_world c x s0 srv ops) k6 k6']
  · obtain ⟨e, he, heq⟩ := List.mem_map.1 hm
    cases heq
    obtain ⟨n, m, z, api, k1, -, k3, k4, -, -⟩ := hwho e he
    exact ⟨z, api, k1, k3, k4⟩

/-! ### Tools and prompts -/

theorem unanswered_value {c : Cfg} {x : Bool} {ops : List (Op D H)} {q : Req D} {o : Client.Outcome D} (h : Unanswered c x ops q o) : isErrorObject (replyValue o) = true := by
  obtain ⟨id, text, rfl, -⟩ := h
  rfl

/-- C133, partial. `CallTool` over the shared-memory transport gives a value that is not an error only if the server had a handler under this name at some moment and this
handler returned, for exactly these arguments, exactly the content, the error flag, the structured content and the metadata that the value has. Missing: as
for `C133_result_partial`. -/
theorem C133_tool_partial (c : Cfg) (x : Bool) (s0 : Self D) (srv : Srv D H) (ops : List (Op D H)) (hc : Carried c x (World.init c s0 srv) ops) (few : ops.length + 2 < 2 ^ 64) :
    let w := (World.init c s0 srv).run c x ops
    NoWords (w.net.get (!x)) → ∀ (i : Nat) (z : CCall D) (name : Bytes) (args : JVal D) (res : Option (Val D)),
      w.client.calls[i]? = some z → z.prog = body (.callTool name args) → z.st = .over res →
        ∃ v, res = some (.json v) ∧ (isErrorObject v = true ∨
          ∃ p k env h t, ops[p]? = some (.serve k env) ∧ AMap.get ((World.init c s0 srv).run c x (ops.take p)).srv.reg.toolHandlers name = some h ∧
            env.tool h args = .ret t ∧ v.get? (lit "content") = some (.arr t.content) ∧ v.get? (lit "isError") = some (.bool t.isError) ∧
            v.get? (lit "structuredContent") = t.structured ∧ v.get? (lit "_meta") = t.meta_) := by
  intro w hw i z name args res hx hprog hst
  rcases result_of c x s0 srv ops hc hw few i z _ res hx hprog hst with ⟨k, d, s', h, -⟩ | ⟨o, kind, h1, h2⟩ | ⟨p, id, env, σ, r, kind, h1, h2, -⟩
  · cases h
  · exact ⟨_, h2, .inl (unanswered_value h1)⟩
  · refine ⟨_, h2, ?_⟩
    obtain ⟨k, g1, -, g3, -, g5⟩ := h1
    rcases answer_tool env σ id name args r g5 with h | ⟨hd, t, k1, -, k3, k4, k5⟩
    · exact .inl (error_value h)
    · refine .inr ⟨p, k, env, hd, t, g1, by rw [g3]; exact k1, k3, ?_⟩
      obtain ⟨f1, f2, f3, f4, -⟩ := toolResult_get t
      rw [k4]
      exact ⟨f1, f2, f3, f4⟩

/-- C133, partial. `GetPrompt` over the shared-memory transport gives a value that is not an error only if the handler the server had under this name at some moment returned,
for exactly these arguments, exactly this description and these messages. Missing: as for `C133_result_partial`. -/
theorem C133_prompt_partial (c : Cfg) (x : Bool) (s0 : Self D) (srv : Srv D H) (ops : List (Op D H)) (hc : Carried c x (World.init c s0 srv) ops) (few : ops.length + 2 < 2 ^ 64) :
    let w := (World.init c s0 srv).run c x ops
    NoWords (w.net.get (!x)) → ∀ (i : Nat) (z : CCall D) (name : Bytes) (args : JVal D) (res : Option (Val D)),
      w.client.calls[i]? = some z → z.prog = body (.getPrompt name args) → z.st = .over res →
        ∃ v, res = some (.json v) ∧ (isErrorObject v = true ∨
          ∃ p k env h d ms, ops[p]? = some (.serve k env) ∧ AMap.get ((World.init c s0 srv).run c x (ops.take p)).srv.reg.promptHandlers name = some h ∧
            env.prompt h args = .ret (d, ms) ∧ v = .obj [(lit "description", .str d), (lit "messages", .arr ms)]) := by
  intro w hw i z name args res hx hprog hst
  rcases result_of c x s0 srv ops hc hw few i z _ res hx hprog hst with ⟨k, d, s', h, -⟩ | ⟨o, kind, h1, h2⟩ | ⟨p, id, env, σ, r, kind, h1, h2, -⟩
  · cases h
  · exact ⟨_, h2, .inl (unanswered_value h1)⟩
  · refine ⟨_, h2, ?_⟩
    obtain ⟨k, g1, -, g3, -, g5⟩ := h1
    rcases answer_prompt env σ id name args r g5 with h | ⟨hd, d, ms, k1, k2, k3, -⟩
    · exact .inl (error_value h)
    · refine .inr ⟨p, k, env, hd, d, ms, g1, by rw [g3]; exact k1, k2, ?_⟩
      rw [k3]; rfl

/-! ### Calls that say `result` or `error` -/

theorem chosen_says {id : RpcId} {m : Bytes} {p : Option (JVal D)} (h : ReqMisread (⟨.str [], m, p⟩ : Request D)) : ReqMisread (⟨id, m, p⟩ : Request D) := by
  have key : ∀ w : Bytes, w ≠ [] → ReqSays w (⟨.str [], m, p⟩ : Request D) → ReqSays w (⟨id, m, p⟩ : Request D) := by
    intro w hw h
    rcases h with h | h
    · exact absurd h (by intro h; exact hw (by simpa [SaysId] using h.symm))
    · exact .inr h
  exact h.imp (key _ (by decide)) (key _ (by decide))

/-- **C133 fails** for a call that says `result` or `error`, as its method, as the name of a member of its parameters or as a string in them: the server never dispatches it, and if the call
ends it was told that there is no answer. -/
theorem C133_words_counterexample (c : Cfg) (x : Bool) (s0 : Self D) (srv : Srv D H) (ops : List (Op D H)) (hc : Carried c x (World.init c s0 srv) ops) (few : ops.length + 2 < 2 ^ 64) :
    let w := (World.init c s0 srv).run c x ops
    ∀ (api : Api D), (ReqSays (lit "result") (asRequest (question api)) ∨ ReqSays (lit "error") (asRequest (question api))) →
      (∀ p id env σ r, ¬ DispatchedAt c x (World.init c s0 srv) ops p ⟨id, (question api).method, (question api).params⟩ env σ r) ∧
      (NoWords (w.net.get (!x)) → ∀ (i : Nat) (z : CCall D) (res : Option (Val D)), w.client.calls[i]? = some z → z.prog = body api → z.st = .over res →
        (∃ k d s', api = .list k ∧ Ev.saw s' ∈ z.path ∧ s'.cache.hit k = some d ∧ res = some (.items d)) ∨
        ∃ o kind, Unanswered c x ops (question api) o ∧ res = says s0.strict kind api o) := by
  intro w api hm
  have hno : ∀ p id env σ r, ¬ DispatchedAt c x (World.init c s0 srv) ops p ⟨id, (question api).method, (question api).params⟩ env σ r := by
    rintro p id env σ r ⟨k, h1, h2, -⟩
    have hpre : Carried c x (World.init c s0 srv) (ops.take p) := by
      have : ops.take p ++ ops.drop p = ops := List.take_append_drop p ops
      rw [← this] at hc
      generalize ops.take p = l at hc ⊢
      generalize ops.drop p = l' at hc
      induction l' using snoc_induction with
      | h0 => simpa using hc
      | h1 l' op ih => rw [← List.append_assoc] at hc; exact ih hc.prefix
    exact ((plain_world hpre (!x)).jobs _ (List.mem_of_getElem? h2)).2.2 (chosen_says hm)
  refine ⟨hno, fun hw i z res hx hprog hst => ?_⟩
  rcases result_of c x s0 srv ops hc hw few i z api res hx hprog hst with h | h | ⟨p, id, env, σ, r, kind, h1, -⟩
  · exact .inl h
  · exact .inr h
  · exact absurd h1 (hno _ _ _ _ _)

end Verif.Share
