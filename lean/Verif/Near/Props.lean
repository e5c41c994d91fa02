import Verif.Near.Lemmas

/-!
C129: a call of the client over the in-memory transport gives what the server answered to it, and each call has the tool it asks for run once at the most.
-/

namespace Verif.Near

open Verif.Await Verif.Client Verif.Server Verif.InMemory
open Verif.Whole (asRequest asking snoc_induction lt_of_get RunFor AsksOnly asks_closed asks_body asRequest_plain NoValue answer_tool answer_prompt error_value error_mk)
open Verif.Stdio (idText)

variable {D H : Type} [DblFmt D]

/-! ### Specification -/

/-- All that is sent in the execution survives the wire format (C04 to C06, C15), and nothing changes the mode of the client. -/
structure Carried (w : World D H) (ops : List (Op D H)) : Prop where
  calls : ∀ api, Op.call api ∈ ops → ∀ v, (question api).params = some v → v.Wire
  wires : ∀ op, Op.wire op ∈ ops → PlainOp op
  answers : ∀ p q env σ r, DispatchedAt w ops p q env σ r → PlainAnswer (.resp r)
  mode : ∀ u, Op.change u ∈ ops → ∀ s, (u s).strict = s.strict

/-- What a call is told when its request got no answer of the server. -/
def Unanswered (o : Client.Outcome D) : Prop :=
  ∃ id text, text ∈ [lit "Peer not connected", lit "Transport closed"] ∧
    o = .resp ⟨id, none, some (.obj [(lit "code", .int (-32603)), (lit "message", .str text)])⟩

/-! ### Plain traffic -/

theorem Carried.prefix {w : World D H} {ops : List (Op D H)} {op : Op D H} (h : Carried w (ops ++ [op])) : Carried w ops :=
  ⟨fun api ha => h.calls api (List.mem_append_left _ ha), fun o ho => h.wires o (List.mem_append_left _ ho),
    fun p q env σ r hd => h.answers p q env σ r (hd.more op), fun u hu => h.mode u (List.mem_append_left _ hu)⟩

/-- What a call is about to send survives the wire format. -/
theorem asking_plain {s0 : Self D} {srv : Srv D H} {ops : List (Op D H)}
    (hc : ∀ api, Op.call api ∈ ops → ∀ v, (question api).params = some v → v.Wire) {i : Nat} {q : Req D}
    (h : asking ((World.init s0 srv).run ops).client i = some q) : PlainReq (asRequest q) := by
  obtain ⟨cops, h1, h2, -⟩ := client_run s0 srv ops
  have hst := stHas_run (asks_closed fun q : Req D => PlainReq (asRequest q)) s0 cops (fun b hb => by
    obtain ⟨api, rfl, h4⟩ := h2 b hb
    exact (asks_body api).mono fun q hq => by rw [hq]; exact asRequest_plain (hc api h4))
  rw [h1] at h
  unfold asking at h
  split at h
  · rename_i x hx
    split at h
    · rename_i q0 k hs
      cases h
      have := hst i x hx
      rw [hs] at this
      exact this.1
    · cases h
  · cases h

theorem netOps_plain {s0 : Self D} {srv : Srv D H} {ops : List (Op D H)} {op : Op D H} (hc : Carried (World.init s0 srv) (ops ++ [op])) :
    ∀ nop ∈ netOps ((World.init s0 srv).run ops) op, PlainOp nop := by
  intro nop hn
  unfold netOps at hn
  split at hn
  · cases hn
  · rename_i hd
    have hd : ((World.init s0 srv).run ops).dead = false := by simpa using hd
    cases op with
    | go i =>
      simp only [netOf] at hn
      split at hn
      · rename_i q hq
        split at hn
        · rw [List.mem_singleton.1 (show nop ∈ [_] from hn)]
          exact asking_plain hc.prefix.calls hq
        · cases hn
      · cases hn
    | wire op =>
      simp only [netOf] at hn
      split at hn
      · cases hn
      · rw [List.mem_singleton.1 (show nop ∈ [_] from hn)]
        exact hc.wires op (by simp)
    | serve i env =>
      simp only [netOf] at hn
      split at hn
      · cases hn
      · rename_i q hq
        split at hn
        · rename_i r hr
          rw [List.mem_singleton.1 (show nop ∈ [_] from hn)]
          exact (hc.answers _ q env _ r (dispatched_last hq hd hr)).out
        · cases hn
    | call api => cases hn
    | drop i => cases hn
    | change u => cases hn
    | deliver n => cases hn
    | own op => cases hn

theorem trace_plain {s0 : Self D} {srv : Srv D H} {ops : List (Op D H)} (hc : Carried (World.init s0 srv) ops) :
    ∀ nop ∈ trace (World.init s0 srv) ops, PlainOp nop := by
  induction ops using snoc_induction with
  | h0 => intro nop h; cases h
  | h1 ops op ih =>
    intro nop hn
    rw [trace_snoc] at hn
    rcases List.mem_append.1 hn with h | h
    · exact ih hc.prefix nop h
    · exact netOps_plain hc nop h

theorem begun_plain {s0 : Self D} {srv : Srv D H} {ops : List (Op D H)} (hc : Carried (World.init s0 srv) ops) :
    ∀ nop ∈ begun s0 srv ops, PlainOp nop := started_plain (trace_plain hc)

theorem plain_world {s0 : Self D} {srv : Srv D H} {ops : List (Op D H)} (hc : Carried (World.init s0 srv) ops) :
    PlainAll ((World.init s0 srv).run ops).net := by
  rw [net_world]
  exact plainAll_run (plainAll_init true true) (fifo_init true true) _ (begun_plain hc)

/-! ### Each request arrives once -/

/-- The request a text brings. -/
def asks (t : Bytes) : Option (Request D) := (eventOf true t).req?

/-- What is on its way to the other side, or has gone there, was asked for, each once. -/
def OnWay (e : Endpoint D) : Prop :=
  ∃ rest : List (Request D), (e.sending.map (fun x : Bytes × Request D => x.2) ++ e.log.filterMap asks ++ rest).Perm (e.asked.map (fun x : Nat × Request D => x.2))

theorem OnWay.same {e e' : Endpoint D} (h : OnWay e) (h1 : e'.sending = e.sending) (h2 : e'.log = e.log) (h3 : e'.asked = e.asked) : OnWay e' := by
  unfold OnWay; rw [h1, h2, h3]; exact h

theorem onWay_upd {s : Net D} {y : Bool} (h : OnWay (s.get y)) (x : Bool) {f : Endpoint D → Endpoint D} (hf : ∀ e, OnWay e → OnWay (f e)) :
    OnWay ((s.upd x f).get y) := by
  rw [get_upd]; split
  · exact hf _ h
  · exact h

/-- A text that is no request is put on the line. -/
theorem onWay_push {s : Net D} {y : Bool} (h : OnWay (s.get y)) (x : Bool) {t : Bytes} (ht : asks (D := D) t = none) : OnWay ((s.push x t).get y) := by
  rw [get_push]; split
  · obtain ⟨rest, h⟩ := h
    refine ⟨rest, ?_⟩
    simp only [List.filterMap_append, List.filterMap_cons, List.filterMap_nil, ht, List.append_nil]
    exact h
  · exact OnWay.same (e' := { s.get y with queue := (s.get y).queue ++ [t] }) h rfl rfl rfl

theorem asks_note {n : Notification D} (h : PlainNote n) : asks (D := D) (serNotification n) = none := by
  unfold asks eventOf
  rw [C15_notification_classified _ h.1 h.2.2]
  simp only
  unfold asNotification
  split <;> rfl

theorem onWay_step {s : Net D} (hp : PlainAll s) {y : Bool} (h : OnWay (s.get y)) (op : NOp D) (hop : PlainOp op) : OnWay ((s.step op).get y) := by
  cases op with
  | start x => exact onWay_upd h x fun e h => h.same rfl rfl rfl
  | closeFlag x => exact onWay_upd h x fun e h => h.same rfl rfl rfl
  | closeFail x => exact onWay_upd h x fun e h => h.same rfl rfl rfl
  | send x r =>
    refine onWay_upd h x fun e h => ?_
    obtain ⟨rest, h⟩ := h
    refine ⟨rest, ?_⟩
    simp only [Endpoint.send, List.map_append, List.map_cons, List.map_nil, List.append_assoc]
    refine List.Perm.trans ?_ (h.append_right _)
    simp only [List.append_assoc]
    refine List.Perm.append_left _ ?_
    refine List.Perm.trans List.perm_append_comm ?_
    rw [List.append_assoc]
  | deliver x i =>
    simp only [Net.step, Net.deliver]
    split
    · exact h
    · rename_i key r hg
      obtain ⟨n, hn⟩ := (hp x).sending key r (List.mem_of_getElem? hg)
      have hr := ((hp x).askedSent n r hn).2
      try dsimp only
      by_cases hy : y = x
      · subst hy
        obtain ⟨rest, h⟩ := h
        have hperm : ((s.get y).sending.map (·.2)).Perm (r :: ((s.get y).sending.eraseIdx i).map (·.2)) := ((perm_eraseIdx hg).map (·.2)).symm
        split
        · refine ⟨rest, ?_⟩
          rw [get_push, if_pos rfl, get_upd_same]
          simp only [List.filterMap_append, List.filterMap_cons, List.filterMap_nil, asks, event_of_request hr, Event.req?]
          refine List.Perm.trans ?_ h
          refine List.Perm.trans ?_ ((hperm.symm.append_right _).append_right _)
          simp only [List.append_assoc, List.cons_append]
          refine List.Perm.trans ?_ List.perm_middle
          refine List.Perm.append_left _ ?_
          exact List.perm_middle
        · refine ⟨r :: rest, ?_⟩
          rw [get_upd_same, get_upd_same]
          refine List.Perm.trans ?_ h
          refine List.Perm.trans ?_ ((hperm.symm.append_right _).append_right _)
          simp only [List.cons_append]
          exact List.perm_middle
      · have hother : OnWay ((s.upd x fun e => { e with sending := e.sending.eraseIdx i }).get y) := by rw [get_upd, if_neg hy]; exact h
        split
        · rw [get_push, if_neg hy]; exact hother
        · rw [get_upd, if_neg hy]; exact hother
  | notify x n =>
    simp only [Net.step, Net.notify]
    split
    · exact onWay_push h _ (asks_note hop)
    · exact onWay_upd h x fun e h => h.same rfl rfl rfl
  | pop x => exact onWay_upd h x fun e h => h.same (tab_pop e).2 (pop_frame e).1 (pop_frame e).2.1
  | handle x => exact onWay_upd h x fun e h => h.same (handle_frame e).2.2.2.1 (handle_frame e).1 (handle_frame e).2.1
  | reply x i out =>
    simp only [Net.step, Net.reply]
    split
    · exact h
    · rename_i req hreq
      have h1 : OnWay ((s.upd x fun e => { e with jobs := e.jobs.eraseIdx i, answered := e.answered ++ [(req, out)] }).get y) := onWay_upd h x fun e h => h.same rfl rfl rfl
      split
      · refine onWay_push h1 _ ?_
        obtain ⟨r', h2, -⟩ := event_of_reply ((hp x).jobsPlain req (List.mem_of_getElem? hreq)) hop true
        unfold asks; rw [h2]; rfl
      · exact h1

theorem onWay_run {s : Net D} (hp : PlainAll s) (hf : Fifo s) {y : Bool} (h : OnWay (s.get y)) (ops : List (NOp D)) (hops : ∀ op ∈ ops, PlainOp op) :
    OnWay ((s.run ops).get y) := by
  induction ops generalizing s with
  | nil => exact h
  | cons op ops ih =>
    have hop := hops op (List.mem_cons_self ..)
    exact ih (plainAll_step hp hf op hop) (fifo_step hf op) (onWay_step hp h op hop) fun o ho => hops o (List.mem_cons_of_mem _ ho)

theorem handler_step (s : Net D) (op : NOp D) (y : Bool) : ((s.step op).get y).hasHandler = (s.get y).hasHandler := by
  have upd : ∀ (s : Net D) (x : Bool) (f : Endpoint D → Endpoint D), (∀ e, (f e).hasHandler = e.hasHandler) → ((s.upd x f).get y).hasHandler = (s.get y).hasHandler := by
    intro s x f hf
    rw [get_upd]; split
    · exact hf _
    · rfl
  have push : ∀ (s : Net D) (x : Bool) (t : Bytes), ((s.push x t).get y).hasHandler = (s.get y).hasHandler := by
    intro s x t; rw [get_push]; split <;> rfl
  cases op with
  | start x => exact upd s x _ fun e => rfl
  | closeFlag x => exact upd s x _ fun e => rfl
  | closeFail x => exact upd s x _ fun e => rfl
  | send x r => exact upd s x _ fun e => rfl
  | deliver x i =>
    simp only [Net.step, Net.deliver]
    split
    · rfl
    · try dsimp only
      split
      · rw [push]; exact upd s x _ fun e => rfl
      · refine (upd _ x _ ?_).trans (upd s x _ fun e => rfl)
        exact fun e => rfl
  | notify x n =>
    simp only [Net.step, Net.notify]
    split
    · exact push _ _ _
    · exact upd s x _ fun e => rfl
  | pop x => exact upd s x _ fun e => (pop_frame e).2.2.2.2.2.1
  | handle x => exact upd s x _ fun e => (handle_frame e).2.2.2.2.1
  | reply x i out =>
    simp only [Net.step, Net.reply]
    split
    · rfl
    · try dsimp only
      split
      · rw [push]; exact upd s x _ fun e => rfl
      · exact upd s x _ fun e => rfl

theorem handler_run (s : Net D) (ops : List (NOp D)) (y : Bool) : ((s.run ops).get y).hasHandler = (s.get y).hasHandler := by
  induction ops generalizing s with
  | nil => rfl
  | cons op ops ih => exact (ih (s.step op)).trans (handler_step s op y)

/-- The requests the server has in work or has answered came each from one request of the client's side. -/
theorem arrived_world {s0 : Self D} {srv : Srv D H} {ops : List (Op D H)} (hc : Carried (World.init s0 srv) ops) :
    ∃ rest, (((World.init s0 srv).run ops).net.b.jobs ++ ((World.init s0 srv).run ops).net.b.answered.map (·.1) ++ rest).Perm
      (((World.init s0 srv).run ops).net.a.asked.map (·.2)) := by
  have hplain := begun_plain hc
  rw [net_world]
  generalize begun s0 srv ops = nops at *
  have hw : OnWay (((Net.init true true : Net D).run nops).get false) :=
    onWay_run (plainAll_init true true) (fifo_init true true) ⟨[], List.Perm.refl _⟩ nops hplain
  obtain ⟨pre, h1, h2⟩ := fifo_run (fifo_init (D := D) true true) nops true
  have h3 : ((((Net.init true true : Net D).run nops).get true).events.filterMap Event.req?).Perm _ := C16_handled_once (D := D) true true nops true
  have hh : (((Net.init true true : Net D).run nops).get true).hasHandler = true := by rw [handler_run]; rfl
  obtain ⟨rest, hw⟩ := hw
  rw [h2, hh, List.filterMap_map] at h3
  have h4 : (((Net.init true true : Net D).run nops).get (!true)).log.filterMap asks =
      pre.filterMap (Event.req? ∘ eventOf (D := D) true) ++ ((((Net.init true true : Net D).run nops).get true).current.toList ++
        (((Net.init true true : Net D).run nops).get true).queue).filterMap asks := by
    rw [h1, List.append_assoc, List.filterMap_append]; rfl
  rw [show (((Net.init true true : Net D).run nops).get false).log.filterMap asks = _ from h4] at hw
  refine ⟨((((Net.init true true : Net D).run nops).get true).current.toList ++ (((Net.init true true : Net D).run nops).get true).queue).filterMap asks ++
    (((Net.init true true : Net D).run nops).get false).sending.map (·.2) ++ rest, ?_⟩
  refine List.Perm.trans ?_ hw
  rw [← List.append_assoc]
  refine List.Perm.append_right _ ?_
  refine List.Perm.trans ?_ List.perm_append_comm
  rw [← List.append_assoc]
  refine List.Perm.append_right _ ?_
  exact (h3.symm.append_right _)

/-! ### The claims -/

theorem ids_world {s0 : Self D} {srv : Srv D H} {ops : List (Op D H)} (few : ((World.init s0 srv).run ops).client.cells.length < 2 ^ 32) :
    (((World.init s0 srv).run ops).net.a.asked.map (fun p => idText p.2.id)).Nodup := by
  have := C16_ids_differ true true (begun s0 srv ops) false (ownIds_world s0 srv ops few)
  rwa [← net_world] at this

/-- A request the transport of the client sent is known by its id. -/
theorem asked_fun {s0 : Self D} {srv : Srv D H} {ops : List (Op D H)} (few : ((World.init s0 srv).run ops).client.cells.length < 2 ^ 32)
    {n m : Nat} {q : Request D} (h1 : ((World.init s0 srv).run ops).net.a.asked[n]? = some (n, q)) (h2 : ((World.init s0 srv).run ops).net.a.asked[m]? = some (m, q)) : n = m := by
  have hn := ids_world few
  have k1 : (((World.init s0 srv).run ops).net.a.asked.map (fun p => idText p.2.id))[n]? = some (idText q.id) := by rw [List.getElem?_map, h1]; rfl
  have k2 : (((World.init s0 srv).run ops).net.a.asked.map (fun p => idText p.2.id))[m]? = some (idText q.id) := by rw [List.getElem?_map, h2]; rfl
  exact (List.getElem?_inj (lt_of_get k1) hn).1 (k1.trans k2.symm)

theorem asked_at {s0 : Self D} {srv : Srv D H} {ops : List (Op D H)} {n : Nat} {q : Request D}
    (h : (n, q) ∈ ((World.init s0 srv).run ops).net.a.asked) : ((World.init s0 srv).run ops).net.a.asked[n]? = some (n, q) := by
  obtain ⟨k, hk⟩ := List.getElem?_of_mem h
  have := (numbered_world s0 srv ops false).2 k n q hk
  rw [this]; rw [this] at hk; exact hk

theorem trace_open {w : World D H} {ops : List (Op D H)} (h : ∀ op, Op.wire op ∈ ops → StaysOpen op) : ∀ nop ∈ trace w ops, StaysOpen nop := by
  induction ops using Whole.snoc_induction with
  | h0 => intro nop h; cases h
  | h1 ops op ih =>
    intro nop hn
    rw [trace_snoc] at hn
    rcases List.mem_append.1 hn with hn | hn
    · exact ih (fun o ho => h o (List.mem_append_left _ ho)) nop hn
    · unfold netOps at hn
      split at hn
      · cases hn
      · cases op with
        | go i =>
          simp only [netOf] at hn
          split at hn
          · split at hn
            · rw [List.mem_singleton.1 (show nop ∈ [_] from hn)]; trivial
            · cases hn
          · cases hn
        | wire op =>
          simp only [netOf] at hn
          split at hn
          · cases hn
          · rw [List.mem_singleton.1 (show nop ∈ [_] from hn)]
            exact h op (by simp)
        | serve i env =>
          simp only [netOf] at hn
          split at hn
          · cases hn
          · split at hn
            · rw [List.mem_singleton.1 (show nop ∈ [_] from hn)]; trivial
            · cases hn
        | call api => cases hn
        | drop i => cases hn
        | change u => cases hn
        | deliver n => cases hn
        | own op => cases hn

theorem drain_world {s0 : Self D} {srv : Srv D H} {ops : List (Op D H)} (hc : Carried (World.init s0 srv) ops) (ho : ∀ op, Op.wire op ∈ ops → StaysOpen op) :
    Drain ((World.init s0 srv).run ops).net := by
  rw [net_world]
  exact drain_started (trace_plain hc) (trace_open ho)

/-- Without a close, the transport of the client completes its futures with answers only. -/
theorem answers_world {s0 : Self D} {srv : Srv D H} {ops : List (Op D H)} (hc : Carried (World.init s0 srv) ops) (ho : ∀ op, Op.wire op ∈ ops → StaysOpen op) :
    AnswerOnly ((World.init s0 srv).run ops).net.a := by
  rw [net_world]
  show AnswerOnly ((Net.run _ _).get false)
  unfold begun Net.run
  rw [List.foldl_append]
  refine InMemory.answered_run drain_open (s := (Net.init true true : Net D).run [.start false, .start true]) ?_ (trace _ ops) (trace_plain hc) (trace_open ho)
  exact fun n o h => (by cases h)

/-- What became of call `i`: the request the server dispatched for it was filed under its future. -/
theorem result_of (s0 : Self D) (srv : Srv D H) (ops : List (Op D H)) (hc : Carried (World.init s0 srv) ops)
    (few : ((World.init s0 srv).run ops).client.cells.length < 2 ^ 32) (i : Nat) (x : CCall D) (api : Api D) (res : Option (Val D))
    (hx : ((World.init s0 srv).run ops).client.calls[i]? = some x) (hprog : x.prog = body api) (hst : x.st = .over res) :
    (∃ k d s', api = .list k ∧ Ev.saw s' ∈ x.path ∧ s'.cache.hit k = some d ∧ res = some (.items d)) ∨
    (∃ o kind op, Unanswered o ∧ Op.wire op ∈ ops ∧ ¬ StaysOpen op ∧ res = says s0.strict kind api o) ∨
    ∃ p id env σ r kind, DispatchedAt (World.init s0 srv) ops p ⟨id, (question api).method, (question api).params⟩ env σ r ∧
      res = says s0.strict kind api (.resp ⟨id, r.result, r.error⟩) ∧
      (∀ t, api = .taskResult t → r.error = none → r.result ≠ none → ∃ s', Ev.saw s' ∈ x.path ∧ kind = s'.kinds t) ∧
      ∃ n m, sentOf x.path = [n] ∧ ((World.init s0 srv).run ops).futs[n]? = some m ∧
        ((World.init s0 srv).run ops).net.a.asked[m]? = some (m, ⟨id, (question api).method, (question api).params⟩) := by
  obtain ⟨cops, h1, h2, h3⟩ := client_run s0 srv ops
  have hcalm : ∀ op ∈ cops, Calm op := by
    intro op hop
    cases op with
    | call b => obtain ⟨api, h4, -⟩ := h2 b hop; exact ⟨api, h4⟩
    | change u => exact hc.mode u (h3 u hop)
    | _ => trivial
  have hx' := hx
  rw [h1] at hx'
  rcases C102_outcome s0 cops hcalm i x hx' api hprog res hst with ⟨k, d, s', h4, h5, h6, -, h7⟩ | ⟨n, o, kind, h4, h5, h6, h7, hk, -⟩
  · exact .inl ⟨k, d, s', h4, h5, h6, h7⟩
  · have hl := link_world s0 srv ops
    obtain ⟨m, id, h8, h9⟩ := hl.sent i x n _ hx h5
    obtain ⟨m', so, h10, h11, h12⟩ := hl.cell n o (by rw [h1]; exact h6)
    rw [h8] at h10
    cases h10
    have hown := ownIds_world s0 srv ops few
    have hmem := AMap.get_some_mem h11
    have shut : ¬ (so = .broken ∨ ∃ r, so = .response r) → ∃ op, Op.wire op ∈ ops ∧ ¬ StaysOpen op := by
      intro hno
      apply Classical.byContradiction
      intro hn
      exact hno (answers_world hc (fun op hop => Classical.byContradiction fun h => hn ⟨op, hop, h⟩) m so hmem)
    cases so with
    | response r =>
      right; right
      have hans := C16_own_answer_partial true true (begun s0 srv ops) (begun_plain hc) false hown m r
      rw [← net_world] at hans
      obtain ⟨req, out, h13, h14, -, h16⟩ := hans hmem
      have h13 := asked_at h13
      rw [h9] at h13
      cases h13
      obtain ⟨p, env, σ, r', rfl, h17⟩ := answered_world s0 srv ops _ _ h14
      have hid := (((plain_world hc) true).answeredPlain _ _ h14).1
      rw [answer_read hid (hc.answers _ _ _ _ _ h17)] at h16
      refine ⟨p, id, env, σ, r', kind, h17, ?_, fun t ht he hres => hk t ht ?_, n, m, h4, h8, h9⟩
      · rw [h7, h12, h16]; rfl
      · rw [h12, h16]
        show (r'.error.isNone && r'.result.isSome) = true
        rw [he]
        cases hres' : r'.result with
        | none => exact absurd hres' hres
        | some v => rfl
    | peerGone id =>
      obtain ⟨op, g1, g2⟩ := shut (fun hr => by rcases hr with hr | ⟨r, hr⟩ <;> cases hr)
      exact .inr (.inl ⟨o, kind, op, ⟨_, _, by simp, h12⟩, g1, g2, h7⟩)
    | closed id =>
      obtain ⟨op, g1, g2⟩ := shut (fun hr => by rcases hr with hr | ⟨r, hr⟩ <;> cases hr)
      exact .inr (.inl ⟨o, kind, op, ⟨_, _, by simp, h12⟩, g1, g2, h7⟩)
    | broken =>
      have hb := C16_none_broken true true (begun s0 srv ops) false hown m
      rw [← net_world] at hb
      exact absurd hmem hb

/-- C129, partial. A call of the client that has given its result is a listing served from the cache, or a transport was closed and it was told that the peer is not connected or that the
transport was closed, or the server dispatched a request with the method and the parameters of this call, in some state it went through, and the result is what the call makes of that
answer; and this dispatch was for this call alone. Missing: traffic the wire format does not carry (C04 to C06, C15), and more than four thousand million requests. -/
theorem C129_result_partial (s0 : Self D) (srv : Srv D H) (ops : List (Op D H)) (hc : Carried (World.init s0 srv) ops) :
    let w := (World.init s0 srv).run ops
    w.client.cells.length < 2 ^ 32 →
      ∃ place : Nat → Nat → Prop, (∀ i j p, place i p → place j p → i = j) ∧
        ∀ (i : Nat) (x : CCall D) (api : Api D) (res : Option (Val D)), w.client.calls[i]? = some x → x.prog = body api → x.st = .over res →
          (∃ k d s', api = .list k ∧ Ev.saw s' ∈ x.path ∧ s'.cache.hit k = some d ∧ res = some (.items d)) ∨
          (∃ o kind op, Unanswered o ∧ Op.wire op ∈ ops ∧ ¬ StaysOpen op ∧ res = says s0.strict kind api o) ∨
          ∃ p id env σ r kind, place i p ∧ DispatchedAt (World.init s0 srv) ops p ⟨id, (question api).method, (question api).params⟩ env σ r ∧
            res = says s0.strict kind api (.resp ⟨id, r.result, r.error⟩) ∧
            (∀ t, api = .taskResult t → r.error = none → r.result ≠ none → ∃ s', Ev.saw s' ∈ x.path ∧ kind = s'.kinds t) := by
  intro w few
  refine ⟨fun i p => ∃ (x : CCall D) (n m k : Nat) (env : Env D H) (q : Request D), w.client.calls[i]? = some x ∧ sentOf x.path = [n] ∧ w.futs[n]? = some m ∧
    ops[p]? = some (.serve k env) ∧ ((World.init s0 srv).run (ops.take p)).net.b.jobs[k]? = some q ∧ w.net.a.asked[m]? = some (m, q), ?_, ?_⟩
  · rintro i j p ⟨x, n, m, k, env, q, h1, h2, h3, h4, h5, h6⟩ ⟨x', n', m', k', env', q', h1', h2', h3', h4', h5', h6'⟩
    rw [h4] at h4'
    cases h4'
    rw [h5] at h5'
    cases h5'
    have hmm : m = m' := asked_fun few h6 h6'
    subst hmm
    have hnn : n = n' := by
      have hf : w.futs.Nodup := by rw [show w.futs = _ from (only_world s0 srv ops).1]; exact List.nodup_range
      exact (List.getElem?_inj (lt_of_get h3) hf).1 (h3.trans h3'.symm)
    subst hnn
    obtain ⟨cops, g1, -, -⟩ := client_run s0 srv ops
    have hinv := inv_run s0 cops
    rw [show w.client = _ from g1] at h1 h1'
    exact flat_nodup (hinv.perm.nodup_iff.2 List.nodup_range) h1' h1 (c := n) (by rw [h2']; simp) (by rw [h2]; simp)
  · intro i x api res hx hprog hst
    rcases result_of s0 srv ops hc few i x api res hx hprog hst with h | h | ⟨p, id, env, σ, r, kind, h1, h2, h3, n, m, h4, h5, h6⟩
    · exact .inl h
    · exact .inr (.inl h)
    · have h1' := h1
      obtain ⟨k, hk1, hk2, -⟩ := h1'
      exact .inr (.inr ⟨p, id, env, σ, r, kind, ⟨x, n, m, k, env, _, hx, h4, h5, hk1, hk2, h6⟩, h1, h2, h3⟩)

theorem call_prog (s0 : Self D) (srv : Srv D H) (ops : List (Op D H)) {i : Nat} {x : CCall D}
    (hx : ((World.init s0 srv).run ops).client.calls[i]? = some x) : ∃ api, x.prog = body api := by
  obtain ⟨cops, h1, h2, -⟩ := client_run s0 srv ops
  rw [h1] at hx
  have key : ∀ l : List (COp D), (∀ b, Await.Op.call b ∈ l → ∃ api, b = body api) → ∀ s : CSys D, (∀ (i : Nat) (x : CCall D), s.calls[i]? = some x → ∃ api, x.prog = body api) →
      ∀ (i : Nat) (x : CCall D), (s.run l).calls[i]? = some x → ∃ api, x.prog = body api := by
    intro l
    induction l with
    | nil => exact fun _ s h => h
    | cons op l ih =>
      intro hl s h
      rw [run_cons]
      exact ih (fun b hb => hl b (List.mem_cons_of_mem _ hb)) _
        (progs_step (P := fun b => ∃ api, b = body api) s op (fun b hb => hl b (by rw [hb]; exact List.mem_cons_self ..)) h)
  exact key cops (fun b hb => (h2 b hb).imp fun api h => h.1) (Sys.init s0) (fun i x hx => (nomatch hx)) i x hx

/-- Each request of the client's transport is that of one call. -/
theorem asked_call (s0 : Self D) (srv : Srv D H) (ops : List (Op D H)) {n : Nat} {g : Request D}
    (hg : ((World.init s0 srv).run ops).net.a.asked[n]? = some (n, g)) :
    ∃ (i : Nat) (x : CCall D) (api : Api D), ((World.init s0 srv).run ops).client.calls[i]? = some x ∧ n ∈ sentOf x.path ∧ x.prog = body api ∧
      g = ⟨g.id, (question api).method, (question api).params⟩ := by
  have hl := link_world s0 srv ops
  obtain ⟨ho, -⟩ := only_world s0 srv ops
  obtain ⟨cops, g1, -, -⟩ := client_run s0 srv ops
  have hperm := (inv_run s0 cops).perm
  rw [← g1] at hperm
  have hlt := lt_of_get hg
  have hlt' : n < ((World.init s0 srv).run ops).client.cells.length := by rw [← hl.len, ho, List.length_range]; exact hlt
  obtain ⟨x, hx, hnx⟩ := List.mem_flatMap.1 (hperm.symm.subset (List.mem_range.2 hlt'))
  obtain ⟨i, hi⟩ := List.getElem?_of_mem hx
  obtain ⟨api, hp⟩ := call_prog s0 srv ops hi
  obtain ⟨q0, hq0⟩ := Web.mem_sentOf.1 hnx
  have hq := (Web.call_asks s0 cops (by rw [← g1]; exact hi) hp).1 n q0 hq0
  subst hq
  obtain ⟨m, id, k1, k2⟩ := hl.sent i x n _ hi hq0
  rw [ho, List.getElem?_range hlt] at k1
  cases k1
  rw [hg] at k2
  cases k2
  exact ⟨i, x, api, hi, hnx, hp, rfl⟩

/-- C129, partial. Every use the server made of a tool was asked for by one call of the client, with that name and these arguments, and no call had a tool run twice. Missing: as for
`C129_result_partial`. -/
theorem C129_calls_partial (s0 : Self D) (srv : Srv D H) (ops : List (Op D H)) (hc : Carried (World.init s0 srv) ops) :
    let w := (World.init s0 srv).run ops
    w.client.cells.length < 2 ^ 32 →
      ∃ L : List (Run D × Nat), w.srv.runs = srv.runs ++ L.map (·.1) ∧ (L.map (·.2)).Nodup ∧
        ∀ run i, (run, i) ∈ L → ∃ x api, w.client.calls[i]? = some x ∧ x.prog = body api ∧ RunFor run (asRequest (question api)) := by
  intro w few
  obtain ⟨L, h1, h2, h3⟩ := runs_world s0 srv ops
  obtain ⟨rest, harr⟩ := arrived_world hc
  have hids : ((w.net.a.asked.map (·.2)).map (fun q => idText q.id)).Nodup := by rw [List.map_map]; exact ids_world few
  -- the requests of the uses are different requests of the client
  have hsub : (L.map (·.2)).Sublist (w.net.b.answered.map (·.1)) ∨ ∃ (i : Nat) (q : Request D), w.net.b.jobs[i]? = some q ∧ (L.map (·.2)).Sublist (w.net.b.answered.map (·.1) ++ [q]) := by
    rcases h3 with h | ⟨-, h⟩
    · exact .inl h
    · exact .inr h
  have hall : ((w.net.b.jobs ++ w.net.b.answered.map (·.1)).map (fun q => idText q.id)).Nodup := by
    have hn := (harr.map (fun q => idText q.id)).nodup_iff.2 hids
    rw [List.map_append] at hn
    exact (List.nodup_append.1 hn).1
  have hnod : ((L.map (·.2)).map (fun q => idText q.id)).Nodup ∧ ∀ q ∈ L.map (·.2), q ∈ w.net.b.jobs ++ w.net.b.answered.map (·.1) := by
    rw [List.map_append, List.nodup_append] at hall
    obtain ⟨hj, ha, hd⟩ := hall
    rcases hsub with h | ⟨i, q, hq, h⟩
    · exact ⟨(h.map _).nodup ha, fun q hq => List.mem_append_right _ (h.subset hq)⟩
    · refine ⟨(h.map _).nodup ?_, fun q' hq' => ?_⟩
      · rw [List.map_append, List.nodup_append]
        refine ⟨ha, by simp, fun a ha b hb hab => ?_⟩
        have hb := List.mem_singleton.1 (show b ∈ [_] from hb)
        exact hd _ (List.mem_map_of_mem (List.mem_of_getElem? hq)) _ ha (by rw [hab, hb])
      · rcases List.mem_append.1 (h.subset hq') with h' | h'
        · exact List.mem_append_right _ h'
        · rw [List.mem_singleton.1 h']; exact List.mem_append_left _ (List.mem_of_getElem? hq)
  have hex : ∀ e : Run D × Request D, ∃ i : Nat, e ∈ L → ∃ (n : Nat) (x : CCall D) (api : Api D), w.client.calls[i]? = some x ∧ n ∈ sentOf x.path ∧ x.prog = body api ∧
      RunFor e.1 (asRequest (question api)) ∧ w.net.a.asked[n]? = some (n, e.2) := by
    intro e
    by_cases he : e ∈ L
    · have hm := hnod.2 e.2 (List.mem_map_of_mem he)
      obtain ⟨⟨n, q⟩, g1, g2⟩ := List.mem_map.1 (harr.subset (List.mem_append_left _ hm))
      have g2 : q = e.2 := g2
      subst g2
      have g1 := asked_at g1
      obtain ⟨i, x, api, k1, k2, k3, k4⟩ := asked_call s0 srv ops g1
      obtain ⟨r1, r2⟩ := h2 e he
      refine ⟨i, fun _ => ⟨n, x, api, k1, k2, k3, ⟨?_, ?_⟩, g1⟩⟩
      · rw [k4] at r1; exact r1
      · rw [k4] at r2; exact r2
    · exact ⟨0, fun h => absurd h he⟩
  obtain ⟨who, hwho⟩ := Classical.axiomOfChoice hex
  obtain ⟨cops, g1, -, -⟩ := client_run s0 srv ops
  refine ⟨L.map fun e => (e.1, who e), by rw [List.map_map]; exact h1, ?_, fun run i hm => ?_⟩
  · have hnod := hnod.1
    rw [List.map_map] at hnod ⊢
    refine List.pairwise_map.2 ((List.pairwise_map.1 hnod).imp_of_mem fun {a b} ha hb hab he => hab ?_)
    obtain ⟨n, x, api, k1, k2, k3, -, k5⟩ := hwho a ha
    obtain ⟨n', x', api', k1', k2', k3', -, k5'⟩ := hwho b hb
    simp only [Function.comp] at he ⊢
    rw [he, k1'] at k1
    cases k1
    have hnn := (Web.call_asks s0 cops (by rw [← g1]; exact k1') k3).2 _ _ k2 k2'
    subst hnn
    rw [k5] at k5'
    injection k5' with k5'
    injection k5' with _ k5'
    rw [k5']
  · obtain ⟨e, he, heq⟩ := List.mem_map.1 hm
    cases heq
    obtain ⟨n, x, api, k1, -, k3, k4, -⟩ := hwho e he
    exact ⟨x, api, k1, k3, k4⟩

/-! ### Tools and prompts -/

theorem unanswered_value {o : Client.Outcome D} (h : Unanswered o) : isErrorObject (replyValue o) = true := by
  obtain ⟨id, text, -, rfl⟩ := h
  rfl

/-- C129, partial. `CallTool` over the in-memory transport gives a value that is not an error only if the server had a handler under this name at some moment and this
handler returned, for exactly these arguments, exactly the content, the error flag, the structured content and the metadata that the value has. Missing: as
for `C129_result_partial`. -/
theorem C129_tool_partial (s0 : Self D) (srv : Srv D H) (ops : List (Op D H)) (hc : Carried (World.init s0 srv) ops) :
    let w := (World.init s0 srv).run ops
    w.client.cells.length < 2 ^ 32 → ∀ (i : Nat) (x : CCall D) (name : Bytes) (args : JVal D) (res : Option (Val D)),
      w.client.calls[i]? = some x → x.prog = body (.callTool name args) → x.st = .over res →
        ∃ v, res = some (.json v) ∧ (isErrorObject v = true ∨
          ∃ p k env h t, ops[p]? = some (.serve k env) ∧ AMap.get ((World.init s0 srv).run (ops.take p)).srv.reg.toolHandlers name = some h ∧
            env.tool h args = .ret t ∧ v.get? (lit "content") = some (.arr t.content) ∧ v.get? (lit "isError") = some (.bool t.isError) ∧
            v.get? (lit "structuredContent") = t.structured ∧ v.get? (lit "_meta") = t.meta_) := by
  intro w few i x name args res hx hprog hst
  rcases result_of s0 srv ops hc few i x _ res hx hprog hst with ⟨k, d, s', h, -⟩ | ⟨o, kind, -, h1, -, -, h2⟩ | ⟨p, id, env, σ, r, kind, h1, h2, -⟩
  · cases h
  · exact ⟨_, h2, .inl (unanswered_value h1)⟩
  · refine ⟨_, h2, ?_⟩
    obtain ⟨k, g1, -, g3, -, g5⟩ := h1
    rcases answer_tool env σ id name args r g5 with h | ⟨hd, t, k1, -, k3, k4, k5⟩
    · exact .inl (error_value h)
    · refine .inr ⟨p, k, env, hd, t, g1, by rw [g3]; exact k1, k3, ?_⟩
      obtain ⟨f1, f2, f3, f4, -⟩ := toolResult_get t
      rw [k4]
      exact ⟨f1, f2, f3, f4⟩

/-- C129, partial. `GetPrompt` over the in-memory transport gives a value that is not an error only if the handler the server had under this name at some moment returned,
for exactly these arguments, exactly this description and these messages. Missing: as for `C129_result_partial`. -/
theorem C129_prompt_partial (s0 : Self D) (srv : Srv D H) (ops : List (Op D H)) (hc : Carried (World.init s0 srv) ops) :
    let w := (World.init s0 srv).run ops
    w.client.cells.length < 2 ^ 32 → ∀ (i : Nat) (x : CCall D) (name : Bytes) (args : JVal D) (res : Option (Val D)),
      w.client.calls[i]? = some x → x.prog = body (.getPrompt name args) → x.st = .over res →
        ∃ v, res = some (.json v) ∧ (isErrorObject v = true ∨
          ∃ p k env h d ms, ops[p]? = some (.serve k env) ∧ AMap.get ((World.init s0 srv).run (ops.take p)).srv.reg.promptHandlers name = some h ∧
            env.prompt h args = .ret (d, ms) ∧ v = .obj [(lit "description", .str d), (lit "messages", .arr ms)]) := by
  intro w few i x name args res hx hprog hst
  rcases result_of s0 srv ops hc few i x _ res hx hprog hst with ⟨k, d, s', h, -⟩ | ⟨o, kind, -, h1, -, -, h2⟩ | ⟨p, id, env, σ, r, kind, h1, h2, -⟩
  · cases h
  · exact ⟨_, h2, .inl (unanswered_value h1)⟩
  · refine ⟨_, h2, ?_⟩
    obtain ⟨k, g1, -, g3, -, g5⟩ := h1
    rcases answer_prompt env σ id name args r g5 with h | ⟨hd, d, ms, k1, k2, k3, -⟩
    · exact .inl (error_value h)
    · refine .inr ⟨p, k, env, hd, d, ms, g1, by rw [g3]; exact k1, k2, ?_⟩
      rw [k3]; rfl

end Verif.Near
