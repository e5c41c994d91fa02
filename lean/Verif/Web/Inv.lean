import Verif.Web.Lemmas

/-! Helper lemmas for C116: which request, future and dispatch belongs to which call. -/

namespace Verif.Web

open Verif.Await Verif.Client Verif.Server Verif.Http
open Verif.Whole (asRequest asking snoc_induction paths_step cells_step cells_other go_quiet go_asks lt_of_get)
open Verif.InMemory (PlainReq PlainNote)

variable {D H : Type} [DblFmt D]

/-! ### Executions, from the end -/

theorem run_snoc (c : LinkCfg) (w : World D H) (ops : List (Op D H)) (op : Op D H) : w.run c (ops ++ [op]) = (w.run c ops).step c op := by
  simp [World.run, List.foldl_append]

/-! ### The client -/

/-- What a step does to the client. -/
inductive ClientMove (s : CSys D) : Op D H → CSys D → Prop
  | stay (op : Op D H) : ClientMove s op s
  | call (api : Api D) : ClientMove s (.call api) (s.step (.call (body api)))
  | go (i : Nat) : ClientMove s (.go i) (s.step (.go i))
  | drop (i : Nat) : ClientMove s (.drop i) (s.step (.drop i))
  | change (u : Self D → Self D) : ClientMove s (.change u) (s.step (.change u))
  | fill (c : Nat) (o : Client.Outcome D) : ClientMove s (.deliver c) (s.step (.fill c o))

theorem client_step (c : LinkCfg) (w : World D H) (op : Op D H) : ClientMove w.client op (w.step c op).client := by
  cases op with
  | call api => exact .call api
  | go i => simp only [World.step, World.go]; split <;> (try split) <;> exact .go i
  | drop i => exact .drop i
  | change u => exact .change u
  | deliver n =>
    simp only [World.step, World.deliver]
    split
    · split
      · exact .fill n _
      · exact .stay _
    · exact .stay _
  | wire op =>
    have hf : ∀ t, (w.file c t).client = w.client := by intro t; unfold World.file; split <;> rfl
    cases op with
    | file t => show ClientMove w.client _ (w.file c t).client; rw [hf]; exact .stay _
    | _ => exact .stay _
  | serve i now a env n e d =>
    simp only [World.step, World.serve]
    split
    · exact .stay _
    · split
      · exact .stay _
      · split <;> exact .stay _
  | own op => exact .stay _

/-- The client goes through an execution of its own. -/
theorem client_run (c : LinkCfg) (s0 : Self D) (srv : Srv D H) (ops : List (Op D H)) :
    ∃ cops, ((World.init s0 srv).run c ops).client = (Sys.init s0).run cops ∧
      (∀ b, Await.Op.call b ∈ cops → ∃ api, b = body api ∧ Op.call api ∈ ops) ∧ (∀ u, Await.Op.change u ∈ cops → Op.change u ∈ ops) := by
  induction ops using snoc_induction with
  | h0 => exact ⟨[], rfl, by simp, by simp⟩
  | h1 ops op ih =>
    obtain ⟨cops, h1, h2, h3⟩ := ih
    rw [run_snoc]
    have hm := client_step c ((World.init s0 srv).run c ops) op
    have more : ∀ cop : COp D, ((((World.init s0 srv).run c ops).step c op).client = ((World.init s0 srv).run c ops).client.step cop) →
        (∀ b, cop = .call b → ∃ api, b = body api ∧ op = .call api) → (∀ u, cop = .change u → op = .change u) →
        ∃ cops, (((World.init s0 srv).run c ops).step c op).client = (Sys.init s0).run cops ∧
          (∀ b, Await.Op.call b ∈ cops → ∃ api, b = body api ∧ Op.call api ∈ ops ++ [op]) ∧ (∀ u, Await.Op.change u ∈ cops → Op.change u ∈ ops ++ [op]) := by
      intro cop h4 h5 h6
      refine ⟨cops ++ [cop], ?_, ?_, ?_⟩
      · rw [h4, h1, Await.run_append]; rfl
      · intro b hb
        rcases List.mem_append.1 hb with hb | hb
        · obtain ⟨api, h7, h8⟩ := h2 b hb
          exact ⟨api, h7, List.mem_append_left _ h8⟩
        · obtain ⟨api, h7, h8⟩ := h5 b (List.mem_singleton.1 hb).symm
          exact ⟨api, h7, by rw [h8]; simp⟩
      · intro u hu
        rcases List.mem_append.1 hu with hu | hu
        · exact List.mem_append_left _ (h3 u hu)
        · rw [h6 u (List.mem_singleton.1 hu).symm]; simp
    generalize hs : (((World.init s0 srv).run c ops).step c op).client = s' at hm more
    cases hm with
    | stay =>
      exact ⟨cops, h1, fun b hb => (h2 b hb).imp fun api h => ⟨h.1, List.mem_append_left _ h.2⟩, fun u hu => List.mem_append_left _ (h3 u hu)⟩
    | call api => exact more _ rfl (fun b hb => by cases hb; exact ⟨api, rfl, rfl⟩) (fun u hu => nomatch hu)
    | go i => exact more _ rfl (fun b hb => nomatch hb) (fun u hu => nomatch hu)
    | drop i => exact more _ rfl (fun b hb => nomatch hb) (fun u hu => nomatch hu)
    | change u => exact more _ rfl (fun b hb => nomatch hb) (fun u' hu => by cases hu; rfl)
    | fill n o => exact more _ rfl (fun b hb => nomatch hb) (fun u hu => nomatch hu)

/-- What a call is about to send survives the wire format. -/
theorem asking_plain {c : LinkCfg} {s0 : Self D} {srv : Srv D H} {ops : List (Op D H)}
    (hc : ∀ api, Op.call api ∈ ops → ∀ v, (question api).params = some v → v.Wire) {i : Nat} {q : Req D}
    (h : asking ((World.init s0 srv).run c ops).client i = some q) : PlainReq (asRequest q) := by
  obtain ⟨cops, h1, h2, -⟩ := client_run c s0 srv ops
  have hst := stHas_run (Whole.asks_closed fun q : Req D => PlainReq (asRequest q)) s0 cops (fun b hb => by
    obtain ⟨api, rfl, h4⟩ := h2 b hb
    exact (Whole.asks_body api).mono fun q hq => by rw [hq]; exact Whole.asRequest_plain (hc api h4))
  rw [h1] at h
  unfold asking at h
  split at h
  · rename_i x hx
    split at h
    · rename_i q0 k hs
      cases h
      have := hst i x hx
      rw [hs] at this
      exact this.1
    · cases h
  · cases h

/-! ### Dispatches -/

/-- With the step at this place of the execution the server gave this request of the client to its dispatcher, in the state it was in, with this end. -/
def DispatchedAt (c : LinkCfg) (w : World D H) (ops : List (Op D H)) (p : Nat) (q : Request D) (env : Env D H) (srv : Srv D H) (o : Out D) : Prop :=
  ∃ i now a n e d out tok rest, ops[p]? = some (.serve i now a env n e d) ∧ (w.run c (ops.take p)).served c i now a env n e d = some out ∧
    out.handled = (q, tok) :: rest ∧ (w.run c (ops.take p)).srv = srv ∧ (dispatch env srv q).1 = o

theorem DispatchedAt.more {c : LinkCfg} {w : World D H} {ops : List (Op D H)} {p : Nat} {q : Request D} {env : Env D H} {srv : Srv D H} {o : Out D}
    (h : DispatchedAt c w ops p q env srv o) (op : Op D H) : DispatchedAt c w (ops ++ [op]) p q env srv o := by
  obtain ⟨i, now, a, n, e, d, out, tok, rest, h1, h2⟩ := h
  have hl := lt_of_get h1
  refine ⟨i, now, a, n, e, d, out, tok, rest, by rw [List.getElem?_append_left hl]; exact h1, ?_⟩
  rw [List.take_append_of_le_length (Nat.le_of_lt hl)]
  exact h2

theorem DispatchedAt.less {c : LinkCfg} {w : World D H} {ops : List (Op D H)} {p : Nat} {q : Request D} {env : Env D H} {srv : Srv D H} {o : Out D} {op : Op D H}
    (h : DispatchedAt c w (ops ++ [op]) p q env srv o) (hp : p < ops.length) : DispatchedAt c w ops p q env srv o := by
  obtain ⟨i, now, a, n, e, d, out, tok, rest, h1, h2⟩ := h
  rw [List.getElem?_append_left hp] at h1
  rw [List.take_append_of_le_length (Nat.le_of_lt hp)] at h2
  exact ⟨i, now, a, n, e, d, out, tok, rest, h1, h2⟩

theorem dispatched_last {c : LinkCfg} {w : World D H} {ops : List (Op D H)} {i : Nat} {now : Int} {a : Bytes} {env : Env D H} {n e : Bool} {d : Bytes} {out : Served D}
    {q : Request D} {tok : Option TokenInfo} {rest : List (Request D × Option TokenInfo)} (h1 : (w.run c ops).served c i now a env n e d = some out)
    (h2 : out.handled = (q, tok) :: rest) :
    DispatchedAt c w (ops ++ [.serve i now a env n e d]) ops.length q env (w.run c ops).srv (dispatch env (w.run c ops).srv q).1 := by
  have ht : (ops ++ [Op.serve i now a env n e d]).take ops.length = ops := by simp
  refine ⟨i, now, a, n, e, d, out, tok, rest, by simp, ?_⟩
  rw [ht]
  exact ⟨h1, h2, rfl, rfl⟩

/-! ### Specification: what is carried -/

/-- All that is sent in the execution survives the wire format (C04 to C06, C15), as do the reasons the server gives when it refuses a token, and nothing
changes the mode of the client. -/
structure Carried (c : LinkCfg) (w : World D H) (ops : List (Op D H)) : Prop where
  reasons : PlainReasons c.auth
  calls : ∀ api, Op.call api ∈ ops → ∀ v, (question api).params = some v → v.Wire
  wires : ∀ op, Op.wire op ∈ ops → PlainLinkOp op
  answers : ∀ p q env σ r, DispatchedAt c w ops p q env σ (.answer r) → PlainAnswer (.resp r)
  mode : ∀ u, Op.change u ∈ ops → ∀ s, (u s).strict = s.strict

theorem Carried.prefix {c : LinkCfg} {w : World D H} {ops : List (Op D H)} {op : Op D H} (h : Carried c w (ops ++ [op])) : Carried c w ops :=
  ⟨h.reasons, fun api ha => h.calls api (List.mem_append_left _ ha), fun o ho => h.wires o (List.mem_append_left _ ho),
    fun p q env σ r hd => h.answers p q env σ r (hd.more op), fun u hu => h.mode u (List.mem_append_left _ hu)⟩

/-! ### The invariant -/

/-- What the transport says to a request when it is not connected. -/
def refused : SOut D := .resp ⟨.str [], none, some (mkErrorObj Code.internalError (lit "Transport not connected") none)⟩

/-- The slot is that of this request. -/
def SlotFor (s : Http.Link D) (l : List (Nat × Request D)) (q : Req D) : Slot → Prop
  | .ticket t => s.ht.tickets[t]? = some (some (asRequest q))
  | .fut m => (∃ y, (m, y) ∈ l ∧ y.method = q.method ∧ y.params = q.params) ∨ ((m, refused) ∈ s.ht.tab.outcomes ∧ ∀ y, (m, y) ∉ l)

structure Inv (c : LinkCfg) (w : World D H) (l : List (Nat × Request D)) : Prop where
  path : ∃ lops, w.link = (Link.init : Http.Link D).run c lops ∧ ∀ op ∈ lops, PlainLinkOp op
  given : givenIds w.link.did = []
  count : filings w.link.did + (w.link.ht.tickets.filterMap id).length ≤ w.slots.length
  filed : Filed w.link l
  len : w.slots.length = w.client.cells.length
  sent : ∀ (i : Nat) (x : CCall D) (n : Nat) (q : Req D), w.client.calls[i]? = some x → Ev.sent n q ∈ x.path → ∃ sl, w.slots[n]? = some sl ∧ SlotFor w.link l q sl
  cell : ∀ (n : Nat) (o : Client.Outcome D), w.client.cells[n]? = some (some o) →
    ∃ m so, w.slots[n]? = some (.fut m) ∧ (m, so) ∈ w.link.ht.tab.outcomes ∧ o = seen so
  nodup : w.slots.Nodup
  live : ∀ t, Slot.ticket t ∈ w.slots → ∃ r, w.link.ht.tickets[t]? = some (some r)
  held : ∀ t r, w.link.ht.tickets[t]? = some (some r) → Slot.ticket t ∈ w.slots
  futs : ∀ m, Slot.fut m ∈ w.slots → m < w.link.ht.tab.nextFut
  owner : ∀ x ∈ l, Slot.fut x.1 ∈ w.slots

theorem inv_init (c : LinkCfg) (s0 : Self D) (srv : Srv D H) : Inv c (World.init s0 srv) [] :=
  ⟨⟨[], rfl, fun _ h => (nomatch h)⟩, rfl, Nat.le_refl _, filed_init, rfl, fun _ _ _ _ h => (nomatch h), fun _ _ h => (nomatch h), List.nodup_nil, fun _ h => (nomatch h),
    fun _ _ h => (nomatch h), fun _ h => (nomatch h), fun _ h => (nomatch h)⟩

theorem Inv.sides {c : LinkCfg} {w : World D H} {l : List (Nat × Request D)} (h : Inv c w l) : Sides c w.link := by
  obtain ⟨lops, h1, -⟩ := h.path
  rw [h1]
  exact sides_run c lops

theorem Inv.own {c : LinkCfg} {w : World D H} {l : List (Nat × Request D)} (h : Inv c w l) (few : w.slots.length < 2 ^ 32) : OwnIds w.link.did :=
  ⟨by rw [h.given]; exact List.nodup_nil, by rw [h.given]; exact fun _ hk => (nomatch hk), by have := h.count; omega⟩

theorem Inv.link {c : LinkCfg} (ha : PlainReasons c.auth) {w : World D H} {l : List (Nat × Request D)} (h : Inv c w l) (few : w.slots.length < 2 ^ 32) : LinkInv w.link := by
  obtain ⟨lops, h1, h2⟩ := h.path
  have := h.own few
  rw [h1] at this ⊢
  exact linkInv_run c ha lops h2 this

theorem path_snoc {c : LinkCfg} {s : Http.Link D} (h : ∃ lops, s = (Link.init : Http.Link D).run c lops ∧ ∀ op ∈ lops, PlainLinkOp op) {op : LinkOp D}
    (hop : PlainLinkOp op) : ∃ lops, s.step c op = (Link.init : Http.Link D).run c lops ∧ ∀ op ∈ lops, PlainLinkOp op := by
  obtain ⟨lops, h1, h2⟩ := h
  refine ⟨lops ++ [op], by rw [link_run_concat, h1], fun o ho => ?_⟩
  rcases List.mem_append.1 ho with ho | ho
  · exact h2 o ho
  · rw [List.mem_singleton.1 ho]; exact hop

/-- A step of the link that is neither sending nor filing. -/
theorem Inv.wired {c : LinkCfg} (ha : PlainReasons c.auth) {w : World D H} {l : List (Nat × Request D)} (h : Inv c w l) (few : w.slots.length < 2 ^ 32) (op : LinkOp D)
    (hop : PlainLinkOp op) (hp : Plainly op) (hadd : added w.link op = []) {w' : World D H} (h1 : w'.client = w.client) (h2 : w'.slots = w.slots) (h3 : w'.link = w.link.step c op) : Inv c w' l := by
  obtain ⟨hl, hf, hg⟩ := leaves_link c w.link op hp
  have hfiled := filed_step ha (h.link ha few) h.filed op
  rw [hadd, List.append_nil] at hfiled
  refine ⟨by rw [h3]; exact path_snoc h.path hop, by rw [h3, hg]; exact h.given, by rw [h3, hf, hl.tickets, h2]; exact h.count, by rw [h3]; exact hfiled,
    by rw [h1, h2]; exact h.len, fun i x n q hx hq => ?_, fun n o hn => ?_, by rw [h2]; exact h.nodup, ?_, ?_, ?_, by rw [h2]; exact h.owner⟩
  · rw [h1] at hx
    obtain ⟨sl, h4, h5⟩ := h.sent i x n q hx hq
    refine ⟨sl, by rw [h2]; exact h4, ?_⟩
    rw [h3]
    cases sl with
    | ticket t => show (w.link.step c op).ht.tickets[t]? = _; rw [hl.tickets]; exact h5
    | fut m =>
      rcases h5 with h5 | h5
      · exact .inl h5
      · exact .inr ⟨hl.outcomes.subset h5.1, h5.2⟩
  · rw [h1] at hn
    obtain ⟨m, so, h4, h5, h6⟩ := h.cell n o hn
    exact ⟨m, so, by rw [h2]; exact h4, by rw [h3]; exact hl.outcomes.subset h5, h6⟩
  · rw [h2, h3, hl.tickets]; exact h.live
  · rw [h2, h3, hl.tickets]; exact h.held
  · rw [h2, h3, hl.next]; exact h.futs

/-- A step of the client that is not a call going on, or a call going on without sending. -/
theorem Inv.cliented {c : LinkCfg} {w : World D H} {l : List (Nat × Request D)} (h : Inv c w l) {w' : World D H} (h2 : w'.slots = w.slots) (h3 : w'.link = w.link)
    (hl : w'.client.cells.length = w.client.cells.length)
    (hp : ∀ (j : Nat) (y : CCall D), w'.client.calls[j]? = some y → ∀ (n : Nat) (q : Req D), Ev.sent n q ∈ y.path →
      ∃ z : CCall D, w.client.calls[j]? = some z ∧ Ev.sent n q ∈ z.path)
    (hc : ∀ (n : Nat) (o : Client.Outcome D), w'.client.cells[n]? = some (some o) → w.client.cells[n]? = some (some o) ∨
      ∃ m so, w.slots[n]? = some (.fut m) ∧ (m, so) ∈ w.link.ht.tab.outcomes ∧ o = seen so) : Inv c w' l := by
  refine ⟨by rw [h3]; exact h.path, by rw [h3]; exact h.given, by rw [h3, h2]; exact h.count, by rw [h3]; exact h.filed, by rw [h2, hl]; exact h.len,
    fun i x n q hx hq => ?_, fun n o hn => ?_, by rw [h2]; exact h.nodup, by rw [h2, h3]; exact h.live, by rw [h2, h3]; exact h.held, by rw [h2, h3]; exact h.futs,
    by rw [h2]; exact h.owner⟩
  · obtain ⟨z, h4, h5⟩ := hp i x hx n q hq
    obtain ⟨sl, h6, h7⟩ := h.sent i z n q h4 h5
    exact ⟨sl, by rw [h2]; exact h6, by rw [h3]; exact h7⟩
  · rw [h2, h3]
    rcases hc n o hn with h4 | h4
    · exact h.cell n o h4
    · exact h4

/-- A call sends its request. -/
theorem Inv.asked {c : LinkCfg} (ha : PlainReasons c.auth) {w : World D H} {l : List (Nat × Request D)} (h : Inv c w l) (few : w.slots.length < 2 ^ 32) {i : Nat} {q : Req D}
    (hq : asking w.client i = some q) (hs : w.client.ub = false ∧ w.client.alive = true) (hpl : PlainReq (asRequest q)) : Inv c (w.go c i) l := by
  have hw : w.go c i = { w with
      client := w.client.step (.go i)
      slots := w.slots ++ [if w.link.ht.connected then .ticket w.link.ht.tickets.length else .fut w.link.ht.tab.nextFut]
      link := w.link.step c (.send (asRequest q)) } := by
    simp only [World.go, hq]; rw [if_pos hs]
  obtain ⟨h1, h2⟩ := go_asks w.client i q hq hs
  have hfiled := filed_step ha (h.link ha few) h.filed (.send (asRequest q))
  rw [show added w.link (.send (asRequest q)) = [] from rfl, List.append_nil] at hfiled
  have hdid : (w.link.step c (.send (asRequest q))).did = w.link.did ++ [.send (asRequest q)] := rfl
  have hgiven : givenIds (w.link.did ++ [HtOp.send (asRequest q)]) = [] := by
    rw [givenIds_append, h.given]; rfl
  have hfilings : filings (w.link.did ++ [HtOp.send (asRequest q)]) = filings w.link.did := by rw [filings_append]; rfl
  have hcell : ∀ (n : Nat) (o : Client.Outcome D), (w.client.step (.go i)).cells[n]? = some (some o) → w.client.cells[n]? = some (some o) := by
    intro n o hn
    rw [h1] at hn
    rcases Nat.lt_or_ge n w.client.cells.length with hl | hl
    · rwa [List.getElem?_append_left hl] at hn
    · rw [List.getElem?_append_right hl] at hn
      cases hk : n - w.client.cells.length with
      | zero => rw [hk] at hn; cases hn
      | succ k => rw [hk] at hn; cases hn
  rw [hw]
  cases hcon : w.link.ht.connected with
  | true =>
    have hht : (w.link.step c (.send (asRequest q))).ht = { w.link.ht with tickets := w.link.ht.tickets ++ [some (asRequest q)] } := by
      show w.link.ht.send _ = _
      unfold Ht.send
      rw [if_pos hcon]
    simp only [if_true]
    refine ⟨path_snoc h.path (op := .send (asRequest q)) hpl, hgiven, ?_, hfiled, ?_, ?_, ?_, ?_, ?_, ?_, ?_, ?_⟩
    · show filings (w.link.step c (.send (asRequest q))).did + ((w.link.step c (.send (asRequest q))).ht.tickets.filterMap id).length ≤ (w.slots ++ [_]).length
      rw [hdid, hfilings, hht, List.filterMap_append, List.length_append, List.length_append]
      have := h.count
      simp only [List.filterMap_cons, id, List.filterMap_nil, List.length_singleton]
      omega
    · show (w.slots ++ [_]).length = (w.client.step (.go i)).cells.length
      rw [h1, List.length_append, List.length_append, h.len]; rfl
    · intro j y n q' hy hq'
      show ∃ sl, (w.slots ++ [Slot.ticket w.link.ht.tickets.length])[n]? = some sl ∧ SlotFor (w.link.step c (.send (asRequest q))) l q' sl
      rcases h2 j y hy n q' hq' with ⟨rfl, rfl⟩ | ⟨z, h3, h4⟩
      · refine ⟨.ticket w.link.ht.tickets.length, ?_, ?_⟩
        · rw [← h.len]; simp
        · show (w.link.step c (.send (asRequest q'))).ht.tickets[w.link.ht.tickets.length]? = _
          rw [hht]; simp
      · obtain ⟨sl, h5, h6⟩ := h.sent j z n q' h3 h4
        refine ⟨sl, getElem?_append_of_some h5, ?_⟩
        cases sl with
        | ticket t =>
          show (w.link.step c (.send (asRequest q))).ht.tickets[t]? = _
          rw [hht]
          exact getElem?_append_of_some h6
        | fut m =>
          rcases h6 with h6 | h6
          · exact .inl h6
          · refine .inr ⟨?_, h6.2⟩
            rw [hht]
            exact h6.1
    · intro n o hn
      obtain ⟨m, so, h5, h6, h7⟩ := h.cell n o (hcell n o hn)
      refine ⟨m, so, getElem?_append_of_some h5, ?_, h7⟩
      show (m, so) ∈ (w.link.step c (.send (asRequest q))).ht.tab.outcomes
      rw [hht]
      exact h6
    · refine List.nodup_append.2 ⟨h.nodup, by simp, fun a ha' b hb => ?_⟩
      rw [List.mem_singleton.1 hb]
      rintro rfl
      obtain ⟨r, hr⟩ := h.live _ ha'
      exact absurd (lt_of_get hr) (Nat.lt_irrefl _)
    · intro t ht
      show ∃ r, (w.link.step c (.send (asRequest q))).ht.tickets[t]? = _
      rw [hht]
      rcases List.mem_append.1 ht with ht | ht
      · obtain ⟨r, hr⟩ := h.live t ht
        exact ⟨r, getElem?_append_of_some hr⟩
      · cases List.mem_singleton.1 ht
        exact ⟨asRequest q, by simp⟩
    · intro t r ht
      show Slot.ticket t ∈ w.slots ++ [_]
      have ht' : (w.link.ht.tickets ++ [some (asRequest q)])[t]? = some (some r) := by
        have : (w.link.step c (.send (asRequest q))).ht.tickets[t]? = some (some r) := ht
        rwa [hht] at this
      rcases Nat.lt_or_ge t w.link.ht.tickets.length with hl | hl
      · rw [List.getElem?_append_left hl] at ht'
        exact List.mem_append_left _ (h.held t r ht')
      · have : t = w.link.ht.tickets.length := by
          have := lt_of_get ht'
          simp only [List.length_append, List.length_singleton] at this
          omega
        rw [this]
        simp
    · intro m hm
      show m < (w.link.step c (.send (asRequest q))).ht.tab.nextFut
      rw [hht]
      rcases List.mem_append.1 hm with hm | hm
      · exact h.futs m hm
      · cases List.mem_singleton.1 hm
    · exact fun x hx => List.mem_append_left _ (h.owner x hx)
  | false =>
    have hht : (w.link.step c (.send (asRequest q))).ht = { w.link.ht with tab := w.link.ht.tab.immediate refused } := by
      show w.link.ht.send _ = _
      unfold Ht.send
      rw [if_neg (by rw [hcon]; decide)]; rfl
    simp only [Bool.false_eq_true, if_false]
    refine ⟨path_snoc h.path (op := .send (asRequest q)) hpl, hgiven, ?_, hfiled, ?_, ?_, ?_, ?_, ?_, ?_, ?_, ?_⟩
    · show filings (w.link.step c (.send (asRequest q))).did + ((w.link.step c (.send (asRequest q))).ht.tickets.filterMap id).length ≤ (w.slots ++ [_]).length
      rw [hdid, hfilings, hht, List.length_append]
      have := h.count
      simp only
      omega
    · show (w.slots ++ [_]).length = (w.client.step (.go i)).cells.length
      rw [h1, List.length_append, List.length_append, h.len]; rfl
    · intro j y n q' hy hq'
      show ∃ sl, (w.slots ++ [Slot.fut w.link.ht.tab.nextFut])[n]? = some sl ∧ SlotFor (w.link.step c (.send (asRequest q))) l q' sl
      rcases h2 j y hy n q' hq' with ⟨rfl, rfl⟩ | ⟨z, h3, h4⟩
      · refine ⟨.fut w.link.ht.tab.nextFut, ?_, .inr ⟨?_, fun y' hy' => absurd (h.futs _ (h.owner _ hy')) (Nat.lt_irrefl _)⟩⟩
        · rw [← h.len]; simp
        · rw [hht]
          exact List.mem_append_right _ (List.mem_singleton.2 rfl)
      · obtain ⟨sl, h5, h6⟩ := h.sent j z n q' h3 h4
        refine ⟨sl, getElem?_append_of_some h5, ?_⟩
        cases sl with
        | ticket t =>
          show (w.link.step c (.send (asRequest q))).ht.tickets[t]? = _
          rw [hht]
          exact h6
        | fut m =>
          rcases h6 with h6 | h6
          · exact .inl h6
          · refine .inr ⟨?_, h6.2⟩
            rw [hht]
            exact List.mem_append_left _ h6.1
    · intro n o hn
      obtain ⟨m, so, h5, h6, h7⟩ := h.cell n o (hcell n o hn)
      refine ⟨m, so, getElem?_append_of_some h5, ?_, h7⟩
      show (m, so) ∈ (w.link.step c (.send (asRequest q))).ht.tab.outcomes
      rw [hht]
      exact List.mem_append_left _ h6
    · refine List.nodup_append.2 ⟨h.nodup, by simp, fun a ha' b hb => ?_⟩
      rw [List.mem_singleton.1 hb]
      rintro rfl
      exact absurd (h.futs _ ha') (Nat.lt_irrefl _)
    · intro t ht
      show ∃ r, (w.link.step c (.send (asRequest q))).ht.tickets[t]? = _
      rw [hht]
      rcases List.mem_append.1 ht with ht | ht
      · exact h.live t ht
      · cases List.mem_singleton.1 ht
    · intro t r ht
      have ht' : w.link.ht.tickets[t]? = some (some r) := by
        have : (w.link.step c (.send (asRequest q))).ht.tickets[t]? = some (some r) := ht
        rwa [hht] at this
      exact List.mem_append_left _ (h.held t r ht')
    · intro m hm
      show m < (w.link.step c (.send (asRequest q))).ht.tab.nextFut
      rw [hht]
      show m < w.link.ht.tab.nextFut + 1
      rcases List.mem_append.1 hm with hm | hm
      · have := h.futs m hm; omega
      · cases List.mem_singleton.1 hm; omega
    · exact fun x hx => List.mem_append_left _ (h.owner x hx)

/-- The slot of a ticket that is filed. -/
def turned (t m : Nat) (s : Slot) : Slot := if s = .ticket t then .fut m else s

theorem turned_inj {l : List Slot} {t m : Nat} (hm : Slot.fut m ∉ l) : ∀ a ∈ l, ∀ b ∈ l, turned t m a = turned t m b → a = b := by
  intro a ha b hb he
  unfold turned at he
  by_cases h1 : a = .ticket t <;> by_cases h2 : b = .ticket t
  · rw [h1, h2]
  · rw [if_pos h1, if_neg h2] at he; rw [← he] at hb; exact absurd hb hm
  · rw [if_neg h1, if_pos h2] at he; rw [he] at ha; exact absurd ha hm
  · rwa [if_neg h1, if_neg h2] at he

/-- The request of a ticket is filed. -/
theorem Inv.ticketed {c : LinkCfg} (ha : PlainReasons c.auth) {w : World D H} {l : List (Nat × Request D)} (h : Inv c w l) (few : w.slots.length < 2 ^ 32) {t : Nat} {r : Request D}
    (hr : w.link.ht.tickets[t]? = some (some r)) : Inv c (w.file c t) (l ++ [(w.link.ht.tab.nextFut, (w.link.ht.withId r).1)]) := by
  have hw : w.file c t = { w with slots := w.slots.map (turned t w.link.ht.tab.nextFut), link := w.link.step c (.file t) } := by
    simp only [World.file, hr]; rfl
  have hfiled := filed_step ha (h.link ha few) h.filed (.file t)
  rw [show added w.link (.file t) = [(w.link.ht.tab.nextFut, (w.link.ht.withId r).1)] by simp only [added, entry, hr]] at hfiled
  have hlt := lt_of_get hr
  have hnew : Slot.fut w.link.ht.tab.nextFut ∉ w.slots := fun hm => absurd (h.futs _ hm) (Nat.lt_irrefl _)
  have htk : (w.link.step c (.file t)).ht.tickets = w.link.ht.tickets.set t none := by
    simp only [Link.step, Link.client, Ht.step, Ht.file, hr]
  have htab : (w.link.step c (.file t)).ht.tab = w.link.ht.tab.insert (keyText (w.link.ht.withId r).1.id) .broken := by
    simp only [Link.step, Link.client, Ht.step, Ht.file, hr]
  have hout : ∀ x, x ∈ w.link.ht.tab.outcomes → x ∈ (w.link.step c (.file t)).ht.tab.outcomes := by
    intro x hx
    rw [htab]
    simp only [PTab.insert]
    split
    · exact List.mem_append_left _ hx
    · exact hx
  have hnext : (w.link.step c (.file t)).ht.tab.nextFut = w.link.ht.tab.nextFut + 1 := by rw [htab]; rfl
  have hsp := withId_spec w.link.ht r
  rw [hw]
  refine ⟨path_snoc h.path (show PlainLinkOp (.file t) from trivial), ?_, ?_, hfiled, ?_, ?_, ?_, ?_, ?_, ?_, ?_, ?_⟩
  · show givenIds (w.link.did ++ [HtOp.file t]) = []
    rw [givenIds_append, h.given]; rfl
  · show filings (w.link.did ++ [HtOp.file t]) + ((w.link.step c (.file t)).ht.tickets.filterMap id).length ≤ (w.slots.map _).length
    rw [filings_append, htk, List.length_map]
    have hperm := (filterMap_set_none (id : Option (Request D) → Option (Request D)) rfl w.link.ht.tickets t (some r) hr).length_eq
    simp only [id, Option.toList, List.length_append, List.length_singleton] at hperm
    have := h.count
    have h1 : filings ([HtOp.file t] : List (HtOp D)) = 1 := rfl
    omega
  · show (w.slots.map _).length = _
    rw [List.length_map]; exact h.len
  · intro i x n q hx hq
    show ∃ sl, (w.slots.map (turned t w.link.ht.tab.nextFut))[n]? = some sl ∧ SlotFor (w.link.step c (.file t)) _ q sl
    obtain ⟨sl, h4, h5⟩ := h.sent i x n q hx hq
    refine ⟨turned t w.link.ht.tab.nextFut sl, by rw [List.getElem?_map, h4]; rfl, ?_⟩
    unfold turned
    cases sl with
    | ticket t' =>
      by_cases he : t' = t
      · subst he
        rw [if_pos rfl]
        rw [show w.link.ht.tickets[t']? = _ from h5] at hr
        cases hr
        refine .inl ⟨(w.link.ht.withId (asRequest q)).1, List.mem_append_right _ (List.mem_singleton.2 rfl), ?_, ?_⟩
        · rw [hsp.1]; rfl
        · rw [hsp.1]; rfl
      · rw [if_neg (fun e => he (by cases e; rfl))]
        show (w.link.step c (.file t)).ht.tickets[t']? = _
        rw [htk, List.getElem?_set_ne (fun e => he e.symm)]
        exact h5
    | fut m =>
      rw [if_neg (fun e => nomatch e)]
      rcases h5 with ⟨y, h6, h7⟩ | h5
      · exact .inl ⟨y, List.mem_append_left _ h6, h7⟩
      · refine .inr ⟨hout _ h5.1, fun y hy => ?_⟩
        rcases List.mem_append.1 hy with hy | hy
        · exact h5.2 y hy
        · cases List.mem_singleton.1 hy
          exact hnew (List.mem_of_getElem? h4)
  · intro n o hn
    obtain ⟨m, so, h4, h5, h6⟩ := h.cell n o hn
    refine ⟨m, so, ?_, hout _ h5, h6⟩
    show (w.slots.map (turned t w.link.ht.tab.nextFut))[n]? = _
    rw [List.getElem?_map, h4]
    show some (turned t w.link.ht.tab.nextFut (.fut m)) = _
    unfold turned
    rw [if_neg (fun e => nomatch e)]
  · show (w.slots.map (turned t w.link.ht.tab.nextFut)).Nodup
    refine List.pairwise_map.2 (h.nodup.imp_of_mem fun {a b} ha' hb hab he => hab (turned_inj hnew a ha' b hb he))
  · intro t' ht'
    obtain ⟨s, hs, he⟩ := List.mem_map.1 (show Slot.ticket t' ∈ w.slots.map (turned t w.link.ht.tab.nextFut) from ht')
    unfold turned at he
    split at he
    · cases he
    · rename_i hne
      subst he
      obtain ⟨r', hr'⟩ := h.live t' hs
      refine ⟨r', ?_⟩
      show (w.link.step c (.file t)).ht.tickets[t']? = _
      rw [htk, List.getElem?_set_ne (fun e => hne (by rw [e]))]
      exact hr'
  · intro t' r' ht'
    have ht'' : (w.link.ht.tickets.set t none)[t']? = some (some r') := by rw [← htk]; exact ht'
    by_cases he : t = t'
    · subst he
      rw [List.getElem?_set_self hlt] at ht''
      cases ht''
    · rw [List.getElem?_set_ne he] at ht''
      refine List.mem_map.2 ⟨.ticket t', h.held t' r' ht'', ?_⟩
      exact if_neg (fun e => he (by cases e; rfl))
  · intro m hm
    show m < (w.link.step c (.file t)).ht.tab.nextFut
    rw [hnext]
    obtain ⟨s, hs, he⟩ := List.mem_map.1 (show Slot.fut m ∈ w.slots.map (turned t w.link.ht.tab.nextFut) from hm)
    unfold turned at he
    split at he
    · cases he; omega
    · subst he
      have := h.futs m hs
      omega
  · intro x hx
    show Slot.fut x.1 ∈ w.slots.map (turned t w.link.ht.tab.nextFut)
    rcases List.mem_append.1 hx with hx | hx
    · refine List.mem_map.2 ⟨_, h.owner x hx, ?_⟩
      exact if_neg (fun e => nomatch e)
    · cases List.mem_singleton.1 hx
      exact List.mem_map.2 ⟨_, h.held t r hr, if_pos rfl⟩

end Verif.Web
