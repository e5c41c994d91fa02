import Verif.Whole.Inv

/-!
C115: a call of the client over standard input and output gives what the server answered to it, and each request is dispatched for one call only.
-/

namespace Verif.Whole

open Verif.Await Verif.Client Verif.Server Verif.Duplex Verif.Stdio
open Verif.Serve (Prog)
open Verif.InMemory (PlainReq PlainNote)

variable {D H : Type} [DblFmt D]

/-! ### Specification -/

/-- All that is sent in the execution survives the wire format (C04 to C06, C15), and nothing changes the mode of the client. -/
structure Carried (c : Cfg D) (w : World D H) (ops : List (Op D H)) : Prop where
  handlers : ∀ q, PlainProg (c.handler q)
  calls : ∀ api, Op.call api ∈ ops → ∀ v, (question api).params = some v → v.Wire
  wires : ∀ y op, Op.wire y op ∈ ops → PlainStep (y, op)
  answers : ∀ p q env σ r, DispatchedAt c w ops p q env σ r → PlainAnswer (.resp r)
  mode : ∀ u, Op.change u ∈ ops → ∀ s, (u s).strict = s.strict

/-- What a call is told when its request got no answer of the server. -/
def Unanswered (o : Client.Outcome D) : Prop :=
  ∃ id text, text ∈ [lit "Request timeout", lit "Transport closed", lit "Transport not connected"] ∧
    o = .resp ⟨id, none, some (.obj [(lit "code", .int (-32603)), (lit "message", .str text)])⟩

/-! ### The requests of the calls -/

/-- The body sends no requests but these. -/
def AsksOnly (P : Req D → Prop) : CBody D → Prop
  | .ret _ => True
  | .arg k => AsksOnly P k
  | .own _ k => ∀ s, AsksOnly P (k s)
  | .ask q k => P q ∧ ∀ o, AsksOnly P (k o)

theorem AsksOnly.mono {P Q : Req D → Prop} (h : ∀ q, P q → Q q) {b : CBody D} : AsksOnly P b → AsksOnly Q b := by
  induction b with
  | ret r => exact id
  | arg k ih => exact ih
  | own u k ih => exact fun hb s => ih s (hb s)
  | ask q k ih => exact fun hb => ⟨h q hb.1, fun o => ih o (hb.2 o)⟩

theorem asks_closed (P : Req D → Prop) : Closed (AsksOnly P) fun k => ∀ o, AsksOnly P (k o) :=
  ⟨fun _ h => h, fun _ _ s h => h s, fun _ _ h => h.2, fun _ a h => h a⟩

theorem asks_mode (P : Req D → Prop) (c : Bool) (k : Bool → CBody D) (h : ∀ b, AsksOnly P (k b)) : AsksOnly P (mode c k) := by
  unfold mode
  split
  · exact fun s => h _
  · exact h _

theorem asks_give {T : Type} (P : Req D → Prop) (f : T → Val D) (t : Option T) : AsksOnly P (give f t) := by cases t <;> trivial

theorem asks_body (api : Api D) : AsksOnly (· = question api) (body api) := by
  cases api with
  | init info caps =>
    refine fun _ => ⟨rfl, fun o => ?_⟩
    cases o with
    | resp r =>
      dsimp only
      split
      · exact fun _ => trivial
      · trivial
    | threw => trivial
    | nul => trivial
  | callTool name args => exact ⟨rfl, fun o => trivial⟩
  | getPrompt name args => exact ⟨rfl, fun o => trivial⟩
  | readResource uri => exact ⟨rfl, fun o => trivial⟩
  | readRange uri off len => exact ⟨by cases off <;> cases len <;> rfl, fun o => trivial⟩
  | subscribe uri => exact ⟨by cases uri <;> rfl, fun o => trivial⟩
  | unsubscribe uri => exact ⟨by cases uri <;> rfl, fun o => trivial⟩
  | complete a => exact ⟨by obtain ⟨r, n, v, c⟩ := a; cases c <;> rfl, fun o => asks_mode _ _ _ fun b => asks_give _ _ _⟩
  | ping =>
    refine ⟨rfl, fun o => asks_mode _ _ _ fun b => ?_⟩
    split <;> trivial
  | callToolTask name args ttl =>
    refine ⟨by cases ttl <;> rfl, fun o => asks_mode _ _ _ fun b => ?_⟩
    split
    · trivial
    · exact fun _ => trivial
  | getTask id => exact ⟨rfl, fun o => asks_mode _ _ _ fun b => asks_give _ _ _⟩
  | cancelTask id => exact ⟨rfl, fun o => asks_mode _ _ _ fun b => asks_give _ _ _⟩
  | taskResult id =>
    refine ⟨rfl, fun o => ?_⟩
    dsimp only
    split
    · exact fun _ => fun _ => asks_give _ _ _
    · exact asks_give _ _ _
  | listTasks => exact ⟨rfl, fun o => asks_mode _ _ _ fun b => asks_give _ _ _⟩
  | listTasksPaged c l => exact ⟨by rw [pageParams_eq]; rfl, fun o => asks_mode _ _ _ fun b => asks_give _ _ _⟩
  | list k =>
    intro s
    dsimp only
    split
    · trivial
    · refine ⟨by cases k <;> rfl, fun o => asks_mode _ _ _ fun b => ?_⟩
      split
      · trivial
      · exact fun _ => trivial
  | listPaged k c l => exact ⟨by rw [pageParams_eq]; cases k <;> rfl, fun o => asks_mode _ _ _ fun b => asks_give _ _ _⟩

theorem question_method (api : Api D) : PlainText (question api).method ∧ (question api).method ≠ [] := by
  have key : ∀ m ∈ [lit "initialize", lit "tools/call", lit "prompts/get", lit "resources/read", lit "resources/subscribe", lit "resources/unsubscribe",
      lit "completion/complete", lit "ping", lit "tasks/get", lit "tasks/cancel", lit "tasks/result", lit "tasks/list", lit "tools/list",
      lit "resources/list", lit "resources/templates/list", lit "prompts/list"], (∀ x ∈ m, x ≠ '"' ∧ x ≠ '\\') ∧ m ≠ [] := by decide
  refine key _ ?_
  cases api with
  | init info caps => simp [question]
  | callTool name args => simp [question]
  | getPrompt name args => simp [question]
  | readResource uri => simp [question]
  | readRange uri off len => cases off <;> cases len <;> simp [question]
  | subscribe uri => cases uri <;> simp [question]
  | unsubscribe uri => cases uri <;> simp [question]
  | complete a => obtain ⟨r, n, v, c⟩ := a; cases c <;> simp [question]
  | ping => simp [question]
  | callToolTask name args ttl => cases ttl <;> simp [question]
  | getTask id => simp [question]
  | cancelTask id => simp [question]
  | taskResult id => simp [question]
  | listTasks => simp [question]
  | listTasksPaged c l => simp [question]
  | list k => cases k <;> simp [question]
  | listPaged k c l => cases k <;> simp [question]

theorem asRequest_plain {api : Api D} (h : ∀ v, (question api).params = some v → v.Wire) : PlainReq (asRequest (question api)) :=
  ⟨fun _ hx => (nomatch hx), (question_method api).1, (question_method api).2, h⟩

/-- What a call is about to send survives the wire format. -/
theorem asking_plain {c : Cfg D} {s0 : Self D} {srv : Srv D H} {ops : List (Op D H)}
    (hc : ∀ api, Op.call api ∈ ops → ∀ v, (question api).params = some v → v.Wire) {i : Nat} {q : Req D}
    (h : asking ((World.init s0 srv).run c ops).client i = some q) : PlainReq (asRequest q) := by
  obtain ⟨cops, h1, h2, -⟩ := client_run c s0 srv ops
  have hst := stHas_run (asks_closed fun q : Req D => PlainReq (asRequest q)) s0 cops (fun b hb => by
    obtain ⟨api, rfl, h4⟩ := h2 b hb
    exact (asks_body api).mono fun q hq => by rw [hq]; exact asRequest_plain (hc api h4))
  rw [h1] at h
  unfold asking at h
  split at h
  · rename_i x hx
    split at h
    · rename_i q0 k hs
      cases h
      have := hst i x hx
      rw [hs] at this
      exact this.1
    · cases h
  · cases h

/-! ### Plain traffic stays plain, and requests and answers are on their way -/

theorem Carried.prefix {c : Cfg D} {w : World D H} {ops : List (Op D H)} {op : Op D H} (h : Carried c w (ops ++ [op])) : Carried c w ops :=
  ⟨h.handlers, fun api ha => h.calls api (List.mem_append_left _ ha), fun y o ho => h.wires y o (List.mem_append_left _ ho),
    fun p q env σ r hd => h.answers p q env σ r (hd.more op), fun u hu => h.mode u (List.mem_append_left _ hu)⟩

theorem duplex_plain {c : Cfg D} (h : ∀ q, PlainProg (c.handler q)) : ∀ y q, PlainProg (c.duplex.handler y q) := by
  intro y q
  cases y with
  | false => exact h q
  | true => exact trivial

theorem plain_primed {s : Pair D} (hp : PlainPair s) {j : Duplex.Job D} (hj : s.b.job = some j) {o : HandlerOutcome D} (ho : PlainAnswer o) : PlainPair (primed s j o) := by
  intro y
  cases y with
  | false => exact hp false
  | true =>
    have h := hp true
    refine ⟨h.given, h.notes, fun j' hj' => ?_, h.replies⟩
    cases hj'
    exact ⟨(h.job j hj).1, ho⟩

theorem flow_primed {s : Pair D} (y : Bool) (hf : Flow (s.get y)) (j : Duplex.Job D) (o : HandlerOutcome D) : Flow ((primed s j o).get y) := by
  cases y <;> exact ⟨hf.keys, hf.asked, hf.said, hf.done⟩

/-- What a plain execution does to the transports, one step at a time. -/
inductive PlainMove (c : Duplex.Cfg D) (s : Pair D) : Pair D → Prop
  | stay : PlainMove c s s
  | wire (x : Bool × EndOp D) (h : PlainStep x) : PlainMove c s (s.step c x)
  | reply (j : Duplex.Job D) (o : HandlerOutcome D) (h : s.b.job = some j) (ho : PlainAnswer o) : PlainMove c s ((primed s j o).step c (true, .work false))

theorem plain_move {c : Cfg D} {s0 : Self D} {srv : Srv D H} {ops : List (Op D H)} {op : Op D H} (hc : Carried c (World.init s0 srv) (ops ++ [op])) :
    PlainMove c.duplex ((World.init s0 srv).run c ops).pair (((World.init s0 srv).run c ops).step c op).pair := by
  cases op with
  | call api => exact .stay
  | go i =>
    simp only [World.step, World.go]
    split
    · rename_i q hq
      split
      · exact .wire (false, .check (asRequest q)) (asking_plain hc.prefix.calls hq)
      · exact .stay
    · exact .stay
  | drop i => exact .stay
  | change u => exact .stay
  | deliver n =>
    simp only [World.step, World.deliver]
    split
    · split <;> exact .stay
    · exact .stay
  | wire y op =>
    simp only [World.step]
    split
    · exact .stay
    · exact .wire (y, op) (hc.wires y op (by simp))
  | serve env =>
    simp only [World.step, World.serve]
    split
    · exact .stay
    · rename_i hd
      split
      · exact .stay
      · rename_i j hj
        split
        · rename_i r hr
          have ho : PlainAnswer (.resp r) := hc.answers _ j.req env _ r (dispatched_last hj (by simpa using hd) hr)
          have := PlainMove.reply (c := c.duplex) (s := ((World.init s0 srv).run c ops).pair) j (.resp r) hj ho
          simpa only [answer, hj, primed, Pair.step, Pair.set, Pair.get, End.step] using this
        · exact .stay
        · exact .stay
  | own op => cases op <;> simp only [World.step] <;> (try split) <;> exact .stay

theorem plain_world (c : Cfg D) (s0 : Self D) (srv : Srv D H) (ops : List (Op D H)) (hc : Carried c (World.init s0 srv) ops) :
    PlainPair ((World.init s0 srv).run c ops).pair := by
  induction ops using snoc_induction with
  | h0 => exact plain_init
  | h1 ops op ih =>
    rw [run_snoc]
    have hg := good_world c s0 srv ops
    have hp := ih hc.prefix
    have hm := plain_move hc
    generalize (((World.init s0 srv).run c ops).step c op).pair = t at hm ⊢
    cases hm with
    | stay => exact hp
    | wire x h => exact plain_step (duplex_plain hc.handlers) hg hp x h
    | reply j o h ho => exact plain_step (duplex_plain hc.handlers) (good_primed hg h o) (plain_primed hp h ho) _ trivial

theorem flow_pair_step {c : Duplex.Cfg D} (hh : ∀ y q, PlainProg (c.handler y q)) {s : Pair D} (hg : Good s) (hp : PlainPair s) (y : Bool) (hf : Flow (s.get y))
    (x : Bool × EndOp D) (hx : PlainStep x) (ho : OwnTexts (((s.step c x).get y).given.map (·.id))) : Flow ((s.step c x).get y) := by
  obtain ⟨z, op⟩ := x
  rw [step_get] at ho ⊢
  split
  · rename_i hz
    subst hz
    rw [if_pos rfl] at ho
    exact flow_own hh hg hp z hf op hx ho
  · exact hf

theorem given_world (c : Cfg D) (w : World D H) (y : Bool) (ops more : List (Op D H)) :
    ((w.run c ops).pair.get y).given <+: ((w.run c (ops ++ more)).pair.get y).given := by
  induction more using snoc_induction with
  | h0 => rw [List.append_nil]; exact List.prefix_rfl
  | h1 more op ih => rw [← List.append_assoc, run_snoc]; exact ih.trans (grows_move (pair_step c _ op) y).given

theorem flow_world (c : Cfg D) (s0 : Self D) (srv : Srv D H) (y : Bool) (ops : List (Op D H)) (hc : Carried c (World.init s0 srv) ops)
    (ho : OwnTexts ((((World.init s0 srv).run c ops).pair.get y).given.map (·.id))) : Flow (((World.init s0 srv).run c ops).pair.get y) := by
  induction ops using snoc_induction with
  | h0 => cases y <;> exact flow_init
  | h1 ops op ih =>
    have ho' := ownTexts_prefix ((given_world c (World.init s0 srv) y ops [op]).map (·.id)) ho
    rw [run_snoc] at ho ⊢
    have hg := good_world c s0 srv ops
    have hp := plain_world c s0 srv ops hc.prefix
    have hf := ih hc.prefix ho'
    have hm := plain_move hc
    generalize (((World.init s0 srv).run c ops).step c op).pair = t at hm ho ⊢
    cases hm with
    | stay => exact hf
    | wire x h => exact flow_pair_step (duplex_plain hc.handlers) hg hp y hf x h ho
    | reply j o h ho' => exact flow_pair_step (duplex_plain hc.handlers) (good_primed hg h o) (plain_primed hp h ho') y (flow_primed y hf j o) _ trivial ho

/-! ### The claims -/

/-- If no two requests are filed under one key, no promise is overwritten. -/
theorem unbroken {e : End D} {w : W} (hb : Base e w) (ho : OwnTexts (e.given.map (·.id))) (n : Nat) : (n, Outcome.broken) ∉ e.p.outcomes := by
  obtain ⟨pops, hh⟩ := hb.hist
  have ho' : OwnTexts (reqIds pops) := by rw [hh.ids]; exact ho
  rw [hh.run]
  refine C13_no_broken_partial pops (fun pre fut now post id h hw => ?_) n
  have hpre : reqIds (pre ++ [POp.sendInsert fut now]) <+: reqIds pops := by
    rw [h, show pre ++ POp.sendInsert fut now :: post = (pre ++ [POp.sendInsert fut now]) ++ post by simp]
    exact ⟨_, List.filterMap_append.symm⟩
  have hk := (Duplex.keyed_run _ (ownTexts_prefix hpre ho')).nodup
  rw [Duplex.run_snoc] at hk
  have hinv : ((P.init : P D).run pre).Inv := Stdio.inv_run _ inv_init
  generalize (P.init : P D).run pre = s at *
  simp only [P.step, P.sendInsert, hw, List.map_append, List.map_cons, List.map_nil] at hk
  cases hg : AMap.get s.pending (chooseKey id s.counter).1 with
  | none => rfl
  | some m =>
    obtain ⟨dl, h1, -⟩ := hinv.pend _ m (AMap.get_some_mem hg)
    exact absurd rfl ((List.nodup_append.1 hk).2.2 _ (List.mem_map_of_mem (f := fun x => x.2.1) h1) _ (List.mem_singleton.2 rfl))

theorem unanswered_seen {so : Stdio.Outcome D} (h : ∀ r, so ≠ .response r) (hb : so ≠ .broken) : Unanswered (seen so) := by
  cases so with
  | response r => exact absurd rfl (h r)
  | timeout id t => exact ⟨_, _, by simp, rfl⟩
  | closed id => exact ⟨_, _, by simp, rfl⟩
  | notConnected => exact ⟨_, _, by simp, rfl⟩
  | broken => exact absurd rfl hb

/-- What became of call `i`: the request the server dispatched for it was filed under its future. -/
theorem result_of (c : Cfg D) (s0 : Self D) (srv : Srv D H) (ops : List (Op D H)) (hc : Carried c (World.init s0 srv) ops)
    (ho : OwnTexts (((World.init s0 srv).run c ops).pair.a.given.map (·.id))) (i : Nat) (x : CCall D) (api : Api D) (res : Option (Val D))
    (hx : ((World.init s0 srv).run c ops).client.calls[i]? = some x) (hprog : x.prog = body api) (hst : x.st = .over res) :
    (∃ k d s', api = .list k ∧ Ev.saw s' ∈ x.path ∧ s'.cache.hit k = some d ∧ res = some (.items d)) ∨
    (∃ o kind, Unanswered o ∧ res = says s0.strict kind api o) ∨
    ∃ p id env σ r kind, DispatchedAt c (World.init s0 srv) ops p ⟨id, (question api).method, (question api).params⟩ env σ r ∧
      res = says s0.strict kind api (.resp ⟨id, r.result, r.error⟩) ∧
      (∀ t, api = .taskResult t → r.error = none → r.result ≠ none → ∃ s', Ev.saw s' ∈ x.path ∧ kind = s'.kinds t) ∧
      ∃ n m dl, sentOf x.path = [n] ∧ ((World.init s0 srv).run c ops).futs[n]? = some m ∧ (m, idText id, dl) ∈ ((World.init s0 srv).run c ops).pair.a.p.sent := by
  obtain ⟨cops, h1, h2, h3⟩ := client_run c s0 srv ops
  have hcalm : ∀ op ∈ cops, Calm op := by
    intro op hop
    cases op with
    | call b => obtain ⟨api, h4, -⟩ := h2 b hop; exact ⟨api, h4⟩
    | change u => exact hc.mode u (h3 u hop)
    | _ => trivial
  have hx' := hx
  rw [h1] at hx'
  rcases C102_outcome s0 cops hcalm i x hx' api hprog res hst with ⟨k, d, s', h4, h5, h6, -, h7⟩ | ⟨n, o, kind, h4, h5, h6, h7, hk, -⟩
  · exact .inl ⟨k, d, s', h4, h5, h6, h7⟩
  · have hl := link_world c s0 srv ops
    obtain ⟨m, h8, h9⟩ := hl.sent i x n _ hx h5
    obtain ⟨m', so, h10, h11, h12⟩ := hl.cell n o (by rw [h1]; exact h6)
    rw [h8] at h10
    cases h10
    by_cases hr : ∃ r, so = .response r
    · obtain ⟨r, rfl⟩ := hr
      obtain ⟨g, q, out, h13, h14, h15, h16, dl, hsent⟩ := answer_of (good_world c s0 srv ops) (plain_world c s0 srv ops hc) false ho (AMap.get_some_mem h11)
      rw [show (((World.init s0 srv).run c ops).pair.get false).given[m]? = some (asRequest (question api)) from h9] at h13
      cases h13
      obtain ⟨p, env, σ, r', rfl, h17⟩ := replies_world c s0 srv ops q out h15
      obtain ⟨h18, h19, h20⟩ := h16
      have hq : (⟨q.id, (question api).method, (question api).params⟩ : Request D) = q := by
        obtain ⟨a, b, d⟩ := q
        obtain ⟨e1, e2, -⟩ := h14
        simp only [asRequest] at e1 e2
        rw [e1, e2]
      refine .inr (.inr ⟨p, q.id, env, σ, r', kind, by rw [hq]; exact h17, ?_, fun t ht he hres => hk t ht ?_, n, m, dl, h4, h8, hsent⟩)
      · rw [h7, h12, ← h18, ← h19, ← h20]; rfl
      · rw [h12]
        show (r.error.isNone && r.result.isSome) = true
        rw [h19, h20, he]
        cases hres' : r'.result with
        | none => exact absurd hres' hres
        | some v => rfl
    · exact .inr (.inl ⟨o, kind, by rw [h12]; exact unanswered_seen (fun r h => hr ⟨r, h⟩) (fun hb => unbroken (good_world c s0 srv ops false) ho m (AMap.get_some_mem (hb ▸ h11))), h7⟩)

/-- C115, partial. A call of the client that has given its result is a listing served from the cache, or it was told by its transport, with an error, that there is no
answer, or the server dispatched a request with the method and the parameters of this call, in some state it went through, and the result is what
the call makes of that answer; and this dispatch was for this call alone. Missing: traffic the wire format does not carry (C04 to C06, C15), and users of the
transport that give two requests one id (C13). -/
theorem C115_result_partial (c : Cfg D) (s0 : Self D) (srv : Srv D H) (ops : List (Op D H)) (hc : Carried c (World.init s0 srv) ops) :
    let w := (World.init s0 srv).run c ops
    OwnTexts (w.pair.a.given.map (·.id)) →
      ∃ place : Nat → Nat → Prop, (∀ i j p, place i p → place j p → i = j) ∧
        ∀ (i : Nat) (x : CCall D) (api : Api D) (res : Option (Val D)), w.client.calls[i]? = some x → x.prog = body api → x.st = .over res →
          (∃ k d s', api = .list k ∧ Ev.saw s' ∈ x.path ∧ s'.cache.hit k = some d ∧ res = some (.items d)) ∨
          (∃ o kind, Unanswered o ∧ res = says s0.strict kind api o) ∨
          ∃ p id env σ r kind, place i p ∧ DispatchedAt c (World.init s0 srv) ops p ⟨id, (question api).method, (question api).params⟩ env σ r ∧
            res = says s0.strict kind api (.resp ⟨id, r.result, r.error⟩) ∧
            (∀ t, api = .taskResult t → r.error = none → r.result ≠ none → ∃ s', Ev.saw s' ∈ x.path ∧ kind = s'.kinds t) := by
  intro w ho
  refine ⟨fun i p => ∃ (x : CCall D) (n m : Nat) (j : Duplex.Job D) (dl : Nat), w.client.calls[i]? = some x ∧ sentOf x.path = [n] ∧ w.futs[n]? = some m ∧
    ((World.init s0 srv).run c (ops.take p)).pair.b.job = some j ∧ (m, idText j.req.id, dl) ∈ w.pair.a.p.sent, ?_, ?_⟩
  · rintro i j p ⟨x, n, m, jb, dl, h1, h2, h3, h4, h5⟩ ⟨x', n', m', jb', dl', h1', h2', h3', h4', h5'⟩
    rw [h4] at h4'
    cases h4'
    have hmm : m = m' := key_fun ((good_world c s0 srv ops false).keyed ho) h5 h5'
    subst hmm
    have hnn : n = n' := by
      have hf := (futs_world c s0 srv ops).1
      exact (List.getElem?_inj (lt_of_get h3) hf).1 (h3.trans h3'.symm)
    subst hnn
    obtain ⟨cops, g1, -, -⟩ := client_run c s0 srv ops
    have hinv := inv_run s0 cops
    rw [show w.client = _ from g1] at h1 h1'
    exact flat_nodup (hinv.perm.nodup_iff.2 List.nodup_range) h1' h1 (c := n) (by rw [h2']; simp) (by rw [h2]; simp)
  · intro i x api res hx hprog hst
    rcases result_of c s0 srv ops hc ho i x api res hx hprog hst with h | h | ⟨p, id, env, σ, r, kind, h1, h2, h3, n, m, dl, h4, h5, h6⟩
    · exact .inl h
    · exact .inr (.inl h)
    · obtain ⟨j, hj, hq⟩ := h1.2.1
      refine .inr (.inr ⟨p, id, env, σ, r, kind, ⟨x, n, m, j, dl, hx, h4, h5, hj, ?_⟩, h1, h2, h3⟩)
      rw [hq]; exact h6

/-- One future is filed under one key. -/
theorem sent_key {l : List (Nat × Bytes × Nat)} (hn : (l.map (·.1)).Nodup) {n : Nat} {k k' : Bytes} {d d' : Nat} (h1 : (n, k, d) ∈ l) (h2 : (n, k', d') ∈ l) :
    k = k' := by
  induction l with
  | nil => cases h1
  | cons a l ih =>
    simp only [List.map_cons, List.nodup_cons] at hn
    rcases List.mem_cons.1 h1 with g1 | g1 <;> rcases List.mem_cons.1 h2 with g2 | g2
    · subst g1; cases g2; rfl
    · subst g1; exact absurd (List.mem_map_of_mem (f := (·.1)) g2) hn.1
    · subst g2; exact absurd (List.mem_map_of_mem (f := (·.1)) g1) hn.1
    · exact ih hn.2 g1 g2

/-- C115, partial. Every use the server made of a tool was asked for by a request of the client's side, with that name and these arguments, and no request
was used twice. Missing: as for `C115_result_partial`. -/
theorem C115_once_partial (c : Cfg D) (s0 : Self D) (srv : Srv D H) (ops : List (Op D H)) (hc : Carried c (World.init s0 srv) ops) :
    let w := (World.init s0 srv).run c ops
    OwnTexts (w.pair.a.given.map (·.id)) →
      ∃ L : List (Run D × Nat), w.srv.runs = srv.runs ++ L.map (·.1) ∧ (L.map (·.2)).Nodup ∧
        ∀ run n, (run, n) ∈ L → ∃ g, w.pair.a.given[n]? = some g ∧ RunFor run g := by
  intro w ho
  obtain ⟨L, h1, h2, h3⟩ := runs_world c s0 srv ops
  have hg : Good w.pair := good_world c s0 srv ops
  have hpl : PlainPair w.pair := plain_world c s0 srv ops hc
  have hsub : (L.map (·.2)).Sublist (w.pair.b.replies.map (·.1) ++ (w.pair.b.job.map (·.req)).toList) := by
    refine h3.trans ?_
    split
    · exact List.Sublist.refl _
    · exact (List.append_sublist_append_left _).2 (List.nil_sublist _)
  obtain ⟨hn, -⟩ := once_of hg hpl true (flow_world c s0 srv false ops hc ho)
  have hnod : ((L.map (·.2)).map (fun q => idText q.id)).Nodup := (hsub.map _).nodup hn
  have hown : ∀ e : Run D × Request D, ∃ n, e ∈ L → ∃ dl q0, (n, idText e.2.id, dl) ∈ w.pair.a.p.sent ∧ w.pair.a.given[n]? = some q0 ∧ ArrivesAs q0 e.2 := by
    intro e
    by_cases he : e ∈ L
    · have hq : e.2 ∈ requestsIn (w.pair.get true).taken := by
        rw [(hg true).jobs]
        exact hsub.subset (List.mem_map_of_mem he)
      obtain ⟨n, k, dl, q0, g1, g2, g3, g4⟩ := taken_request hg hpl hq
      exact ⟨n, fun _ => ⟨dl, q0, by rw [g3]; exact g1, g2, g4⟩⟩
    · exact ⟨0, fun h => absurd h he⟩
  obtain ⟨own, hown⟩ := Classical.axiomOfChoice hown
  refine ⟨L.map fun e => (e.1, own e), by rw [List.map_map]; exact h1, ?_, fun run n hm => ?_⟩
  · rw [List.map_map]
    rw [List.map_map] at hnod
    refine List.pairwise_map.2 ?_
    refine (List.pairwise_map.1 hnod).imp_of_mem fun {a b} ha hb hab => fun he => hab ?_
    obtain ⟨dl, q0, g1, -, -⟩ := hown a ha
    obtain ⟨dl', q0', g1', -, -⟩ := hown b hb
    simp only [Function.comp] at he
    rw [he] at g1
    exact sent_key (hg false).pinv.sentFun g1 g1'
  · obtain ⟨e, he, heq⟩ := List.mem_map.1 hm
    cases heq
    obtain ⟨dl, q0, -, g2, g3, g4, -⟩ := hown e he
    obtain ⟨g5, g6⟩ := h2 e he
    exact ⟨q0, g2, by rw [← g3]; exact g5, by rw [← g4]; exact g6⟩

/-! ### Tools and prompts -/

/-- An error object, or the null a call gives when its future threw. -/
def NoValue (v : JVal D) : Prop := v = .null ∨ isErrorObject v = true

theorem unanswered_value {o : Client.Outcome D} (h : Unanswered o) : isErrorObject (replyValue o) = true := by
  obtain ⟨id, text, -, rfl⟩ := h
  rfl

theorem error_mk (code : Int) (msg : Bytes) : isErrorObject (mkErrorObj code msg none : JVal D) = true := rfl

theorem afterwards_cases (b : Bool) (id : RpcId) (o : Out D) (r : Response D) (h : afterwards b id o = .answer r) :
    (b = true ∧ r = ⟨id, none, some (mkErrorObj Code.internalError (lit "Cancelled") none)⟩) ∨ (b = false ∧ o = .answer r) := by
  cases o with
  | answer r' =>
    cases b with
    | true => left; simp only [afterwards, if_true, failed] at h; cases h; exact ⟨rfl, rfl⟩
    | false => right; exact ⟨rfl, by simpa [afterwards] using h⟩
  | blocked => cases h
  | escaped => cases h

/-- The answer of the server to a synchronous call of a tool: an error, or what the handler returned for these arguments. -/
theorem answer_tool (env : Env D H) (s : Srv D H) (id : RpcId) (name : Bytes) (args : JVal D) (r : Response D)
    (h : (dispatch env s ⟨id, lit "tools/call", some (callParams name args)⟩).1 = .answer r) :
    (r.result = none ∧ ∃ code msg, r.error = some (mkErrorObj code msg none)) ∨
    ∃ hd res, AMap.get s.reg.toolHandlers name = some hd ∧ env.callable hd = true ∧ env.tool hd args = .ret res ∧
      r.result = some (toolResultJson res) ∧ r.error = none := by
  rw [dispatch_toolsCall _ _ _ rfl] at h
  rcases afterwards_cases _ _ _ _ h with ⟨-, rfl⟩ | ⟨-, h⟩
  · exact .inl ⟨rfl, _, _, rfl⟩
  · by_cases hn : name = []
    · subst hn; cases h; exact .inl ⟨rfl, _, _, rfl⟩
    simp only [toolsCall, nameOf_call, argsOf_call, taskMeta_call, hn, if_false] at h
    cases hh : AMap.get s.reg.toolHandlers name with
    | none => rw [hh] at h; cases h; exact .inl ⟨rfl, _, _, rfl⟩
    | some hd =>
      rw [hh] at h
      cases hcall : env.callable hd with
      | false => simp only [hcall] at h; cases h; exact .inl ⟨rfl, _, _, rfl⟩
      | true =>
        simp only [hcall, if_true] at h
        have key : toolSync env s.strict id hd args = .answer r → (r.result = none ∧ ∃ code msg, r.error = some (mkErrorObj code msg none)) ∨
            ∃ res, env.tool hd args = .ret res ∧ r.result = some (toolResultJson res) ∧ r.error = none := by
          intro h
          simp only [toolSync] at h
          split at h
          · cases h
          · cases h
          · cases h; exact .inl ⟨rfl, _, _, rfl⟩
          · rename_i res hres
            split at h
            · cases h; exact .inl ⟨rfl, _, _, rfl⟩
            · simp only [checked] at h
              split at h
              · cases h; exact .inl ⟨rfl, _, _, rfl⟩
              · cases h; exact .inr ⟨res, hres, rfl, rfl⟩
        cases hs : supportOf (AMap.get s.reg.toolMeta name) with
        | required => rw [hs] at h; cases h; exact .inl ⟨rfl, _, _, rfl⟩
        | _ =>
          rw [hs] at h
          rcases key h with h1 | ⟨res, h1, h2⟩
          · exact .inl h1
          · exact .inr ⟨hd, res, rfl, hcall, h1, h2⟩

/-- The answer of the server to `prompts/get`: an error, or what the handler returned for these arguments. -/
theorem answer_prompt (env : Env D H) (s : Srv D H) (id : RpcId) (name : Bytes) (args : JVal D) (r : Response D)
    (h : (dispatch env s ⟨id, lit "prompts/get", some (callParams name args)⟩).1 = .answer r) :
    (r.result = none ∧ ∃ code msg, r.error = some (mkErrorObj code msg none)) ∨
    ∃ hd d ms, AMap.get s.reg.promptHandlers name = some hd ∧ env.prompt hd args = .ret (d, ms) ∧
      r.result = some (.obj [(lit "description", .str d), (lit "messages", .arr ms)]) ∧ r.error = none := by
  cases hc : env.cancelled0 with
  | true =>
    unfold dispatch at h
    simp only at h
    rw [if_neg (by decide), if_neg (by decide), if_neg (by decide), if_neg (by decide), if_neg (by decide), if_neg (by decide), if_neg (by decide),
      if_neg (by decide), if_neg (by decide), if_neg (by decide), if_neg (by decide), if_neg (by decide), if_neg (by decide), if_neg (by decide),
      if_neg (by decide), if_neg (by decide), if_neg (by decide), if_pos trivial, hc] at h
    cases h; exact .inl ⟨rfl, _, _, rfl⟩
  | false =>
    rw [dispatch_prompt _ _ _ rfl hc] at h
    rcases afterwards_cases _ _ _ _ h with ⟨-, rfl⟩ | ⟨-, h⟩
    · exact .inl ⟨rfl, _, _, rfl⟩
    · simp only [promptsGet, nameOf_call, argsOf_call] at h
      split at h
      · cases h; exact .inl ⟨rfl, _, _, rfl⟩
      · rename_i hd hh
        split at h
        · cases h
        · cases h
        · cases h; exact .inl ⟨rfl, _, _, rfl⟩
        · rename_i res hres
          split at h
          · cases h; exact .inl ⟨rfl, _, _, rfl⟩
          · cases h; exact .inr ⟨hd, res.1, res.2, hh, hres, rfl, rfl⟩

theorem error_value {id : RpcId} {r : Response D} (h : r.result = none ∧ ∃ code msg, r.error = some (mkErrorObj code msg none)) :
    isErrorObject (replyValue (.resp ⟨id, r.result, r.error⟩)) = true := by
  obtain ⟨h1, code, msg, h2⟩ := h
  rw [h1, h2]
  exact error_mk code msg

/-- C115, partial. `CallTool` over the wire gives a value that is not an error only if the server had a handler under this name at some moment and this
handler returned, for exactly these arguments, exactly the content, the error flag, the structured content and the metadata that the value has. Missing: as
for `C115_result_partial`. -/
theorem C115_tool_partial (c : Cfg D) (s0 : Self D) (srv : Srv D H) (ops : List (Op D H)) (hc : Carried c (World.init s0 srv) ops) :
    let w := (World.init s0 srv).run c ops
    OwnTexts (w.pair.a.given.map (·.id)) → ∀ (i : Nat) (x : CCall D) (name : Bytes) (args : JVal D) (res : Option (Val D)),
      w.client.calls[i]? = some x → x.prog = body (.callTool name args) → x.st = .over res →
        ∃ v, res = some (.json v) ∧ (isErrorObject v = true ∨
          ∃ p env h t, ops[p]? = some (.serve env) ∧ AMap.get ((World.init s0 srv).run c (ops.take p)).srv.reg.toolHandlers name = some h ∧
            env.tool h args = .ret t ∧ v.get? (lit "content") = some (.arr t.content) ∧ v.get? (lit "isError") = some (.bool t.isError) ∧
            v.get? (lit "structuredContent") = t.structured ∧ v.get? (lit "_meta") = t.meta_) := by
  intro w ho i x name args res hx hprog hst
  rcases result_of c s0 srv ops hc ho i x _ res hx hprog hst with ⟨k, d, s', h, -⟩ | ⟨o, kind, h1, h2⟩ | ⟨p, id, env, σ, r, kind, h1, h2, -⟩
  · cases h
  · exact ⟨_, h2, .inl (unanswered_value h1)⟩
  · refine ⟨_, h2, ?_⟩
    obtain ⟨g1, -, g3, -, g5⟩ := h1
    rcases answer_tool env σ id name args r g5 with h | ⟨hd, t, k1, -, k3, k4, k5⟩
    · exact .inl (error_value h)
    · refine .inr ⟨p, env, hd, t, g1, by rw [g3]; exact k1, k3, ?_⟩
      obtain ⟨f1, f2, f3, f4, -⟩ := toolResult_get t
      rw [k4]
      exact ⟨f1, f2, f3, f4⟩

/-- C115, partial. `GetPrompt` over the wire gives a value that is not an error only if the handler the server had under this name at some moment returned,
for exactly these arguments, exactly this description and these messages. Missing: as for `C115_result_partial`. -/
theorem C115_prompt_partial (c : Cfg D) (s0 : Self D) (srv : Srv D H) (ops : List (Op D H)) (hc : Carried c (World.init s0 srv) ops) :
    let w := (World.init s0 srv).run c ops
    OwnTexts (w.pair.a.given.map (·.id)) → ∀ (i : Nat) (x : CCall D) (name : Bytes) (args : JVal D) (res : Option (Val D)),
      w.client.calls[i]? = some x → x.prog = body (.getPrompt name args) → x.st = .over res →
        ∃ v, res = some (.json v) ∧ (isErrorObject v = true ∨
          ∃ p env h d ms, ops[p]? = some (.serve env) ∧ AMap.get ((World.init s0 srv).run c (ops.take p)).srv.reg.promptHandlers name = some h ∧
            env.prompt h args = .ret (d, ms) ∧ v = .obj [(lit "description", .str d), (lit "messages", .arr ms)]) := by
  intro w ho i x name args res hx hprog hst
  rcases result_of c s0 srv ops hc ho i x _ res hx hprog hst with ⟨k, d, s', h, -⟩ | ⟨o, kind, h1, h2⟩ | ⟨p, id, env, σ, r, kind, h1, h2, -⟩
  · cases h
  · exact ⟨_, h2, .inl (unanswered_value h1)⟩
  · refine ⟨_, h2, ?_⟩
    obtain ⟨g1, -, g3, -, g5⟩ := h1
    rcases answer_prompt env σ id name args r g5 with h | ⟨hd, d, ms, k1, k3, k4, k5⟩
    · exact .inl (error_value h)
    · exact .inr ⟨p, env, hd, d, ms, g1, by rw [g3]; exact k1, k3, by rw [k4]; rfl⟩

end Verif.Whole
