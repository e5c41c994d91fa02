import Verif.Pipe.Inv

/-!
C135: a call of the server to its client over standard input and output gives what the client answered to it, and the client handles each request once at the most.
-/

namespace Verif.Pipe

open Verif.Await Verif.Client Verif.Server Verif.Duplex Verif.Stdio
open Verif.Serve (Prog)
open Verif.InMemory (PlainReq PlainNote)
open Verif.Whole (snoc_induction lt_of_get seen reserved answer primed good_primed duplex_plain given_next get_grows plain_primed flow_primed PlainMove flow_pair_step Unanswered unanswered_seen unbroken sent_key)
open Verif.Ask (asRequest asking once_sbody mem_sentOf asks_closed)

variable {D H : Type} [DblFmt D]

/-! ### Specification -/

/-- All that is sent in the execution survives the wire format (C04 to C06, C15), and nothing changes the transport of the server, its mode or what it knows of the client. -/
structure Carried (c : Cfg D) (w : World D H) (ops : List (Op D H)) : Prop where
  handlers : ∀ q, PlainProg (c.handler q)
  calls : ∀ api, Op.call api ∈ ops → PlainReq (asRequest (enquiry api))
  wires : ∀ y op, Op.wire y op ∈ ops → PlainStep (y, op)
  answers : ∀ p q env σ r, DispatchedAt c w ops p q env σ r → PlainAnswer (.resp r)
  still : ∀ u, Op.change u ∈ ops → ∀ s, (u s).transport = s.transport ∧ (u s).caps = s.caps ∧ (u s).strict = s.strict

/-! ### The requests of the calls -/

/-- What a call is about to send survives the wire format. -/
theorem asking_plain {c : Cfg D} {s0 : SSelf D} {cli : Cli D H} {ops : List (Op D H)}
    (hc : ∀ api, Op.call api ∈ ops → PlainReq (asRequest (enquiry api))) {i : Nat} {q : SReq D}
    (h : asking ((World.init s0 cli).run c ops).server i = some q) : PlainReq (asRequest q) := by
  obtain ⟨cops, h1, h2, -⟩ := server_run c s0 cli ops
  have hst := stHas_run (asks_closed fun q : SReq D => PlainReq (asRequest q)) s0 cops (fun b hb => by
    obtain ⟨api, rfl, h4⟩ := h2 b hb
    exact (once_sbody api).only.mono fun q hq => by rw [hq]; exact hc api h4)
  rw [h1] at h
  unfold asking at h
  split at h
  · rename_i x hx
    split at h
    · rename_i q0 k hs
      cases h
      have := hst i x hx
      rw [hs] at this
      exact this.1
    · cases h
  · cases h

/-! ### Plain traffic stays plain, and requests and answers are on their way -/

theorem Carried.prefix {c : Cfg D} {w : World D H} {ops : List (Op D H)} {op : Op D H} (h : Carried c w (ops ++ [op])) : Carried c w ops :=
  ⟨h.handlers, fun api ha => h.calls api (List.mem_append_left _ ha), fun y o ho => h.wires y o (List.mem_append_left _ ho),
    fun p q env σ r hd => h.answers p q env σ r (hd.more op), fun u hu => h.still u (List.mem_append_left _ hu)⟩

theorem plain_move {c : Cfg D} {s0 : SSelf D} {cli : Cli D H} {ops : List (Op D H)} {op : Op D H} (hc : Carried c (World.init s0 cli) (ops ++ [op])) :
    PlainMove c.duplex ((World.init s0 cli).run c ops).pair (((World.init s0 cli).run c ops).step c op).pair := by
  cases op with
  | call api => exact .stay
  | go i =>
    simp only [World.step, World.go]
    split
    · rename_i q hq
      split
      · exact .wire (false, .check (asRequest q)) (asking_plain hc.prefix.calls hq)
      · exact .stay
    · exact .stay
  | drop i => exact .stay
  | change u => exact .stay
  | deliver n =>
    simp only [World.step, World.deliver]
    split
    · split <;> exact .stay
    · exact .stay
  | wire y op =>
    simp only [World.step]
    split
    · exact .stay
    · exact .wire (y, op) (hc.wires y op (by simp))
  | serve env =>
    simp only [World.step, World.serve]
    split
    · exact .stay
    · rename_i hd
      split
      · exact .stay
      · rename_i j hj
        split
        · rename_i r hr
          have ho : PlainAnswer (.resp r) := hc.answers _ j.req env _ r (dispatched_last hj (by simpa using hd) hr)
          have := PlainMove.reply (c := c.duplex) (s := ((World.init s0 cli).run c ops).pair) j (.resp r) hj ho
          simpa only [answer, hj, primed, Pair.step, Pair.set, Pair.get, End.step] using this
        · exact .stay
        · exact .stay
  | own op => cases op <;> simp only [World.step] <;> (try split) <;> exact .stay

theorem plain_world (c : Cfg D) (s0 : SSelf D) (cli : Cli D H) (ops : List (Op D H)) (hc : Carried c (World.init s0 cli) ops) :
    PlainPair ((World.init s0 cli).run c ops).pair := by
  induction ops using snoc_induction with
  | h0 => exact plain_init
  | h1 ops op ih =>
    rw [run_snoc]
    have hg := good_world c s0 cli ops
    have hp := ih hc.prefix
    have hm := plain_move hc
    generalize (((World.init s0 cli).run c ops).step c op).pair = t at hm ⊢
    cases hm with
    | stay => exact hp
    | wire x h => exact plain_step (duplex_plain hc.handlers) hg hp x h
    | reply j o h ho => exact plain_step (duplex_plain hc.handlers) (good_primed hg h o) (plain_primed hp h ho) _ trivial

theorem given_world (c : Cfg D) (w : World D H) (y : Bool) (ops more : List (Op D H)) :
    ((w.run c ops).pair.get y).given <+: ((w.run c (ops ++ more)).pair.get y).given := by
  induction more using snoc_induction with
  | h0 => rw [List.append_nil]; exact List.prefix_rfl
  | h1 more op ih => rw [← List.append_assoc, run_snoc]; exact ih.trans (grows_move (pair_step c _ op) y).given

theorem flow_world (c : Cfg D) (s0 : SSelf D) (cli : Cli D H) (y : Bool) (ops : List (Op D H)) (hc : Carried c (World.init s0 cli) ops)
    (ho : OwnTexts ((((World.init s0 cli).run c ops).pair.get y).given.map (·.id))) : Flow (((World.init s0 cli).run c ops).pair.get y) := by
  induction ops using snoc_induction with
  | h0 => cases y <;> exact flow_init
  | h1 ops op ih =>
    have ho' := ownTexts_prefix ((given_world c (World.init s0 cli) y ops [op]).map (·.id)) ho
    rw [run_snoc] at ho ⊢
    have hg := good_world c s0 cli ops
    have hp := plain_world c s0 cli ops hc.prefix
    have hf := ih hc.prefix ho'
    have hm := plain_move hc
    generalize (((World.init s0 cli).run c ops).step c op).pair = t at hm ho ⊢
    cases hm with
    | stay => exact hf
    | wire x h => exact flow_pair_step (duplex_plain hc.handlers) hg hp y hf x h ho
    | reply j o h ho' => exact flow_pair_step (duplex_plain hc.handlers) (good_primed hg h o) (plain_primed hp h ho') y (flow_primed y hf j o) _ trivial ho

/-! ### The claims -/

/-- What became of call `i`: the request the client dispatched for it was filed under its future. -/
theorem result_of (c : Cfg D) (s0 : SSelf D) (cli : Cli D H) (ops : List (Op D H)) (hc : Carried c (World.init s0 cli) ops)
    (ho : OwnTexts (((World.init s0 cli).run c ops).pair.a.given.map (·.id))) (i : Nat) (x : SCall D) (api : SApi D) (res : SOut D)
    (hx : ((World.init s0 cli).run c ops).server.calls[i]? = some x) (hprog : x.prog = sbody api) (hst : x.st = .over res) :
    (declined s0.transport s0.caps s0.strict api = some res ∧ sentOf x.path = []) ∨
    (∃ o kind, Unanswered o ∧ res = reports s0.strict kind api o) ∨
    ∃ p id env σ r kind, DispatchedAt c (World.init s0 cli) ops p ⟨id, (enquiry api).method, (enquiry api).params⟩ env σ r ∧
      res = reports s0.strict kind api (.resp ⟨id, r.result, r.error⟩) ∧
      (∀ t, api = .taskResult t → r.error = none → r.result ≠ none → ∃ s', Ev.saw s' ∈ x.path ∧ kind = s'.kinds t) ∧
      ∃ n m dl, sentOf x.path = [n] ∧ ((World.init s0 cli).run c ops).futs[n]? = some m ∧ (m, idText id, dl) ∈ ((World.init s0 cli).run c ops).pair.a.p.sent := by
  obtain ⟨cops, h1, h2, h3⟩ := server_run c s0 cli ops
  have hcalm : ∀ op ∈ cops, Unaltered op := by
    intro op hop
    cases op with
    | call b => obtain ⟨api, h4, -⟩ := h2 b hop; exact ⟨api, h4⟩
    | change u => exact hc.still u (h3 u hop)
    | _ => trivial
  have hx' := hx
  rw [h1] at hx'
  rcases C113_outcome s0 cops hcalm i x hx' api hprog res hst with h | ⟨-, n, o, kind, h4, h5, h6, h7, hk, -⟩
  · exact .inl h
  · have hl := link_world c s0 cli ops
    obtain ⟨m, h8, h9⟩ := hl.sent i x n _ hx h5
    obtain ⟨m', so, h10, h11, h12⟩ := hl.cell n o (by rw [h1]; exact h6)
    rw [h8] at h10
    cases h10
    by_cases hr : ∃ r, so = .response r
    · obtain ⟨r, rfl⟩ := hr
      obtain ⟨g, q, out, h13, h14, h15, h16, dl, hsent⟩ := answer_of (good_world c s0 cli ops) (plain_world c s0 cli ops hc) false ho (AMap.get_some_mem h11)
      rw [show (((World.init s0 cli).run c ops).pair.get false).given[m]? = some (asRequest (enquiry api)) from h9] at h13
      cases h13
      obtain ⟨p, env, σ, r', rfl, h17⟩ := replies_world c s0 cli ops q out h15
      obtain ⟨h18, h19, h20⟩ := h16
      have hq : (⟨q.id, (enquiry api).method, (enquiry api).params⟩ : Request D) = q := by
        obtain ⟨a, b, d⟩ := q
        obtain ⟨e1, e2, -⟩ := h14
        simp only [asRequest] at e1 e2
        rw [e1, e2]
      refine .inr (.inr ⟨p, q.id, env, σ, r', kind, by rw [hq]; exact h17, ?_, fun t ht he hres => hk t ht ?_, n, m, dl, h4, h8, hsent⟩)
      · rw [h7, h12, ← h18, ← h19, ← h20]; rfl
      · rw [h12]
        show (r.error.isNone && r.result.isSome) = true
        rw [h19, h20, he]
        cases hres' : r'.result with
        | none => exact absurd hres' hres
        | some v => rfl
    · exact .inr (.inl ⟨o, kind, by rw [h12]; exact unanswered_seen (fun r h => hr ⟨r, h⟩) (fun hb => unbroken (good_world c s0 cli ops false) ho m (AMap.get_some_mem (hb ▸ h11))), h7⟩)

/-- C135, partial. A call of the server to its client over standard input and output that has given its result asked nothing and was declined for want of a transport, of a capability the
client announced or of well-formed parameters; or it was told by its transport that there is no answer; or the client handled a request with the method and the parameters of this call, in
some state it went through, and the result is what the call makes of that answer; and it was for this call alone that the client handled this request. Missing: traffic the wire format does
not carry (C04 to C06, C15), and users of the transport that give two requests one id (C13). -/
theorem C135_result_partial (c : Cfg D) (s0 : SSelf D) (cli : Cli D H) (ops : List (Op D H)) (hc : Carried c (World.init s0 cli) ops) :
    let w := (World.init s0 cli).run c ops
    OwnTexts (w.pair.a.given.map (·.id)) →
      ∃ place : Nat → Nat → Prop, (∀ i j p, place i p → place j p → i = j) ∧
        ∀ (i : Nat) (x : SCall D) (api : SApi D) (res : SOut D), w.server.calls[i]? = some x → x.prog = sbody api → x.st = .over res →
          (declined s0.transport s0.caps s0.strict api = some res ∧ sentOf x.path = []) ∨
          (∃ o kind, Unanswered o ∧ res = reports s0.strict kind api o) ∨
          ∃ p id env σ r kind, place i p ∧ DispatchedAt c (World.init s0 cli) ops p ⟨id, (enquiry api).method, (enquiry api).params⟩ env σ r ∧
            res = reports s0.strict kind api (.resp ⟨id, r.result, r.error⟩) ∧
            (∀ t, api = .taskResult t → r.error = none → r.result ≠ none → ∃ s', Ev.saw s' ∈ x.path ∧ kind = s'.kinds t) := by
  intro w ho
  refine ⟨fun i p => ∃ (x : SCall D) (n m : Nat) (j : Duplex.Job D) (dl : Nat), w.server.calls[i]? = some x ∧ sentOf x.path = [n] ∧ w.futs[n]? = some m ∧
    ((World.init s0 cli).run c (ops.take p)).pair.b.job = some j ∧ (m, idText j.req.id, dl) ∈ w.pair.a.p.sent, ?_, ?_⟩
  · rintro i j p ⟨x, n, m, jb, dl, h1, h2, h3, h4, h5⟩ ⟨x', n', m', jb', dl', h1', h2', h3', h4', h5'⟩
    rw [h4] at h4'
    cases h4'
    have hmm : m = m' := key_fun ((good_world c s0 cli ops false).keyed ho) h5 h5'
    subst hmm
    have hnn : n = n' := by
      have hf := (futs_world c s0 cli ops).1
      exact (List.getElem?_inj (lt_of_get h3) hf).1 (h3.trans h3'.symm)
    subst hnn
    obtain ⟨cops, g1, -, -⟩ := server_run c s0 cli ops
    have hinv := inv_run s0 cops
    rw [show w.server = _ from g1] at h1 h1'
    exact flat_nodup (hinv.perm.nodup_iff.2 List.nodup_range) h1' h1 (c := n) (by rw [h2']; simp) (by rw [h2]; simp)
  · intro i x api res hx hprog hst
    rcases result_of c s0 cli ops hc ho i x api res hx hprog hst with h | h | ⟨p, id, env, σ, r, kind, h1, h2, h3, n, m, dl, h4, h5, h6⟩
    · exact .inl h
    · exact .inr (.inl h)
    · obtain ⟨j, hj, hq⟩ := h1.2.1
      refine .inr (.inr ⟨p, id, env, σ, r, kind, ⟨x, n, m, j, dl, hx, h4, h5, hj, ?_⟩, h1, h2, h3⟩)
      rw [hq]; exact h6

/-- The answers of the client with the places of the execution they were given at. -/
theorem places_world (c : Cfg D) (s0 : SSelf D) (cli : Cli D H) (ops : List (Op D H)) :
    ∃ L : List (Nat × Request D), (((World.init s0 cli).run c ops).pair.b.replies.map (·.1) = L.map (·.2)) ∧
      ∀ p q env σ r, DispatchedAt c (World.init s0 cli) ops p q env σ r → (p, q) ∈ L := by
  induction ops using snoc_induction with
  | h0 => exact ⟨[], rfl, fun p q env σ r h => by obtain ⟨h, -⟩ := h; cases h⟩
  | h1 ops op ih =>
    obtain ⟨L, h1, h3⟩ := ih
    have old : ∀ p q env σ r, DispatchedAt c (World.init s0 cli) (ops ++ [op]) p q env σ r → p < ops.length → (p, q) ∈ L := by
      rintro p q env σ r ⟨k1, k2⟩ hl
      rw [List.getElem?_append_left hl] at k1
      rw [List.take_append_of_le_length (Nat.le_of_lt hl)] at k2
      exact h3 p q env σ r ⟨k1, k2⟩
    have last : ∀ p q env σ r, DispatchedAt c (World.init s0 cli) (ops ++ [op]) p q env σ r → ¬ p < ops.length →
        p = ops.length ∧ op = .serve env ∧ (∃ j, ((World.init s0 cli).run c ops).pair.b.job = some j ∧ j.req = q) ∧ ((World.init s0 cli).run c ops).dead = false ∧
          (onRequest env ((World.init s0 cli).run c ops).cli q).1 = .answer r := by
      rintro p q env σ r ⟨k1, k2, k3, k4, k5⟩ hl
      have hp := lt_of_get k1
      rw [List.length_append, List.length_singleton] at hp
      have hp : p = ops.length := by omega
      subst hp
      have ht : (ops ++ [op]).take ops.length = ops := by simp
      rw [ht] at k2 k3 k4
      rw [List.getElem?_append_right (Nat.le_refl _), Nat.sub_self] at k1
      cases k1
      subst k3
      exact ⟨rfl, rfl, k2, k4, k5⟩
    rw [run_snoc]
    rcases replies_step c ((World.init s0 cli).run c ops) op with g | ⟨env, j, r, rfl, g1, g2, g3, -, g4⟩
    · refine ⟨L, by rw [g]; exact h1, fun p q env σ r hd => ?_⟩
      by_cases hl : p < ops.length
      · exact old p q env σ r hd hl
      · exfalso
        obtain ⟨-, rfl, ⟨j, k2, rfl⟩, k4, k5⟩ := last p q env σ r hd hl
        simp only [World.step, World.serve, k2, k4, k5, Bool.false_eq_true, if_false] at g
        rw [Whole.replies_answer k2] at g
        have := congrArg List.length g
        simp at this
    · refine ⟨L ++ [(ops.length, j.req)], by rw [g4, List.map_append, List.map_append, h1]; rfl, fun p q' env' σ r' hd => ?_⟩
      by_cases hl : p < ops.length
      · exact List.mem_append_left _ (old p q' env' σ r' hd hl)
      · obtain ⟨rfl, -, ⟨j', k2, rfl⟩, -, -⟩ := last p q' env' σ r' hd hl
        rw [g2] at k2
        cases k2
        exact List.mem_append_right _ (List.mem_singleton.2 rfl)

/-- C135, partial. Every request the client has handled was given to the transport of the server by a call or by a handler, with this method and these parameters, and no request was
handled twice. Missing: as for `C135_result_partial`. -/
theorem C135_handled_partial (c : Cfg D) (s0 : SSelf D) (cli : Cli D H) (ops : List (Op D H)) (hc : Carried c (World.init s0 cli) ops) :
    let w := (World.init s0 cli).run c ops
    OwnTexts (w.pair.a.given.map (·.id)) →
      ∃ own : Nat → Nat,
        (∀ p q env σ r, DispatchedAt c (World.init s0 cli) ops p q env σ r → ∃ g, w.pair.a.given[own p]? = some g ∧ q.method = g.method ∧ q.params = g.params) ∧
        ∀ p q env σ r p' q' env' σ' r', DispatchedAt c (World.init s0 cli) ops p q env σ r → DispatchedAt c (World.init s0 cli) ops p' q' env' σ' r' →
          own p = own p' → p = p' := by
  intro w ho
  obtain ⟨L, k1, k3⟩ := places_world c s0 cli ops
  have hg : Good w.pair := good_world c s0 cli ops
  have hpl : PlainPair w.pair := plain_world c s0 cli ops hc
  obtain ⟨hn, -⟩ := once_of hg hpl true (flow_world c s0 cli false ops hc ho)
  have hans : (L.map (fun e => idText e.2.id)).Nodup := by
    rw [List.map_append] at hn
    have hn := (List.nodup_append.1 hn).1
    rw [show (w.pair.get true).replies.map (·.1) = L.map (·.2) from k1, List.map_map] at hn
    exact hn
  have hex : ∀ p : Nat, ∃ n : Nat, ∀ q env σ r, DispatchedAt c (World.init s0 cli) ops p q env σ r → ∃ dl q0,
      (n, idText q.id, dl) ∈ w.pair.a.p.sent ∧ w.pair.a.given[n]? = some q0 ∧ ArrivesAs q0 q := by
    intro p
    by_cases h : ∃ q env σ r, DispatchedAt c (World.init s0 cli) ops p q env σ r
    · obtain ⟨q, env, σ, r, hd⟩ := h
      have hq : q ∈ requestsIn (w.pair.get true).taken := by
        rw [(hg true).jobs]
        refine List.mem_append_left _ ?_
        rw [show (w.pair.get true).replies.map (·.1) = L.map (·.2) from k1]
        exact List.mem_map.2 ⟨_, k3 _ _ _ _ _ hd, rfl⟩
      obtain ⟨n, k, dl, q0, g1, g2, g3, g4⟩ := taken_request hg hpl hq
      refine ⟨n, fun q' env' σ' r' hd' => ?_⟩
      obtain ⟨-, ⟨j, b1, rfl⟩, -⟩ := hd
      obtain ⟨-, ⟨j', b1', rfl⟩, -⟩ := hd'
      rw [b1] at b1'
      cases b1'
      exact ⟨dl, q0, by rw [g3]; exact g1, g2, g4⟩
    · exact ⟨0, fun q env σ r hd => absurd ⟨q, env, σ, r, hd⟩ h⟩
  obtain ⟨own, hown⟩ := Classical.axiomOfChoice hex
  refine ⟨own, fun p q env σ r hd => ?_, fun p q env σ r p' q' env' σ' r' hd hd' he => ?_⟩
  · obtain ⟨dl, q0, -, a2, a3, a4, -⟩ := hown p q env σ r hd
    exact ⟨q0, a2, a3, a4⟩
  · obtain ⟨dl, q0, a1, -, -⟩ := hown p q env σ r hd
    obtain ⟨dl', q0', a1', -, -⟩ := hown p' q' env' σ' r' hd'
    rw [← he] at a1'
    have hkey := sent_key (hg false).pinv.sentFun a1 a1'
    obtain ⟨a, ha⟩ := List.getElem?_of_mem (k3 _ _ _ _ _ hd)
    obtain ⟨b, hb⟩ := List.getElem?_of_mem (k3 _ _ _ _ _ hd')
    have ea : (L.map (fun e => idText e.2.id))[a]? = some (idText q.id) := by rw [List.getElem?_map, ha]; rfl
    have eb : (L.map (fun e => idText e.2.id))[b]? = some (idText q.id) := by rw [List.getElem?_map, hb]; show some (idText q'.id) = _; rw [hkey]
    have hab := (List.getElem?_inj (lt_of_get ea) hans).1 (ea.trans eb.symm)
    subst hab
    rw [ha] at hb
    cases hb
    rfl

end Verif.Pipe
