import Verif.Reach.Inv

/-!
C136: a call of the server to its client over HTTP gives what the client answered to it, and the client handles each request once at the most.
-/

namespace Verif.Reach

open Verif.Await Verif.Client Verif.Server
open Verif.Http (Hs HsOp LinkOp LinkCfg HtHandlers clientReplies Sess)
open Verif.Whole (lt_of_get)
open Verif.Ask (asRequest asking)
open Verif.Web (seen)

variable {D H : Type} [DblFmt D]

/-! ### Specification -/

/-- The server's transport says that there is no answer. -/
def Undone (o : Client.Outcome D) : Prop :=
  ∃ id text, text ∈ [lit "HTTP session closed", lit "Transport closed", lit "No active HTTP session"] ∧
    o = .resp ⟨id, none, some (.obj [(lit "code", .int (-32603)), (lit "message", .str text)])⟩

/-- The request of this call was sent with this id. -/
def SentUnder (w : World D H) (x : SCall D) (id : RpcId) : Prop :=
  ∃ n t m, sentOf x.path = [n] ∧ w.slots[n]? = some t ∧ m ∈ named Hs.init w.link.srvDid ∧ m.ticket = t.1 ∧ m.req.id = id

/-- Somebody else delivered this response to a session of the server. -/
def SaidByOthers (ops : List (Op D H)) (r : Response D) : Prop := ∃ f, Op.wire (.world (.answer f r)) ∈ ops

/-! ### Helpers -/

theorem eq_of_nodup {α β : Type} {f : α → β} {l : List α} (h : (l.map f).Nodup) {a b : α} (ha : a ∈ l) (hb : b ∈ l) (e : f a = f b) : a = b := by
  obtain ⟨i, hi⟩ := List.getElem?_of_mem ha
  obtain ⟨j, hj⟩ := List.getElem?_of_mem hb
  have ei : (l.map f)[i]? = some (f a) := by rw [List.getElem?_map, hi]; rfl
  have ej : (l.map f)[j]? = some (f a) := by rw [List.getElem?_map, hj, e]; rfl
  have := (List.getElem?_inj (lt_of_get ei) h).1 (ei.trans ej.symm)
  subst this
  rw [hi] at hj
  exact Option.some.inj hj

/-- The promises of the sessions of the world. -/
theorem naming_world (c : LinkCfg) (s0 : SSelf D) (cli : Cli D H) (ops : List (Op D H)) (hc : Carried c (World.init s0 cli) ops)
    (ho : OwnIds ((World.init s0 cli).run c ops).link.did) (hos : OwnSrvIds ((World.init s0 cli).run c ops).link.srvDid) :
    NamesInv ((World.init s0 cli).run c ops).link.srvDid ((World.init s0 cli).run c ops).link.hs := by
  obtain ⟨lops, l1, l2, -⟩ := link_run c s0 cli ops hc
  rw [(sides_world c s0 cli ops).hs]
  refine naming_run _ ?_ hos
  rw [l1] at ho ⊢
  exact (ansInv_run c hc.reasons lops l2 ho).plain

theorem dispatched_fun {c : LinkCfg} {w : World D H} {ops : List (Op D H)} {p : Nat} {q q' : Request D} {env env' : CliEnv D H} {σ σ' : Cli D H} {r r' : Response D}
    (h : DispatchedAt c w ops p q env σ r) (h' : DispatchedAt c w ops p q' env' σ' r') : q = q' := by
  obtain ⟨j, n, e, payload, h1, h2, h3, -⟩ := h
  obtain ⟨j', n', e', payload', h1', h2', h3', -⟩ := h'
  rw [h1] at h1'
  cases h1'
  rw [h2] at h2'
  cases h2'
  rw [h3] at h3'
  exact Option.some.inj h3'

/-! ### The claims -/

/-- What became of call `i`. -/
theorem result_of (c : LinkCfg) (s0 : SSelf D) (cli : Cli D H) (ops : List (Op D H)) (hc : Carried c (World.init s0 cli) ops)
    (ho : OwnIds ((World.init s0 cli).run c ops).link.did) (hos : OwnSrvIds ((World.init s0 cli).run c ops).link.srvDid)
    (i : Nat) (x : SCall D) (api : SApi D) (res : SOut D)
    (hx : ((World.init s0 cli).run c ops).server.calls[i]? = some x) (hprog : x.prog = sbody api) (hst : x.st = .over res) :
    (declined s0.transport s0.caps s0.strict api = some res ∧ sentOf x.path = []) ∨
    (∃ o kind, Undone o ∧ res = reports s0.strict kind api o) ∨
    (∃ id r kind, SentUnder ((World.init s0 cli).run c ops) x id ∧ Http.keyText r.id = Http.keyText id ∧ SaidByOthers ops r ∧ res = reports s0.strict kind api (.resp r)) ∨
    ∃ p id env σ r kind, SentUnder ((World.init s0 cli).run c ops) x id ∧
      DispatchedAt c (World.init s0 cli) ops p ⟨id, (enquiry api).method, (enquiry api).params⟩ env σ r ∧
      res = reports s0.strict kind api (.resp ⟨id, r.result, r.error⟩) ∧
      (∀ t, api = .taskResult t → r.error = none → r.result ≠ none → ∃ s', Ev.saw s' ∈ x.path ∧ kind = s'.kinds t) := by
  obtain ⟨cops, h1, h2, h3⟩ := server_run c s0 cli ops
  have hcalm : ∀ op ∈ cops, Unaltered op := by
    intro op hop
    cases op with
    | call b => obtain ⟨api, h4, -⟩ := h2 b hop; exact ⟨api, h4⟩
    | change u => exact hc.still u (h3 u hop)
    | _ => trivial
  have hx' := hx
  rw [h1] at hx'
  rcases C113_outcome s0 cops hcalm i x hx' api hprog res hst with h | ⟨-, n, o, kind, h4, h5, h6, h7, hk, -⟩
  · exact .inl h
  · have hsl := slots_world c s0 cli ops
    obtain ⟨t, h8⟩ := hsl.sent i x n _ hx h5
    obtain ⟨t', so, h9, h10, h11⟩ := hsl.cell n o (by rw [h1]; exact h6)
    rw [h8] at h9
    cases h9
    have hgiven := hsl.given _ (List.mem_of_getElem? h8)
    rcases h10 with h10 | ⟨m, m1, m2, y, m3, m4⟩
    · refine .inr (.inl ⟨o, kind, ?_, h7⟩)
      rw [h11, h10]
      exact ⟨_, lit "No active HTTP session", by simp, rfl⟩
    · have hni := naming_world c s0 cli ops hc ho hos
      obtain ⟨L, hsp⟩ := spoken_world c s0 cli ops hc ho hos
      obtain ⟨y', m5, m6⟩ := hni.sent m m1
      rw [m3] at m5
      cases m5
      obtain ⟨lops, l1, l2, l3⟩ := link_run c s0 cli ops hc
      have hunder : SentUnder ((World.init s0 cli).run c ops) x m.req.id := ⟨n, _, m, h4, h8, m1, m2, rfl⟩
      have hans := C93_answers_partial c hc.reasons lops l2 (by rw [← l1]; exact ho) (by rw [← l1]; exact hos) m.obj y m.fut _ so (by rw [← l1]; exact m3) m6 m4
      rw [← l1] at hans
      obtain ⟨r, rfl, hr | ⟨hr1, f, hr2⟩ | ⟨q, a, hq1, hq2, -, hq3⟩⟩ := hans
      · obtain ⟨e1, e2, text, e3, e4⟩ := hr
        refine .inr (.inl ⟨o, kind, ⟨r.id, text, ?_, ?_⟩, h7⟩)
        · simp only [List.mem_cons, List.not_mem_nil, or_false] at e3 ⊢
          rcases e3 with e3 | e3
          · exact .inl e3
          · exact .inr (.inl e3)
        · rw [h11]
          obtain ⟨a, b, d⟩ := r
          simp only at e2 e4
          rw [e2, e4]
          rfl
      · refine .inr (.inr (.inl ⟨m.req.id, r, kind, hunder, hr1, ⟨f, l3 f r hr2⟩, ?_⟩))
        rw [h7, h11]; rfl
      · obtain ⟨m', k1, k2⟩ := hsp.named q a hq1
        have hmm : m' = m := eq_of_nodup hni.keys k1 m1 (by rw [← k2]; exact hq2)
        subst hmm
        subst k2
        obtain ⟨p, env, σ, r', rfl, hd⟩ := hsp.said _ _ hq1
        obtain ⟨e1, e2, e3⟩ := hq3
        obtain ⟨g, g1, g2, g3, -⟩ := hni.asked m' m1
        rw [show (m'.ticket) = t from m2] at g1
        rw [show (takes ((World.init s0 cli).run c ops).link.srvDid)[t]? = some (.request (asRequest (enquiry api))) from hgiven] at g1
        cases g1
        have hq : (⟨m'.req.id, (enquiry api).method, (enquiry api).params⟩ : Request D) = m'.req := by
          simp only [asRequest] at g2 g3
          rw [← g2, ← g3]
        refine .inr (.inr (.inr ⟨p, m'.req.id, env, σ, r', kind, hunder, by rw [hq]; exact hd, ?_, fun t ht he hres => hk t ht ?_⟩))
        · rw [h7, h11, ← e1, ← e2, ← e3]; rfl
        · rw [h11]
          show (r.error.isNone && r.result.isSome) = true
          rw [e2, e3, he]
          cases hres' : r'.result with
          | none => exact absurd hres' hres
          | some v => rfl

/-- C136, partial. A call of the server to its client over HTTP that has given its result asked nothing and was declined for want of a transport, of a capability the client announced or of
well-formed parameters; or it was told by its transport that there is no session or that it was closed; or somebody else than the client posted a response with the id its request was sent
with; or the client handled a request with the method and the parameters of this call, in some state it went through, and the result is what the call makes of that answer; and it was for
this call alone that the client handled this request. Missing: traffic the wire format does not carry (C04 to C06, C15), users of the transports that give two requests one id, or one of the
form the transport makes (C13). -/
theorem C136_result_partial (c : LinkCfg) (s0 : SSelf D) (cli : Cli D H) (ops : List (Op D H)) (hc : Carried c (World.init s0 cli) ops) :
    let w := (World.init s0 cli).run c ops
    OwnIds w.link.did → OwnSrvIds w.link.srvDid →
      ∃ place : Nat → Nat → Prop, (∀ i j p, place i p → place j p → i = j) ∧
        ∀ (i : Nat) (x : SCall D) (api : SApi D) (res : SOut D), w.server.calls[i]? = some x → x.prog = sbody api → x.st = .over res →
          (declined s0.transport s0.caps s0.strict api = some res ∧ sentOf x.path = []) ∨
          (∃ o kind, Undone o ∧ res = reports s0.strict kind api o) ∨
          (∃ id r kind, SentUnder w x id ∧ Http.keyText r.id = Http.keyText id ∧ SaidByOthers ops r ∧ res = reports s0.strict kind api (.resp r)) ∨
          ∃ p id env σ r kind, place i p ∧ DispatchedAt c (World.init s0 cli) ops p ⟨id, (enquiry api).method, (enquiry api).params⟩ env σ r ∧
            res = reports s0.strict kind api (.resp ⟨id, r.result, r.error⟩) ∧
            (∀ t, api = .taskResult t → r.error = none → r.result ≠ none → ∃ s', Ev.saw s' ∈ x.path ∧ kind = s'.kinds t) := by
  intro w ho hos
  refine ⟨fun i p => ∃ (x : SCall D) (q : Request D) (env : CliEnv D H) (σ : Cli D H) (r : Response D), w.server.calls[i]? = some x ∧ SentUnder w x q.id ∧
    DispatchedAt c (World.init s0 cli) ops p q env σ r, ?_, ?_⟩
  · rintro i j p ⟨x, q, env, σ, r, h1, ⟨n, t, m, h2, h3, h4, h5, h6⟩, h7⟩ ⟨x', q', env', σ', r', h1', ⟨n', t', m', h2', h3', h4', h5', h6'⟩, h7'⟩
    have hni := naming_world c s0 cli ops hc ho hos
    have hqq := dispatched_fun h7 h7'
    subst hqq
    have hmm : m = m' := eq_of_nodup hni.keys h4 h4' (by rw [h6, h6'])
    subst hmm
    have hsl := slots_world c s0 cli ops
    have htt : t = t' := eq_of_nodup hsl.tickets (List.mem_of_getElem? h3) (List.mem_of_getElem? h3') (h5.symm.trans h5')
    subst htt
    have hnn : n = n' := by
      have e : (w.slots.map (·.1))[n]? = some t.1 := by rw [List.getElem?_map, h3]; rfl
      have e' : (w.slots.map (·.1))[n']? = some t.1 := by rw [List.getElem?_map, h3']; rfl
      exact (List.getElem?_inj (lt_of_get e) hsl.tickets).1 (e.trans e'.symm)
    subst hnn
    obtain ⟨cops, g1, -, -⟩ := server_run c s0 cli ops
    have hinv := inv_run s0 cops
    rw [show w.server = _ from g1] at h1 h1'
    exact flat_nodup (hinv.perm.nodup_iff.2 List.nodup_range) h1' h1 (c := n) (by rw [h2']; simp) (by rw [h2]; simp)
  · intro i x api res hx hprog hst
    rcases result_of c s0 cli ops hc ho hos i x api res hx hprog hst with h | h | h | ⟨p, id, env, σ, r, kind, h1, h2, h3, h4⟩
    · exact .inl h
    · exact .inr (.inl h)
    · exact .inr (.inr (.inl h))
    · exact .inr (.inr (.inr ⟨p, id, env, σ, r, kind, ⟨x, _, env, σ, r, hx, h1, h2⟩, h2, h3, h4⟩))

/-- C136, partial. Every request the client has handled was given to the transport of the server, with this method, these parameters and the id it was given, if it was given one, and no
request was handled twice. Missing: as for `C136_result_partial`. -/
theorem C136_handled_partial (c : LinkCfg) (s0 : SSelf D) (cli : Cli D H) (ops : List (Op D H)) (hc : Carried c (World.init s0 cli) ops) :
    let w := (World.init s0 cli).run c ops
    OwnIds w.link.did → OwnSrvIds w.link.srvDid →
      ∃ own : Nat → Nat,
        (∀ p q env σ r, DispatchedAt c (World.init s0 cli) ops p q env σ r → ∃ g, (takes w.link.srvDid)[own p]? = some (.request g) ∧
          q.method = g.method ∧ q.params = g.params ∧ (Http.keyText g.id ≠ [] → q.id = g.id)) ∧
        ∀ p q env σ r p' q' env' σ' r', DispatchedAt c (World.init s0 cli) ops p q env σ r → DispatchedAt c (World.init s0 cli) ops p' q' env' σ' r' →
          own p = own p' → p = p' := by
  intro w ho hos
  obtain ⟨L, hsp⟩ := spoken_world c s0 cli ops hc ho hos
  have hni := naming_world c s0 cli ops hc ho hos
  obtain ⟨lops, l1, l2, -⟩ := link_run c s0 cli ops hc
  have honce := (C93_once_partial c hc.reasons lops l2 (by rw [← l1]; exact ho) (by rw [← l1]; exact hos)).2
  rw [← l1] at honce
  have hL : (L.map (fun e => Http.keyText e.2.id)).Nodup := by
    have e : L.map (fun e => Http.keyText e.2.id) = (L.map (·.2)).map (fun q => Http.keyText q.id) := by rw [List.map_map]; rfl
    rw [e, ← hsp.list, List.map_map]
    exact honce
  have hnamed : ∀ p q env σ r, DispatchedAt c (World.init s0 cli) ops p q env σ r → ∃ m ∈ named Hs.init w.link.srvDid, q = m.req := by
    intro p q env σ r hd
    have hq : q ∈ L.map (·.2) := List.mem_map.2 ⟨_, hsp.places p q env σ r hd, rfl⟩
    rw [← hsp.list] at hq
    obtain ⟨⟨q', a⟩, h1, rfl⟩ := List.mem_map.1 hq
    exact hsp.named q' a h1
  have hex : ∀ p : Nat, ∃ n : Nat, ∀ q env σ r, DispatchedAt c (World.init s0 cli) ops p q env σ r → ∃ m ∈ named Hs.init w.link.srvDid, q = m.req ∧ m.ticket = n := by
    intro p
    by_cases h : ∃ q env σ r, DispatchedAt c (World.init s0 cli) ops p q env σ r
    · obtain ⟨q, env, σ, r, hd⟩ := h
      obtain ⟨m, h1, h2⟩ := hnamed p q env σ r hd
      refine ⟨m.ticket, fun q' env' σ' r' hd' => ⟨m, h1, ?_, rfl⟩⟩
      rw [← dispatched_fun hd hd', h2]
    · exact ⟨0, fun q env σ r hd => absurd ⟨q, env, σ, r, hd⟩ h⟩
  obtain ⟨own, hown⟩ := Classical.axiomOfChoice hex
  refine ⟨own, fun p q env σ r hd => ?_, fun p q env σ r p' q' env' σ' r' hd hd' he => ?_⟩
  · obtain ⟨m, h1, rfl, h3⟩ := hown p q env σ r hd
    obtain ⟨g, h4, h5⟩ := hni.asked m h1
    exact ⟨g, by rw [← h3]; exact h4, h5⟩
  · obtain ⟨m, h1, rfl, h3⟩ := hown p q env σ r hd
    obtain ⟨m', h1', rfl, h3'⟩ := hown p' q' env' σ' r' hd'
    have hmm : m = m' := eq_of_nodup hni.tickets h1 h1' (by rw [h3, h3', he])
    subst hmm
    exact congrArg Prod.fst (eq_of_nodup hL (hsp.places _ _ _ _ _ hd) (hsp.places _ _ _ _ _ hd') rfl)

end Verif.Reach
