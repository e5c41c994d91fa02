import Verif.Reach.Inv

/-! Helper lemmas for C136: the way of one request when nothing comes between. -/

namespace Verif.Reach

open Verif.Http
open Verif.InMemory (PlainReq PlainNote replyFor_classified replyFor_id)

variable {D : Type} [DblFmt D]

/-! ### The sessions -/

theorem set_same {α : Type} {l : List α} {i : Nat} {x : α} (h : l[i]? = some x) : l.set i x = l := by
  obtain ⟨hi, rfl⟩ := List.getElem?_eq_some_iff.1 h
  exact List.set_getElem_self hi

theorem modify_set {α : Type} {l : List α} {i : Nat} {x : α} (h : l[i]? = some x) (f : α → α) : l.modify i f = l.set i (f x) := by
  apply List.ext_getElem?
  intro j
  rw [modify_get, List.getElem?_set]
  by_cases hij : i = j
  · subst hij
    rw [h]
    simp [(List.getElem?_eq_some_iff.1 h).1]
  · simp [hij]

theorem set_get {α : Type} {l : List α} {i : Nat} {x : α} (h : l[i]? = some x) (y : α) : (l.set i y)[i]? = some y :=
  List.getElem?_set_self (List.getElem?_eq_some_iff.1 h).1

/-- A stream writes everything that is queued. -/
theorem pump_all {k o : Nat} : ∀ (n : Nat) (s : Hs D) (x : Sess D), s.streams[k]? = some o → s.running = true → s.objs[o]? = some x → x.closed = false → x.queue.length = n →
    s.run (List.replicate n (.pump k true)) = { s with objs := s.objs.set o { x with queue := [] }, events := s.events ++ x.queue.map fun e => (k, e, true) }
  | 0, s, x, _, _, hx, _, hn => by
    have hq : x.queue = [] := List.eq_nil_of_length_eq_zero hn
    have e : ({ x with queue := [] } : Sess D) = x := by rw [← hq]
    rw [e, set_same hx, hq]
    simp [Hs.run]
  | n + 1, s, x, hk, hr, hx, hc, hn => by
    obtain ⟨ev, rest, hq⟩ : ∃ ev rest, x.queue = ev :: rest := by
      cases h : x.queue with
      | nil => rw [h] at hn; cases hn
      | cons a l => exact ⟨a, l, rfl⟩
    have e1 : s.step (.pump k true) = { s with objs := s.objs.set o { x with queue := rest }, events := s.events ++ [(k, ev, true)] } := by
      show s.pump k true = _
      unfold Hs.pump
      simp only [hk, hx]
      rw [if_neg (by simp [hc, hr])]
      simp only [hq]
      rw [modify_set hx]
    show (s.step (.pump k true)).run (List.replicate n (.pump k true)) = _
    rw [e1, pump_all n { s with objs := s.objs.set o { x with queue := rest }, events := s.events ++ [(k, ev, true)] } { x with queue := rest } hk hr (set_get hx _) hc (by rw [hq] at hn; simpa using hn)]
    simp only [hq, List.set_set, List.map_cons, List.append_assoc, List.singleton_append]

/-- What a `SendRequest` and its stream do when nothing comes between. -/
def wayOps (s : Hs D) (k : Nat) (x : Sess D) (r : Request D) : List (HsOp D) :=
  [.take (.request r), .advance s.sends.length, .advance s.sends.length] ++ List.replicate (x.queue.length + 1) (.pump k true)

/-- The session afterwards. -/
def wayObj (s : Hs D) (x : Sess D) (r : Request D) : Sess D :=
  { x with pend := x.pend.insert (keyText (s.withId r).1.id) .broken, queue := [], nextEvent := x.nextEvent + 1 }

theorem way_run {s : Hs D} {k o : Nat} {x : Sess D} (r : Request D) (hk : s.streams[k]? = some o) (ha : s.activeObj = some o) (hr : s.running = true) (hx : s.objs[o]? = some x)
    (hc : x.closed = false) :
    s.run (wayOps s k x r) = { s with
      objs := s.objs.set o (wayObj s x r)
      counter := (s.withId r).2
      sends := s.sends ++ [.finished]
      events := s.events ++ (x.queue.map fun e => (k, e, true)) ++ [(k, (x.nextEvent, serRequest (s.withId r).1), true)] } := by
  have e1 : s.step (.take (.request r)) = { s with sends := s.sends ++ [.found o (.request r)] } := by
    show s.take _ = _
    unfold Hs.take
    rw [ha]
  have e2 : ({ s with sends := s.sends ++ [.found o (.request r)] } : Hs D).step (.advance s.sends.length) =
      { s with objs := s.objs.set o { x with pend := x.pend.insert (keyText (s.withId r).1.id) .broken }, counter := (s.withId r).2,
               sends := s.sends ++ [.filed o (serRequest (s.withId r).1)] } := by
    show Hs.advance _ _ = _
    unfold Hs.advance
    simp only [List.getElem?_concat_length]
    rw [modify_set hx]
    simp [Hs.withId]
  have e3 : ({ s with objs := s.objs.set o { x with pend := x.pend.insert (keyText (s.withId r).1.id) .broken }, counter := (s.withId r).2,
                      sends := s.sends ++ [.filed o (serRequest (s.withId r).1)] } : Hs D).step (.advance s.sends.length) =
      { s with objs := s.objs.set o (({ x with pend := x.pend.insert (keyText (s.withId r).1.id) .broken } : Sess D).push (serRequest (s.withId r).1)), counter := (s.withId r).2,
               sends := s.sends ++ [.finished] } := by
    show Hs.advance _ _ = _
    unfold Hs.advance
    simp only [List.getElem?_concat_length]
    rw [modify_set (set_get hx _)]
    simp
  show ((((s.step (.take (.request r))).step (.advance s.sends.length)).step (.advance s.sends.length)).run (List.replicate (x.queue.length + 1) (.pump k true))) = _
  rw [e1, e2, e3]
  refine Eq.trans (pump_all (x.queue.length + 1) _ (({ x with pend := x.pend.insert (keyText (s.withId r).1.id) .broken } : Sess D).push (serRequest (s.withId r).1)) hk hr ?_ hc ?_) ?_
  · exact set_get hx _
  · simp [Sess.push]
  · simp [Sess.push, wayObj]

/-- The promise that is filed on the way. -/
theorem way_named {s : Hs D} {k o : Nat} {x : Sess D} (r : Request D) (ha : s.activeObj = some o) (hx : s.objs[o]? = some x) :
    ∃ rest, named s (wayOps s k x r) = ⟨s.sends.length, o, x.pend.nextFut, (s.withId r).1⟩ :: rest := by
  have e1 : s.step (.take (.request r)) = { s with sends := s.sends ++ [.found o (.request r)] } := by
    show s.take _ = _
    unfold Hs.take
    rw [ha]
  refine ⟨named ((s.step (.take (.request r))).step (.advance s.sends.length)) (.advance s.sends.length :: List.replicate (x.queue.length + 1) (.pump k true)), ?_⟩
  show (namedBy s (.take (.request r))).toList ++ ((namedBy (s.step (.take (.request r))) (.advance s.sends.length)).toList ++ _) = _
  rw [e1]
  simp only [namedBy, List.getElem?_concat_length, hx]
  rfl

/-! ### The answer -/

/-- The answer to a request, posted, when nothing comes between. -/
theorem answer_way (c : LinkCfg) (s : Link D) {p : Nat} {q : Request D} {a : HandlerOutcome D} (hq : PlainReq q) (hpa : PlainAnswer a) (now : Int)
    (authorization : Bytes) (f : Option TokenInfo → Request D → HandlerOutcome D) (notes errors : Bool) (drawn : Bytes) {tok : Option TokenInfo} {o : Nat} {y : Sess D}
    (hio : s.ht.io = .running) (hp : s.ht.posts[p]? = some (.queued .answer (serResponse (replyFor q a)))) (hend : c.client.endpointPath ≠ [])
    (hat : AtEndpoint c.loopback c.server c.auth now (c.posted ⟨false, c.client.endpointPath, s.ht.session, serResponse (replyFor q a)⟩ authorization) tok)
    (hsess : s.ht.session ≠ []) (hlook : s.hs.lookup s.ht.session = some o) (hy : s.hs.objs[o]? = some y) (hv : y.version = lit "2025-11-25") :
    (s.run c [.begin p, .serve s.flights.length now authorization f notes errors drawn]).hs = { s.hs with
      finds := s.hs.finds ++ [some o]
      objs := s.hs.objs.set o (y.resolve (replyFor q a)) } ∧
    (s.run c [.begin p, .serve s.flights.length now authorization f notes errors drawn]).srvDid =
      s.srvDid ++ [.find s.ht.session, .answer s.hs.finds.length (replyFor q a)] := by
  have hst : c.client.streamable = true := (streamable_iff _).2 hend
  have hpath : c.client.pathFor .answer = c.client.endpointPath := by
    show c.client.notifyTo = _
    unfold HtOpts.notifyTo
    rw [if_pos hst]
  have hcls := replyFor_classified hq.1 hpa.out
  have hread := answer_read hq.1 hpa
  have e1 : s.step c (.begin p) = { s.client c (.begin p) with
      flights := s.flights ++ [⟨p, .answer, ⟨false, c.client.pathFor .answer, if c.client.streamable then s.ht.session else [], serResponse (replyFor q a)⟩, none⟩] } := by
    simp only [Link.step, Link.begin, hio, hp]
  generalize hreq : c.posted ⟨false, c.client.endpointPath, s.ht.session, serResponse (replyFor q a)⟩ authorization = req at hat
  have r1 : req.session = s.ht.session := by rw [← hreq]; rfl
  have r2 : req.version = currentVersion := by rw [← hreq]; show (if c.client.streamable then _ else _) = _; rw [hst]; rfl
  have r3 : req.verb = .post := by rw [← hreq]; rfl
  have r4 : req.body = serResponse (replyFor q a) := by rw [← hreq]; rfl
  have hops' : (Http.serve c.loopback c.server c.auth now (fun tok => (⟨some (f tok), notes, errors⟩ : Handlers D)) s.hs drawn req).ops =
      [.find s.ht.session, .answer s.hs.finds.length (replyFor q a)] := by
    rw [endpoint_serve hat (by rw [r3]; intro e; cases e)]
    unfold handleEndpoint
    rw [if_neg (by rw [r3]; intro e; cases e), if_neg (by rw [r3]; simp)]
    have hop : Http.opening (D := D) req = none := by
      unfold Http.opening
      split
      · rw [if_neg (fun hh => hsess (r1 ▸ hh.2))]
      · rfl
    rw [hop, r1, hlook]
    simp only [hy]
    rw [r2, hv, if_neg (by decide)]
    unfold withinSession
    simp only [r4]
    rw [C14_response_silent _ _ hcls]
    show _ ++ _ = _
    rw [hread]
    rfl
  have e2 : (s.run c [.begin p, .serve s.flights.length now authorization f notes errors drawn]).hs = s.hs.run [.find s.ht.session, .answer s.hs.finds.length (replyFor q a)] ∧
      (s.run c [.begin p, .serve s.flights.length now authorization f notes errors drawn]).srvDid = s.srvDid ++ [.find s.ht.session, .answer s.hs.finds.length (replyFor q a)] := by
    show ((s.step c (.begin p)).step c (.serve s.flights.length now authorization f notes errors drawn)).hs = _ ∧
      ((s.step c (.begin p)).step c (.serve s.flights.length now authorization f notes errors drawn)).srvDid = _
    rw [e1]
    simp only [Link.step, Link.serve, List.getElem?_concat_length, hpath, hst, if_true]
    rw [hreq]
    exact ⟨congrArg s.hs.run hops', congrArg (s.srvDid ++ ·) hops'⟩
  refine ⟨e2.1.trans ?_, e2.2⟩
  show (s.hs.find s.ht.session).answer s.hs.finds.length (replyFor q a) = _
  unfold Hs.find
  rw [hlook]
  unfold Hs.answer
  simp only [List.getElem?_concat_length]
  rw [modify_set hy]

end Verif.Reach
