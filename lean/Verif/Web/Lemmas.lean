import Verif.Web.Model
import Verif.Http.LinkProps
import Verif.Whole.Props

/-! Helper lemmas for C116: the link as seen from outside, and which request is filed under which future. -/

namespace Verif.Web

open Verif.Await Verif.Client Verif.Server Verif.Http
open Verif.Whole (asRequest asking)
open Verif.InMemory (PlainReq PlainNote)

variable {D H : Type} [DblFmt D]

/-! ### Serving depends on the handler only for what it is given -/

theorem route_same {f g : Request D → HandlerOutcome D} {n e : Bool} {json : Bytes}
    (h : ∀ q ∈ (route (⟨some f, n, e⟩ : Handlers D) json).requestsHandled, f q = g q) :
    route (⟨some f, n, e⟩ : Handlers D) json = route ⟨some g, n, e⟩ json := by
  have hn : routeNotification (⟨some f, n, e⟩ : Handlers D) json = routeNotification ⟨some g, n, e⟩ json := rfl
  unfold route at h ⊢
  split
  · rfl
  · rename_i h1
    rw [if_neg h1] at h
    split
    · rename_i h2
      rw [if_pos h2] at h
      cases hd : deRequest (D := D) json with
      | none => exact hn
      | some q =>
        rw [hd] at h
        simp only
        rw [h q (List.mem_singleton.2 rfl)]
    · exact hn

theorem route_one (g : Handlers D) (json : Bytes) : (route g json).requestsHandled = [] ∨ ∃ q, (route g json).requestsHandled = [q] := by
  have hn : (routeNotification g json).requestsHandled = [] := by unfold routeNotification; split <;> rfl
  unfold route
  split
  · exact .inl rfl
  · split
    · split
      · split
        · exact .inr ⟨_, rfl⟩
        · exact .inl hn
      · exact .inl hn
    · exact .inl hn

/-- Two handlers that say the same to what the first was given. -/
def Agree (f g : Option TokenInfo → Request D → HandlerOutcome D) (out : Served D) : Prop := ∀ q tok, (q, tok) ∈ out.handled → f tok q = g tok q

theorem rpc_same {f g : Option TokenInfo → Request D → HandlerOutcome D} {n e : Bool} (req : HttpReq) (tok : Option TokenInfo)
    (h : Agree f g (handleRpc (fun tok => ⟨some (f tok), n, e⟩) req tok)) :
    handleRpc (fun tok => (⟨some (f tok), n, e⟩ : Handlers D)) req tok = handleRpc (fun tok => ⟨some (g tok), n, e⟩) req tok := by
  unfold handleRpc at h ⊢
  cases hd : deRequest (D := D) req.body with
  | none => rfl
  | some rpc =>
    rw [hd] at h
    have hr : route (⟨some (f tok), n, e⟩ : Handlers D) req.body = route ⟨some (g tok), n, e⟩ req.body := by
      refine route_same fun q hq => h q tok ?_
      simp only
      cases (route (⟨some (f tok), n, e⟩ : Handlers D) req.body).reply <;> exact List.mem_map.2 ⟨q, hq, rfl⟩
    simp only [hr]

theorem notify_same {f g : Option TokenInfo → Request D → HandlerOutcome D} {n e : Bool} (req : HttpReq) (tok : Option TokenInfo)
    (h : Agree f g (handleNotify (fun tok => ⟨some (f tok), n, e⟩) req tok)) :
    handleNotify (fun tok => (⟨some (f tok), n, e⟩ : Handlers D)) req tok = handleNotify (fun tok => ⟨some (g tok), n, e⟩) req tok := by
  unfold handleNotify at h ⊢
  cases hd : deNotification (D := D) req.body with
  | none => rfl
  | some rpc =>
    rw [hd] at h
    have hr : route (⟨some (f tok), n, e⟩ : Handlers D) req.body = route ⟨some (g tok), n, e⟩ req.body :=
      route_same fun q hq => h q tok (List.mem_map.2 ⟨q, hq, rfl⟩)
    simp only [hr]

theorem within_same {f g : Option TokenInfo → Request D → HandlerOutcome D} {n e : Bool} (s : Hs D) (before : List (HsOp D)) (sid : Bytes) (x : Sess D)
    (req : HttpReq) (tok : Option TokenInfo) (h : Agree f g (withinSession (fun tok => ⟨some (f tok), n, e⟩) s before sid x req tok)) :
    withinSession (fun tok => (⟨some (f tok), n, e⟩ : Handlers D)) s before sid x req tok = withinSession (fun tok => ⟨some (g tok), n, e⟩) s before sid x req tok := by
  unfold withinSession at h ⊢
  have hr : route (⟨some (f tok), n, e⟩ : Handlers D) req.body = route ⟨some (g tok), n, e⟩ req.body := by
    refine route_same fun q hq => h q tok ?_
    simp only
    cases (route (⟨some (f tok), n, e⟩ : Handlers D) req.body).reply <;> exact List.mem_map.2 ⟨q, hq, rfl⟩
  simp only [hr]

theorem endpoint_same {f g : Option TokenInfo → Request D → HandlerOutcome D} {n e : Bool} (s : Hs D) (drawn : Bytes) (req : HttpReq) (tok : Option TokenInfo)
    (h : Agree f g (handleEndpoint (fun tok => ⟨some (f tok), n, e⟩) s drawn req tok)) :
    handleEndpoint (fun tok => (⟨some (f tok), n, e⟩ : Handlers D)) s drawn req tok = handleEndpoint (fun tok => ⟨some (g tok), n, e⟩) s drawn req tok := by
  unfold handleEndpoint at h ⊢
  split
  · rfl
  · rename_i h1
    rw [if_neg h1] at h
    split
    · rfl
    · rename_i h2
      rw [if_neg h2] at h
      cases ho : opening (D := D) req with
      | some r => rw [ho] at h; exact within_same _ _ _ _ _ _ h
      | none =>
        rw [ho] at h
        simp only at h ⊢
        cases hl : s.lookup req.session with
        | none => rfl
        | some o =>
          rw [hl] at h
          simp only at h ⊢
          cases hx : s.objs[o]? with
          | none => rfl
          | some x =>
            rw [hx] at h
            simp only at h ⊢
            split
            · rfl
            · rename_i h3
              rw [if_neg h3] at h
              exact within_same _ _ _ _ _ _ h

theorem guarded_same {a : AuthCfg} {now : Int} {req : HttpReq} {k k' : Option TokenInfo → Served D} {f g : Option TokenInfo → Request D → HandlerOutcome D}
    (h : Agree f g (guarded a now req k)) (hk : ∀ tok, Agree f g (k tok) → k tok = k' tok) : guarded a now req k = guarded a now req k' := by
  unfold guarded at h ⊢
  split
  · rename_i h1; simp only [h1] at h; exact hk _ h
  · rfl
  · rfl
  · rename_i h1; simp only [h1] at h; exact hk _ h

theorem serve_same (loopback : Bytes → Bool) (o : SrvOpts) (a : AuthCfg) (now : Int) {f g : Option TokenInfo → Request D → HandlerOutcome D} {n e : Bool} (s : Hs D)
    (drawn : Bytes) (req : HttpReq) (h : Agree f g (Http.serve loopback o a now (fun tok => ⟨some (f tok), n, e⟩) s drawn req)) :
    Http.serve loopback o a now (fun tok => (⟨some (f tok), n, e⟩ : Handlers D)) s drawn req = Http.serve loopback o a now (fun tok => ⟨some (g tok), n, e⟩) s drawn req := by
  unfold Http.serve at h ⊢
  split
  · rfl
  · rename_i h0
    rw [if_neg h0] at h
    unfold makeResponse at h ⊢
    cases hl : localHeaders loopback o.address req.host req.origin with
    | some b => rfl
    | none =>
      rw [hl] at h
      simp only at h ⊢
      split
      · rfl
      · rename_i h1
        rw [if_neg h1] at h
        split
        · rename_i h2
          rw [if_pos h2] at h
          exact guarded_same h fun tok => endpoint_same s drawn req tok
        · rename_i h2
          rw [if_neg h2] at h
          split
          · rfl
          · rename_i h3
            rw [if_neg h3] at h
            split
            · rename_i h4
              rw [if_pos h4] at h
              exact guarded_same h fun tok => rpc_same req tok
            · rename_i h4
              rw [if_neg h4] at h
              split
              · rename_i h5
                rw [if_pos h5] at h
                exact guarded_same h fun tok => notify_same req tok
              · rfl

/-! ### What a step does to the client transport -/

theorem prefix_complete (t : PTab (SOut D)) (k : Bytes) (o : SOut D) : t.outcomes <+: (t.complete k o).outcomes := by
  unfold PTab.complete
  split
  · exact List.prefix_append _ _
  · exact List.prefix_rfl

theorem prefix_deliver (s : Ht D) (r : Response D) (fb : Bytes) : s.tab.outcomes <+: (s.deliver r fb).1.tab.outcomes := by
  unfold Ht.deliver
  split
  · exact prefix_complete _ _ _
  · split
    · exact prefix_complete _ _ _
    · exact List.prefix_rfl

theorem prefix_incoming (h : HtHandlers D) (s : Ht D) (json fb : Bytes) : s.tab.outcomes <+: (s.incoming h json fb).tab.outcomes := by
  rw [incoming_tab]
  split
  · exact prefix_deliver _ _ _
  · split
    · exact List.prefix_rfl
    · split
      · exact List.prefix_rfl
      · exact prefix_complete _ _ _

/-- Queued requests are those there were. -/
def PostsKept (a b : List PostStage) : Prop := ∀ (k : Nat) (key : Bytes) (st : Bool) (t : Bytes), b[k]? = some (.queued (.request key st) t) → a[k]? = some (.queued (.request key st) t)

/-- What all steps but sending and filing leave alone. -/
structure Leaves (s s' : Ht D) : Prop where
  tickets : s'.tickets = s.tickets
  next : s'.tab.nextFut = s.tab.nextFut
  sent : s'.tab.sent = s.tab.sent
  outcomes : s.tab.outcomes <+: s'.tab.outcomes
  posts : PostsKept s.posts s'.posts

theorem Leaves.refl (s : Ht D) : Leaves s s := ⟨rfl, rfl, rfl, List.prefix_rfl, fun _ _ _ _ h => h⟩

theorem PostsKept.trans {a b c : List PostStage} (h : PostsKept a b) (h' : PostsKept b c) : PostsKept a c := fun k key st t hk => h k key st t (h' k key st t hk)

theorem Leaves.trans {a b c : Ht D} (h : Leaves a b) (h' : Leaves b c) : Leaves a c :=
  ⟨h'.tickets.trans h.tickets, h'.next.trans h.next, h'.sent.trans h.sent, h.outcomes.trans h'.outcomes, h.posts.trans h'.posts⟩

theorem kept_append (a : List PostStage) {l : List PostStage} (h : ∀ x ∈ l, ∀ key st t, x ≠ .queued (.request key st) t) : PostsKept a (a ++ l) := by
  intro k key st t hk
  rcases Nat.lt_or_ge k a.length with hl | hl
  · rwa [List.getElem?_append_left hl] at hk
  · rw [List.getElem?_append_right hl] at hk
    exact absurd rfl (h _ (List.mem_of_getElem? hk) key st t)

theorem kept_set (a : List PostStage) (j : Nat) {x : PostStage} (h : ∀ key st t, x ≠ .queued (.request key st) t) : PostsKept a (a.set j x) := by
  intro k key st t hk
  rcases getElem?_set_cases hk with h1 | h1
  · exact h1
  · exact absurd h1.symm (h key st t)

theorem leaves_capture (s : Ht D) (sid : Bytes) : Leaves s (s.capture sid) := by rw [capture_eq]; exact ⟨rfl, rfl, rfl, List.prefix_rfl, fun _ _ _ _ h => h⟩

theorem leaves_sse (o : HtOpts) (s : Ht D) : Leaves s (s.startSse o) := by
  obtain ⟨e, h⟩ := startSse_eq o s
  rw [h]
  exact ⟨rfl, rfl, rfl, List.prefix_rfl, fun _ _ _ _ h => h⟩

theorem leaves_fail (s : Ht D) (key text : Bytes) : Leaves s (s.fail key text) :=
  ⟨rfl, complete_nextFut _ _ _, PTab.complete_sent _ _, prefix_complete _ _ _, fun _ _ _ _ h => h⟩

theorem leaves_incoming (h : HtHandlers D) (s : Ht D) (json fb : Bytes) : Leaves s (s.incoming h json fb) := by
  obtain ⟨t, he⟩ := incoming_eq h s json fb
  refine ⟨by rw [he], (incoming_keeps h s json fb).1, (incoming_keeps h s json fb).2, prefix_incoming h s json fb, ?_⟩
  rw [he]
  refine kept_append _ fun x hx key st t e => ?_
  obtain ⟨b, -, rfl⟩ := List.mem_map.1 hx
  cases e

theorem leaves_completed (o : HtOpts) (h : HtHandlers D) (s : Ht D) (p : PostFor) (body sid : Bytes) : Leaves s (s.completed o h p body sid) := by
  cases p with
  | request key st =>
    unfold Ht.completed
    simp only
    have h2 : Leaves s (if st && !sid.isEmpty then (s.capture sid).startSse o else s.capture sid) := by
      split
      · exact (leaves_capture s sid).trans (leaves_sse o _)
      · exact leaves_capture s sid
    split
    · exact h2.trans (leaves_incoming _ _ _ _)
    · exact h2.trans (leaves_fail _ _ _)
  | note => exact leaves_capture s sid
  | answer => exact leaves_capture s sid

theorem leaves_step (o : HtOpts) (s : Ht D) (op : HtOp D) (h1 : ∀ r, op ≠ .send r) (h2 : ∀ t, op ≠ .file t) : Leaves s (s.step o op) := by
  have over : ∀ k, Leaves s { s with posts := s.posts.set k .over } := fun k =>
    ⟨rfl, rfl, rfl, List.prefix_rfl, kept_set _ _ fun _ _ _ e => nomatch e⟩
  cases op with
  | start => simp only [Ht.step, Ht.start]; split <;> exact ⟨rfl, rfl, rfl, List.prefix_rfl, fun _ _ _ _ h => h⟩
  | send r => exact absurd rfl (h1 r)
  | file t => exact absurd rfl (h2 t)
  | note n =>
    simp only [Ht.step, Ht.note]
    split
    · refine ⟨rfl, rfl, rfl, List.prefix_rfl, kept_append _ fun x hx key st t e => ?_⟩
      cases List.mem_singleton.1 hx
      cases e
    · exact Leaves.refl s
  | begin k =>
    simp only [Ht.step, Ht.begin]
    split
    · exact ⟨rfl, rfl, rfl, List.prefix_rfl, kept_set _ _ fun _ _ _ e => nomatch e⟩
    · exact Leaves.refl s
  | finish h k body sid =>
    simp only [Ht.step, Ht.finish]
    split
    · exact (over k).trans (leaves_completed _ _ _ _ _ _)
    · exact Leaves.refl s
  | failEarly h k =>
    simp only [Ht.step, Ht.failEarly]
    split
    · exact (over k).trans (leaves_completed _ _ _ _ _ _)
    · exact Leaves.refl s
  | event h json =>
    simp only [Ht.step, Ht.event]
    split
    · exact leaves_incoming _ _ _ _
    · exact Leaves.refl s
  | opened header =>
    simp only [Ht.step, Ht.opened]
    split
    · exact ⟨rfl, rfl, rfl, List.prefix_rfl, fun _ _ _ _ h => h⟩
    · exact Leaves.refl s
  | giveUp r =>
    simp only [Ht.step, Ht.giveUp]
    split
    · exact ⟨rfl, rfl, rfl, List.prefix_rfl, fun _ _ _ _ h => h⟩
    · exact Leaves.refl s
  | close =>
    simp only [Ht.step, Ht.close]
    split
    · exact ⟨rfl, rfl, rfl, List.prefix_rfl, fun _ _ _ _ h => h⟩
    · exact ⟨rfl, rfl, rfl, List.prefix_append _ _, fun _ _ _ _ h => h⟩

/-! ### What a step does to the link -/

/-- Neither a request sent nor one filed. -/
def Plainly : LinkOp D → Prop
  | .send _ => False
  | .file _ => False
  | _ => True

theorem leaves_ended (c : LinkCfg) (s : Http.Link D) (h : HtHandlers D) (k : Nat) (b sid : Bytes) :
    Leaves s.ht (s.ended c h k b sid).ht ∧ (s.ended c h k b sid).flights = s.flights ∧ (s.ended c h k b sid).handled = s.handled ∧
      (filings (s.ended c h k b sid).did = filings s.did ∧ givenIds (s.ended c h k b sid).did = givenIds s.did) := by
  have hd : filings (s.did ++ [HtOp.finish h k b sid]) = filings s.did ∧ givenIds (s.did ++ [HtOp.finish h k b sid]) = givenIds s.did := by
    rw [filings_append, givenIds_append]
    exact ⟨rfl, List.append_nil _⟩
  unfold Link.ended
  split
  · exact ⟨leaves_step c.client s.ht (.finish h k b sid) (fun _ => nofun) (fun _ => nofun), rfl, rfl, hd⟩
  · exact ⟨leaves_step c.client s.ht (.finish h k b sid) (fun _ => nofun) (fun _ => nofun), rfl, rfl, hd⟩
  · exact ⟨Leaves.refl _, rfl, rfl, rfl, rfl⟩

/-- A step that is neither sending nor filing leaves the client transport alone as above. -/
theorem leaves_link (c : LinkCfg) (s : Http.Link D) (op : LinkOp D) (h : Plainly op) :
    Leaves s.ht (s.step c op).ht ∧ filings (s.step c op).did = filings s.did ∧ givenIds (s.step c op).did = givenIds s.did := by
  have hd : ∀ op : HtOp D, (∀ r, op ≠ .send r) → (∀ t, op ≠ .file t) → filings (s.did ++ [op]) = filings s.did ∧ givenIds (s.did ++ [op]) = givenIds s.did := by
    intro op h1 h2
    rw [filings_append, givenIds_append]
    cases op with
    | send r => exact absurd rfl (h1 r)
    | file t => exact absurd rfl (h2 t)
    | _ => exact ⟨rfl, List.append_nil _⟩
  have cl : ∀ op : HtOp D, (∀ r, op ≠ .send r) → (∀ t, op ≠ .file t) →
      Leaves s.ht (s.client c op).ht ∧ filings (s.client c op).did = filings s.did ∧ givenIds (s.client c op).did = givenIds s.did :=
    fun op h1 h2 => ⟨leaves_step _ _ _ h1 h2, hd op h1 h2⟩
  have stay : Leaves s.ht s.ht ∧ filings s.did = filings s.did ∧ givenIds s.did = givenIds s.did := ⟨Leaves.refl _, rfl, rfl⟩
  cases op with
  | send r => exact h.elim
  | file t => exact h.elim
  | start => exact cl _ (fun _ => nofun) (fun _ => nofun)
  | note n => exact cl _ (fun _ => nofun) (fun _ => nofun)
  | failEarly hd k => exact cl _ (fun _ => nofun) (fun _ => nofun)
  | close => exact cl _ (fun _ => nofun) (fun _ => nofun)
  | begin k =>
    simp only [Link.step, Link.begin]
    split
    · exact cl (.begin k) (fun _ => nofun) (fun _ => nofun)
    · exact stay
  | serve i now a f n e d =>
    simp only [Link.step, Link.serve]
    split <;> exact stay
  | arrive hd i =>
    simp only [Link.step, Link.arrive]
    split
    · exact ⟨(leaves_ended c s _ _ _ _).1, (leaves_ended c s _ _ _ _).2.2.2⟩
    · exact stay
  | lose hd i =>
    simp only [Link.step, Link.lose]
    split
    · exact ⟨(leaves_ended c s _ _ _ _).1, (leaves_ended c s _ _ _ _).2.2.2⟩
    · exact stay
  | listen now a f n e d =>
    simp only [Link.step, Link.listen]
    split <;> exact stay
  | event hd j =>
    simp only [Link.step, Link.event]
    split
    · split
      · rename_i p _ _ _
        exact cl (.event hd p) (fun _ => nofun) (fun _ => nofun)
      · exact stay
    · exact stay
  | world op => exact stay

/-- The flights and what was handled change with `begin` and `serve` alone. -/
theorem flights_link (c : LinkCfg) (s : Http.Link D) (op : LinkOp D) (h1 : ∀ k, op ≠ .begin k) (h2 : ∀ i now a f n e d, op ≠ .serve i now a f n e d) :
    (s.step c op).flights = s.flights ∧ (s.step c op).handled = s.handled := by
  cases op with
  | begin k => exact absurd rfl (h1 k)
  | serve i now a f n e d => exact absurd rfl (h2 i now a f n e d)
  | arrive hd i =>
    simp only [Link.step, Link.arrive]
    split
    · exact ⟨(leaves_ended c s _ _ _ _).2.1, (leaves_ended c s _ _ _ _).2.2.1⟩
    · exact ⟨rfl, rfl⟩
  | lose hd i =>
    simp only [Link.step, Link.lose]
    split
    · exact ⟨(leaves_ended c s _ _ _ _).2.1, (leaves_ended c s _ _ _ _).2.2.1⟩
    · exact ⟨rfl, rfl⟩
  | listen now a f n e d =>
    simp only [Link.step, Link.listen]
    split <;> exact ⟨rfl, rfl⟩
  | event hd j =>
    simp only [Link.step, Link.event]
    split
    · split <;> exact ⟨rfl, rfl⟩
    · exact ⟨rfl, rfl⟩
  | _ => exact ⟨rfl, rfl⟩

/-! ### Which request is filed under which future -/

/-- The requests filed, with their futures: all that is queued, under way or handled is one of them. -/
structure Filed (s : Http.Link D) (l : List (Nat × Request D)) : Prop where
  sent : s.ht.tab.sent = l.map (fun x => (x.1, keyText x.2.id))
  posts : ∀ (k : Nat) (key : Bytes) (st : Bool) (b : Bytes), s.ht.posts[k]? = some (.queued (.request key st) b) → ∃ x ∈ l, keyText x.2.id = key ∧ b = serRequest x.2
  flights : ∀ (i : Nat) (fl : Flight) (key : Bytes) (st : Bool), s.flights[i]? = some fl → fl.what = .request key st →
    ∃ x ∈ l, keyText x.2.id = key ∧ fl.sent.body = serRequest x.2
  handled : ∀ k q o, (k, q, o) ∈ s.handled → ∃ n, (n, q) ∈ l
  plain : ∀ x ∈ l, PlainReq x.2

theorem filed_init : Filed (Link.init : Http.Link D) [] :=
  ⟨rfl, fun _ _ _ _ h => (nomatch h), fun _ _ _ _ h => (nomatch h), fun _ _ _ h => (nomatch h), fun _ h => (nomatch h)⟩

theorem Filed.frame {s s' : Http.Link D} {l : List (Nat × Request D)} (h : Filed s l) (hl : Leaves s.ht s'.ht) (hf : s'.flights = s.flights)
    (hh : s'.handled = s.handled) : Filed s' l :=
  ⟨by rw [hl.sent]; exact h.sent, fun k key st b hk => h.posts k key st b (hl.posts k key st b hk), by rw [hf]; exact h.flights, by rw [hh]; exact h.handled, h.plain⟩

/-- What the handler is given when a flight is served. -/
theorem handled_of {c : LinkCfg} (ha : PlainReasons c.auth) {s : Http.Link D} (hi : LinkInv s) {l : List (Nat × Request D)} (h : Filed s l) {i k : Nat} {p : PostFor}
    {w : Sent} {r : Option (Option Reply)} (hfl : s.flights[i]? = some ⟨k, p, w, r⟩) (now : Int) (a : Bytes) (f : Option TokenInfo → Request D → HandlerOutcome D) (n e : Bool) (d : Bytes) :
    (Http.serve c.loopback c.server c.auth now (fun tok => ⟨some (f tok), n, e⟩) s.hs d (c.posted w a)).handled = [] ∨
    ∃ x ∈ l, ∃ tok st, (Http.serve c.loopback c.server c.auth now (fun tok => ⟨some (f tok), n, e⟩) s.hs d (c.posted w a)).handled = [(x.2, tok)] ∧
      p = .request (keyText x.2.id) st := by
  obtain ⟨hok, hdel, -⟩ := hi.flights i _ hfl
  have hverb : (c.posted w a).verb = .post := by
    show (if w.delete then Verb.delete else .post) = _
    rw [show w.delete = false from hdel]; rfl
  have hps := served_post c.loopback c.server ha now (fun tok => (⟨some (f tok), n, e⟩ : Handlers D)) s.hs d (c.posted w a) hverb
  generalize Http.serve c.loopback c.server c.auth now (fun tok => (⟨some (f tok), n, e⟩ : Handlers D)) s.hs d (c.posted w a) = out at hps
  rcases flight_served hok f n e hps with ⟨h1, -⟩ | ⟨st, q, tok, hp, -, -, h1, -⟩
  · exact .inl h1
  · obtain ⟨x, hx, hk, hb⟩ := h.flights i _ _ _ hfl hp
    rcases hps with ⟨h2, -⟩ | ⟨tok', rep, h2, -, -⟩
    · exact .inl h2
    · rw [show (c.posted w a).body = serRequest x.2 from hb, route_request (⟨some (f tok'), n, e⟩ : Handlers D) (f tok') rfl (h.plain x hx)] at h2
      exact .inr ⟨x, hx, tok', st, h2, by rw [hk]; exact hp⟩

/-- The request filed with a ticket. -/
def entry (s : Http.Link D) (t : Nat) : List (Nat × Request D) :=
  match s.ht.tickets[t]? with
  | some (some r) => [(s.ht.tab.nextFut, (s.ht.withId r).1)]
  | _ => []

def added (s : Http.Link D) : LinkOp D → List (Nat × Request D)
  | .file t => entry s t
  | _ => []

theorem filed_step {c : LinkCfg} (ha : PlainReasons c.auth) {s : Http.Link D} (hi : LinkInv s) {l : List (Nat × Request D)} (h : Filed s l) (op : LinkOp D) :
    Filed (s.step c op) (l ++ added s op) := by
  have plainly : Plainly op → (∀ k, op ≠ .begin k) → (∀ i now a f n e d, op ≠ .serve i now a f n e d) → added s op = [] → Filed (s.step c op) (l ++ added s op) := by
    intro h1 h2 h3 h4
    rw [h4, List.append_nil]
    exact h.frame (leaves_link c s op h1).1 (flights_link c s op h2 h3).1 (flights_link c s op h2 h3).2
  cases op with
  | send r =>
    show Filed _ (l ++ [])
    rw [List.append_nil]
    refine ⟨?_, ?_, h.flights, h.handled, h.plain⟩
    · show (s.ht.send r).tab.sent = _
      rw [← h.sent]
      unfold Ht.send
      split <;> rfl
    · show ∀ (k : Nat) (key : Bytes) (st : Bool) (b : Bytes), (s.ht.send r).posts[k]? = some (.queued (.request key st) b) → _
      have : (s.ht.send r).posts = s.ht.posts := by unfold Ht.send; split <;> rfl
      rw [this]
      exact h.posts
  | file t =>
    by_cases hc : ∃ r, s.ht.tickets[t]? = some (some r)
    · obtain ⟨r, hr⟩ := hc
      have he : added s (.file t) = [(s.ht.tab.nextFut, (s.ht.withId r).1)] := by simp only [added, entry, hr]
      have hs : (s.step c (.file t)).ht = { s.ht with
          tickets := s.ht.tickets.set t none
          counter := (s.ht.withId r).2
          tab := s.ht.tab.insert (keyText (s.ht.withId r).1.id) .broken
          posts := s.ht.posts ++ [.queued (.request (keyText (s.ht.withId r).1.id) (c.client.streamable && decide (r.method = lit "initialize"))) (serRequest (s.ht.withId r).1)] } := by
        simp only [Link.step, Link.client, Ht.step, Ht.file, hr]
      have hpl : PlainReq (s.ht.withId r).1 := cltId_plain s.ht (hi.tickets r (List.mem_of_getElem? hr)).1
      rw [he]
      refine ⟨?_, ?_, ?_, ?_, ?_⟩
      · rw [hs, List.map_append, ← h.sent]; rfl
      · rw [hs]
        intro k key st b hk
        rcases getElem?_concat_cases hk with h1 | h1
        · obtain ⟨x, hx, h2⟩ := h.posts k key st b h1
          exact ⟨x, List.mem_append_left _ hx, h2⟩
        · cases h1
          exact ⟨_, List.mem_append_right _ (List.mem_singleton.2 rfl), rfl, rfl⟩
      · intro i fl key st hfl hw
        obtain ⟨x, hx, h2⟩ := h.flights i fl key st hfl hw
        exact ⟨x, List.mem_append_left _ hx, h2⟩
      · intro k q o hq
        obtain ⟨n, hn⟩ := h.handled k q o hq
        exact ⟨n, List.mem_append_left _ hn⟩
      · intro x hx
        rcases List.mem_append.1 hx with h1 | h1
        · exact h.plain x h1
        · cases List.mem_singleton.1 h1; exact hpl
    · have he : added s (.file t) = [] := by
        simp only [added, entry]
        split
        · rename_i r hr; exact absurd ⟨r, hr⟩ hc
        · rfl
      have hs : (s.step c (.file t)).ht = s.ht := by
        simp only [Link.step, Link.client, Ht.step, Ht.file]
        split
        · rename_i r hr; exact absurd ⟨r, hr⟩ hc
        · rfl
      rw [he, List.append_nil]
      exact h.frame (by rw [hs]; exact Leaves.refl _) rfl rfl
  | begin k =>
    show Filed _ (l ++ [])
    rw [List.append_nil]
    have hle := (leaves_link c s (.begin k) trivial).1
    refine ⟨by rw [hle.sent]; exact h.sent, fun j key st b hj => h.posts j key st b (hle.posts j key st b hj), ?_, ?_, h.plain⟩
    · intro i fl key st hfl hw
      simp only [Link.step, Link.begin] at hfl
      split at hfl
      · rename_i p body hio hk
        rcases getElem?_concat_cases hfl with h1 | h1
        · exact h.flights i fl key st h1 hw
        · subst h1
          rw [show p = .request key st from hw] at hk
          exact h.posts k key st body hk
      · exact h.flights i fl key st hfl hw
    · intro k' q o hq
      simp only [Link.step, Link.begin] at hq
      split at hq <;> exact h.handled k' q o hq
  | serve i now a f n e d =>
    show Filed _ (l ++ [])
    rw [List.append_nil]
    have hle := (leaves_link c s (.serve i now a f n e d) trivial).1
    refine ⟨by rw [hle.sent]; exact h.sent, fun j key st b hj => h.posts j key st b (hle.posts j key st b hj), ?_, ?_, h.plain⟩
    · intro j fl key st hfl hw
      simp only [Link.step, Link.serve] at hfl
      split at hfl
      · rename_i k p w hi'
        rcases getElem?_set_cases hfl with h1 | h1
        · exact h.flights j fl key st h1 hw
        · subst h1
          exact h.flights i ⟨k, p, w, none⟩ key st hi' hw
      · exact h.flights j fl key st hfl hw
    · intro k' q o hq
      simp only [Link.step, Link.serve] at hq
      split at hq
      · rename_i k p w hi'
        rcases List.mem_append.1 hq with h1 | h1
        · exact h.handled k' q o h1
        · obtain ⟨y, hy, he⟩ := List.mem_map.1 h1
          rcases handled_of ha hi h hi' now a f n e d with h2 | ⟨x, hx, tok, st, h2, -⟩
          · rw [h2] at hy; cases hy
          · rw [h2] at hy
            cases List.mem_singleton.1 hy
            cases he
            exact ⟨x.1, hx⟩
      · exact h.handled k' q o hq
  | start => exact plainly trivial (fun _ => nofun) (fun _ _ _ _ _ _ _ => nofun) rfl
  | note n => exact plainly trivial (fun _ => nofun) (fun _ _ _ _ _ _ _ => nofun) rfl
  | failEarly hd k => exact plainly trivial (fun _ => nofun) (fun _ _ _ _ _ _ _ => nofun) rfl
  | close => exact plainly trivial (fun _ => nofun) (fun _ _ _ _ _ _ _ => nofun) rfl
  | arrive hd i => exact plainly trivial (fun _ => nofun) (fun _ _ _ _ _ _ _ => nofun) rfl
  | lose hd i => exact plainly trivial (fun _ => nofun) (fun _ _ _ _ _ _ _ => nofun) rfl
  | listen now a f n e d => exact plainly trivial (fun _ => nofun) (fun _ _ _ _ _ _ _ => nofun) rfl
  | event hd j => exact plainly trivial (fun _ => nofun) (fun _ _ _ _ _ _ _ => nofun) rfl
  | world op => exact plainly trivial (fun _ => nofun) (fun _ _ _ _ _ _ _ => nofun) rfl

end Verif.Web
