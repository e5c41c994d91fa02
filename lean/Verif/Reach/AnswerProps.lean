import Verif.Reach.Way
import Verif.Reach.Props

/-!
C136: a call of the server over HTTP is answered when nothing fails.
-/

namespace Verif.Reach

open Verif.Await Verif.Client Verif.Server
open Verif.Http (Hs HsOp LinkOp LinkCfg HtHandlers Sess Io)
open Verif.Ask (asRequest asking)
open Verif.InMemory (PlainReq replyFor_id)
open Verif.Web (seen)
open Verif.Whole (lt_of_get)

variable {D H : Type} [DblFmt D]

/-! ### Specification -/

/-- The client has the active session of the server, object `o`, and listens to it with stream `k`; neither side has closed it. -/
structure Joined (c : LinkCfg) (w : World D H) (o k : Nat) (y : Sess D) : Prop where
  running : w.link.hs.running = true
  active : w.link.hs.activeObj = some o
  named : w.link.ht.session ≠ []
  held : w.link.hs.lookup w.link.ht.session = some o
  obj : w.link.hs.objs[o]? = some y
  openly : y.closed = false
  version : y.version = lit "2025-11-25"
  stream : w.link.hs.streams[k]? = some o
  mine : k ∈ w.link.mine
  listens : w.link.ht.sse = true
  connected : w.link.ht.connected = true
  io : w.link.ht.io = .running
  endpoint : c.client.endpointPath ≠ []
  dead : w.dead = false

/-- The steps from the moment a call sends its request to the moment its future is ready: the request is filed and queued, the stream writes what is queued, the client handles the
event, posts the answer, the server takes it. -/
def straight (w : World D H) (i k : Nat) (y : Sess D) (env : CliEnv D H) (n e : Bool) (now : Int) (authorization : Bytes) (f : Option Http.TokenInfo → Request D → HandlerOutcome D)
    (notes errors : Bool) (drawn : Bytes) : List (Op D H) :=
  [.go i, .wire (.world (.advance w.link.hs.sends.length)), .wire (.world (.advance w.link.hs.sends.length))] ++
  List.replicate (y.queue.length + 1) (.wire (.world (.pump k true))) ++
  [.heed (w.link.hs.events.length + y.queue.length) env n e, .wire (.begin w.link.ht.posts.length),
   .wire (.serve w.link.flights.length now authorization f notes errors drawn), .deliver w.slots.length]

/-! ### Helpers -/

theorem run_append (c : LinkCfg) (w : World D H) (a b : List (Op D H)) : w.run c (a ++ b) = (w.run c a).run c b := by
  simp [World.run, List.foldl_append]

theorem server_append (l : Http.Link D) (a b : List (HsOp D)) : (l.server a).server b = l.server (a ++ b) := by
  unfold Http.Link.server
  simp [Hs.run, List.foldl_append]

theorem wires_run (c : LinkCfg) : ∀ (l : List (HsOp D)) (w : World D H), w.run c (l.map fun op => .wire (.world op)) = { w with link := w.link.server l }
  | [], w => by
    show w = _
    unfold Http.Link.server
    simp [Hs.run]
  | op :: l, w => by
    show (w.step c (.wire (.world op))).run c (l.map fun op => .wire (.world op)) = _
    have : w.step c (.wire (.world op)) = { w with link := w.link.server [op] } := rfl
    rw [this, wires_run c l]
    show { w with link := (w.link.server [op]).server l } = _
    rw [server_append]
    rfl

theorem get_of_once {V : Type} {m : List (Nat × V)} {k : Nat} {v : V} (hn : (m.map (·.1)).Nodup) (h : (k, v) ∈ m) : AMap.get m k = some v := by
  cases hg : AMap.get m k with
  | none => exact absurd hg (by
      intro hg
      exact AMap.get_none_iff.1 hg (List.mem_map.2 ⟨_, h, rfl⟩))
  | some v' =>
    have := eq_of_nodup hn h (AMap.get_some_mem hg) rfl
    cases this
    rfl

theorem go_asking (s : SSys D) {i : Nat} {q : SReq D} (h : asking s i = some q) (hub : s.ub = false) (hal : s.alive = true) :
    (s.step (.go i)).cells = s.cells ++ [none] ∧ (s.step (.go i)).ub = false ∧
      ∃ (x : SCall D) (b : Client.Outcome D → SBody D), (s.step (.go i)).calls[i]? = some x ∧ x.st = .check s.cells.length b := by
  unfold asking at h
  split at h
  · rename_i x hx
    split at h
    · rename_i q0 k hst
      cases h
      have e : s.step (.go i) = { s with cells := s.cells ++ [none], calls := s.calls.set i { x with st := .check s.cells.length k, path := x.path ++ [.sent s.cells.length q] } } := by
        unfold Sys.step
        simp only [hub, Bool.false_eq_true, if_false, hx]
        unfold Sys.go
        simp only [hst, hal, if_true, hub]
      rw [e]
      exact ⟨rfl, hub, _, k, List.getElem?_set_self (lt_of_get hx), rfl⟩
    · cases h
  · cases h

/-- What the client's transport does with a request on a stream. -/
theorem event_way (c : LinkCfg) {s : Http.Ht D} {hd : HtHandlers D} {g : Request D → HandlerOutcome D} (hf : hd.wrap.request = some g) {q : Request D} (hq : PlainReq q)
    (h1 : s.sse = true) (h2 : s.connected = true) :
    ∃ t hn nn, s.step c.client (.event hd (serRequest q)) = { s with tab := t, handled := hn, notified := nn, posts := s.posts ++ [.queued .answer (serResponse (replyFor q (g q)))] } := by
  have e1 : s.step c.client (.event hd (serRequest q)) = s.incoming hd (serRequest q) [] := by
    simp only [Http.Ht.step, Http.Ht.event, h1, h2]
    rfl
  obtain ⟨t, he⟩ := incoming_eq hd s (serRequest q) []
  rw [e1, he, route_request hd.wrap g hf hq]
  exact ⟨t, _, _, rfl⟩

/-! ### The claim -/

set_option maxHeartbeats 1000000 in
/-- C136, partial. While the client listens to the active session of the server and neither side closes it, a call that sends its request is answered when nothing fails: when the request
is filed and queued, the stream has written what is queued, the client has handled the event, whose handler returns, and the answer was posted and passed the checks of the server,
then the future of this call holds exactly that answer, whatever happened before. Missing: as for `C136_result_partial`; other threads that come between; and an answer whose connection
fails is lost (`C93_unsent_counterexample`). -/
theorem C136_answered_partial (c : LinkCfg) (s0 : SSelf D) (cli : Cli D H) (ops : List (Op D H)) (hc : Carried c (World.init s0 cli) ops) :
    let w := (World.init s0 cli).run c ops
    OwnIds w.link.did → OwnSrvIds w.link.srvDid →
      ∀ (i o k : Nat) (q : SReq D) (y : Sess D) (env : CliEnv D H) (n e : Bool) (now : Int) (authorization : Bytes) (f : Option Http.TokenInfo → Request D → HandlerOutcome D)
        (notes errors : Bool) (drawn : Bytes) (r : RpcId → Response D),
      Joined c w o k y → asking w.server i = some q → w.server.ub = false → w.server.alive = true →
      (∀ body, ∃ tok, AtEndpoint c.loopback c.server c.auth now (c.posted ⟨false, c.client.endpointPath, w.link.ht.session, body⟩ authorization) tok) →
      (∀ id, (onRequest env w.cli ⟨id, q.method, q.params⟩).1 = .answer (r id) ∧ PlainAnswer (.resp (r id))) →
      let w' := w.run c (straight w i k y env n e now authorization f notes errors drawn)
      ∃ (m : Nat) (x : SCall D) (b : Client.Outcome D → SBody D) (id : RpcId), w'.server.calls[i]? = some x ∧ x.st = .check m b ∧
        (Http.keyText (asRequest q).id ≠ [] → id = (asRequest q).id) ∧ w'.server.cells[m]? = some (some (.resp ⟨id, (r id).result, (r id).error⟩)) := by
  intro w ho hos i o k q y env n e now authorization f notes errors drawn r hJ hq hub hal hat hans
  have hsl : Slots w := slots_world c s0 cli ops
  have hni : NamesInv w.link.srvDid w.link.hs := naming_world c s0 cli ops hc ho hos
  have hside : Sides c w.link := sides_world c s0 cli ops
  have hpq : PlainReq (asRequest q) := asking_plain hc.calls hq
  have hbound : ∀ j ∈ w.link.taken, j < w.link.hs.events.length := by
    obtain ⟨lops, l1, l2, -⟩ := link_run c s0 cli ops hc
    have := (ansInv_run c hc.reasons lops l2 (by rw [← l1]; exact ho)).bound
    rw [← l1] at this
    exact this
  have hlen : ∀ m ∈ named Hs.init w.link.srvDid, m.ticket < w.link.hs.sends.length := by
    intro m hm
    obtain ⟨g, h1, -⟩ := hni.asked m hm
    have hcalls := (run_calls w.link.srvDid (Hs.init : Hs D) [] calls_init).2.2.2
    rw [List.nil_append, ← hside.hs] at hcalls
    rw [hcalls.len]
    exact lt_of_get h1
  clear_value w
  generalize hrq : (w.link.hs.withId (asRequest q)).1 = rq
  have hprq : PlainReq rq := by rw [← hrq]; exact srvId_plain _ hpq
  have hsent : SentAs (asRequest q) rq := by rw [← hrq]; exact withId_sent _ _
  have hkey : Http.keyText rq.id ≠ [] := by
    rw [← hrq]
    by_cases hk : Http.keyText (asRequest q).id = []
    · rw [srvWithId_made _ hk]; exact fun h => nomatch h
    · rw [srvWithId_given _ hk]; exact hk
  have hrq' : (⟨rq.id, q.method, q.params⟩ : Request D) = rq := by
    rw [show q.method = rq.method from hsent.1.symm, show q.params = rq.params from hsent.2.1.symm]
  obtain ⟨ha, hpa⟩ := hans rq.id
  rw [hrq'] at ha
  -- the request is sent
  obtain ⟨gc, gu, x, b, gx, gst⟩ := go_asking w.server hq hub hal
  generalize hT : ([.advance w.link.hs.sends.length, .advance w.link.hs.sends.length] ++ List.replicate (y.queue.length + 1) (.pump k true) : List (HsOp D)) = tail
  have hway : wayOps w.link.hs k y (asRequest q) = [.take (.request (asRequest q))] ++ tail := by rw [← hT]; rfl
  have hst : straight w i k y env n e now authorization f notes errors drawn = [.go i] ++ (tail.map fun op => .wire (.world op)) ++
      [.heed (w.link.hs.events.length + y.queue.length) env n e, .wire (.begin w.link.ht.posts.length), .wire (.serve w.link.flights.length now authorization f notes errors drawn),
        .deliver w.slots.length] := by
    rw [← hT]
    simp [straight, List.map_replicate]
  generalize hw2 : ({ w with server := w.server.step (.go i), slots := w.slots ++ [(w.link.hs.sends.length, asRequest q)],
                             link := w.link.server (wayOps w.link.hs k y (asRequest q)) } : World D H) = w2
  have g2 : w.run c ([.go i] ++ (tail.map fun op => .wire (.world op))) = w2 := by
    rw [run_append, wires_run]
    have g1 : w.run c [.go i] = { w with server := w.server.step (.go i), slots := w.slots ++ [(w.link.hs.sends.length, asRequest q)],
                                         link := w.link.server [.take (.request (asRequest q))] } := by
      show w.go c i = _
      unfold World.go
      rw [hq]
      dsimp only
      rw [if_pos ⟨hub, hal⟩]
      rfl
    rw [g1, ← hw2, hway, ← server_append]
  have hhs := way_run (asRequest q) hJ.stream hJ.active hJ.running hJ.obj hJ.openly
  rw [hrq] at hhs
  have h2hs : w2.link.hs = w.link.hs.run (wayOps w.link.hs k y (asRequest q)) := by rw [← hw2]; rfl
  have h2ht : w2.link.ht = w.link.ht := by rw [← hw2]; rfl
  have h2did : w2.link.srvDid = w.link.srvDid ++ wayOps w.link.hs k y (asRequest q) := by rw [← hw2]; rfl
  have h2fl : w2.link.flights = w.link.flights := by rw [← hw2]; rfl
  have h2mine : w2.link.mine = w.link.mine ∧ w2.link.taken = w.link.taken := by rw [← hw2]; exact ⟨rfl, rfl⟩
  have h2dead : w2.dead = false := by rw [← hw2]; exact hJ.dead
  have h2cli : w2.cli = w.cli := by rw [← hw2]
  have h2srv : w2.server = w.server.step (.go i) := by rw [← hw2]
  have h2slots : w2.slots = w.slots ++ [(w.link.hs.sends.length, asRequest q)] := by rw [← hw2]
  have h2side : Sides c w2.link := by rw [← hw2]; exact sides_server hside _
  clear hw2
  -- the client handles it
  have hev : w2.link.hs.events[w.link.hs.events.length + y.queue.length]? = some (k, (y.nextEvent, serRequest rq), true) := by
    rw [h2hs, hhs]
    show (_ ++ _ ++ [_])[_]? = _
    have : w.link.hs.events.length + y.queue.length = (w.link.hs.events ++ y.queue.map fun e => (k, e, true)).length := by simp
    rw [this, List.getElem?_concat_length]
  have hcan : k ∈ w2.link.mine ∧ w.link.hs.events.length + y.queue.length ∉ w2.link.taken ∧ w2.link.ht.sse = true ∧ w2.link.ht.connected = true := by
    rw [h2mine.1, h2mine.2, h2ht]
    exact ⟨hJ.mine, fun h => by have := hbound _ h; omega, hJ.listens, hJ.connected⟩
  have hheard : heard w2.link (w.link.hs.events.length + y.queue.length) = some (serRequest rq) := by
    unfold heard
    rw [hev]
    exact if_pos hcan
  have hasked : asked n e (serRequest rq) = some rq := by
    unfold asked
    rw [route_request _ _ rfl hprq]
    rfl
  generalize hhd : (⟨some (fun _ => .resp (r rq.id)), n, e⟩ : HtHandlers D) = hd
  generalize hw3 : ({ w2 with cli := (onRequest env w2.cli rq).2, link := w2.link.step c (.event hd (w.link.hs.events.length + y.queue.length)) } : World D H) = w3
  have g3 : w2.step c (.heed (w.link.hs.events.length + y.queue.length) env n e) = w3 := by
    show (if w2.dead then w2 else w2.heed c _ env n e) = _
    rw [h2dead]
    show w2.heed c _ env n e = _
    unfold World.heed
    rw [hheard]
    dsimp only
    rw [hasked]
    dsimp only
    rw [h2cli, ha, ← hw3, h2cli, ← hhd]
  have hl3 : w3.link = { w2.link.client c (.event hd (serRequest rq)) with taken := w2.link.taken ++ [w.link.hs.events.length + y.queue.length],
                                                                           replied := w2.link.replied ++ Http.clientReplies hd (serRequest rq) } := by
    rw [← hw3]
    simp only [Http.Link.step, Http.Link.event, hev]
    exact if_pos hcan
  have h3dead : w3.dead = false := by rw [← hw3]; exact h2dead
  have h3srv : w3.server = w.server.step (.go i) := by rw [← hw3]; exact h2srv
  have h3slots : w3.slots = w.slots ++ [(w.link.hs.sends.length, asRequest q)] := by rw [← hw3]; exact h2slots
  have h3side : Sides c w3.link := by rw [← hw3]; exact sides_step h2side (.event hd (w.link.hs.events.length + y.queue.length))
  clear hw3
  have h3hs : w3.link.hs = w2.link.hs := by rw [hl3]; rfl
  have h3did : w3.link.srvDid = w2.link.srvDid := by rw [hl3]; rfl
  have h3fl : w3.link.flights = w.link.flights := by rw [hl3]; exact h2fl
  have h3ht : ∃ t hn nn, w3.link.ht = { w.link.ht with tab := t, handled := hn, notified := nn,
                                                       posts := w.link.ht.posts ++ [.queued .answer (serResponse (replyFor rq (.resp (r rq.id))))] } := by
    have hf : hd.wrap.request = some (fun _ => .resp (r rq.id)) := by rw [← hhd]; rfl
    have := event_way c (s := w.link.ht) hf hprq hJ.listens hJ.connected
    rw [hl3]
    show ∃ t hn nn, w2.link.ht.step c.client (.event hd (serRequest rq)) = _
    rw [h2ht]
    exact this
  obtain ⟨ht1, ht2, ht3, h3ht⟩ := h3ht
  have h3posts : w3.link.ht.posts[w.link.ht.posts.length]? = some (.queued .answer (serResponse (replyFor rq (.resp (r rq.id))))) := by
    rw [h3ht]
    exact List.getElem?_concat_length ..
  have h3sess : w3.link.ht.session = w.link.ht.session := by rw [h3ht]
  have h3io : w3.link.ht.io = .running := by rw [h3ht]; exact hJ.io
  -- the answer
  have h3obj : w3.link.hs.objs[o]? = some (wayObj w.link.hs y (asRequest q)) := by rw [h3hs, h2hs, hhs]; exact set_get hJ.obj _
  have h3look : w3.link.hs.lookup w3.link.ht.session = some o := by rw [h3hs, h2hs, hhs, h3sess]; exact hJ.held
  obtain ⟨tok, htok⟩ := hat (serResponse (replyFor rq (.resp (r rq.id))))
  obtain ⟨a1, a2⟩ := answer_way c w3.link hprq hpa now authorization f notes errors drawn h3io h3posts hJ.endpoint (by rw [h3sess]; exact htok) (by rw [h3sess]; exact hJ.named) h3look h3obj
    (show (wayObj w.link.hs y (asRequest q)).version = _ from hJ.version)
  rw [h3fl] at a1 a2
  generalize hl4 : w3.link.run c [.begin w.link.ht.posts.length, .serve w.link.flights.length now authorization f notes errors drawn] = l4 at a1 a2
  have g4 : (w3.step c (.wire (.begin w.link.ht.posts.length))).step c (.wire (.serve w.link.flights.length now authorization f notes errors drawn)) = { w3 with link := l4 } := by
    rw [← hl4]
    have : w3.step c (.wire (.begin w.link.ht.posts.length)) = { w3 with link := w3.link.step c (.begin w.link.ht.posts.length) } := by
      simp only [World.step, isEvent, ofClient, h3dead, Bool.and_false, Bool.or_false, Bool.false_eq_true, if_false]
    rw [this]
    simp only [World.step, isEvent, ofClient, Bool.false_and, Bool.or_false, Bool.false_eq_true, if_false]
    rfl
  -- its future
  have hpend : AMap.get (wayObj w.link.hs y (asRequest q)).pend.pending (Http.keyText rq.id) = some y.pend.nextFut := by
    show AMap.get (AMap.put y.pend.pending (Http.keyText (w.link.hs.withId (asRequest q)).1.id) y.pend.nextFut) _ = _
    rw [hrq]
    exact AMap.get_put_self ..
  have h4side : l4.hs = (Hs.init : Hs D).run l4.srvDid := by
    have : Sides c l4 := by
      rw [← hl4]
      exact sides_step (sides_step h3side (.begin w.link.ht.posts.length)) (.serve w.link.flights.length now authorization f notes errors drawn)
    exact this.hs
  have h4obj : l4.hs.objs[o]? = some ((wayObj w.link.hs y (asRequest q)).resolve (replyFor rq (.resp (r rq.id)))) := by rw [a1]; exact set_get h3obj _
  have hout : AMap.get ((wayObj w.link.hs y (asRequest q)).resolve (replyFor rq (.resp (r rq.id)))).pend.outcomes y.pend.nextFut = some (.resp (replyFor rq (.resp (r rq.id)))) := by
    refine get_of_once ?_ ?_
    · have hinv := run_inv l4.srvDid (Hs.init : Hs D) (fun o x hx => by simp [Hs.init] at hx) o _ (by rw [← h4side]; exact h4obj)
      exact (List.nodup_append.1 (hinv.conserve.nodup_iff.2 List.nodup_range)).2.1
    · unfold Sess.resolve
      rw [replyFor_id, if_neg hkey]
      exact PTab.complete_outcome hpend
  have hfut : future l4 (w.link.hs.sends.length, asRequest q) = some (.resp (replyFor rq (.resp (r rq.id)))) := by
    have hsends : l4.hs.sends[w.link.hs.sends.length]? = some .finished := by
      rw [a1]
      show w3.link.hs.sends[_]? = _
      rw [h3hs, h2hs, hhs]
      exact List.getElem?_concat_length ..
    obtain ⟨rest, hrest⟩ := way_named (k := k) (asRequest q) hJ.active hJ.obj
    have hnamed : ∃ more, named Hs.init l4.srvDid = named Hs.init w.link.srvDid ++ (⟨w.link.hs.sends.length, o, y.pend.nextFut, (w.link.hs.withId (asRequest q)).1⟩ :: more) := by
      rw [a2, h3did, h2did, List.append_assoc, named_append, named_append, ← hside.hs, hrest]
      exact ⟨_, rfl⟩
    obtain ⟨more, hnamed⟩ := hnamed
    unfold future
    dsimp only
    rw [hsends]
    dsimp only
    rw [hnamed, List.find?_append, List.find?_eq_none.2 (fun m hm => by have := hlen m hm; simp; omega)]
    simp only [Option.none_or, List.find?_cons, decide_true]
    rw [h4obj]
    exact hout
  -- the call
  have g5 : w.run c (straight w i k y env n e now authorization f notes errors drawn) =
      { w3 with link := l4, server := (w.server.step (.go i)).step (.fill w.slots.length (.resp (replyFor rq (.resp (r rq.id))))) } := by
    rw [hst, run_append, g2]
    show (((w2.step c _).step c _).step c _).step c (.deliver w.slots.length) = _
    rw [g3, g4]
    show World.deliver _ _ = _
    unfold World.deliver
    have : ({ w3 with link := l4 } : World D H).slots[w.slots.length]? = some (w.link.hs.sends.length, asRequest q) := by
      show w3.slots[_]? = _
      rw [h3slots]
      exact List.getElem?_concat_length ..
    rw [this]
    dsimp only
    rw [hfut]
    dsimp only
    rw [h3srv]
    rfl
  have hcell : (w.server.step (.go i)).cells[w.slots.length]? = some none := by
    rw [gc, hsl.len]
    exact List.getElem?_concat_length ..
  have hfill : (w.server.step (.go i)).step (.fill w.slots.length (.resp (replyFor rq (.resp (r rq.id))))) =
      { w.server.step (.go i) with cells := (w.server.step (.go i)).cells.set w.slots.length (some (.resp (replyFor rq (.resp (r rq.id))))) } := by
    generalize w.server.step (.go i) = z at gu hcell
    unfold Sys.step
    simp only [gu, Bool.false_eq_true, if_false, hcell]
  intro w'
  refine ⟨w.slots.length, x, b, rq.id, ?_, ?_, hsent.2.2, ?_⟩
  · show w'.server.calls[i]? = _
    rw [show w' = _ from g5]
    show ((w.server.step (.go i)).step _).calls[i]? = _
    rw [hfill]
    exact gx
  · rw [gst, hsl.len]
  · rw [show w' = _ from g5]
    show ((w.server.step (.go i)).step _).cells[w.slots.length]? = _
    rw [hfill]
    exact List.getElem?_set_self (lt_of_get hcell)

end Verif.Reach
