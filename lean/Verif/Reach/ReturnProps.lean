import Verif.Reach.HeedProps
import Verif.Reach.Way
import Verif.Web.Flow

/-!
C136, continued: an answer that the client has queued comes back to the server, whose transport then lets go of the request, whatever else happens.
-/

namespace Verif.Reach

open Verif.Await Verif.Client Verif.Server
open Verif.Http (Hs HsOp LinkOp LinkCfg HtHandlers HtOp Ht HtOpts Sess SendStage PostStage PostFor Flight keyText TokenInfo Io currentVersion)
open Verif.InMemory (PlainReq replyFor_classified replyFor_id)
open Verif.Whole (lt_of_get)

variable {D H : Type} [DblFmt D]

/-! ### Specification -/

/-- Post `p` is sent, and every post that was sent is served, given time. -/
structure Posts (f : Nat → Op D H) (p : Nat) : Prop where
  begin : ∀ u, ∃ v, u ≤ v ∧ f v = .wire (.begin p)
  serve : ∀ i u, ∃ v now a g n e d, u ≤ v ∧ f v = .wire (.serve i now a g n e d)

/-- The connection of post `p` does not fail before anything is sent. -/
def Connects (f : Nat → Op D H) (p : Nat) : Prop := ∀ v hd, f v ≠ .wire (.failEarly hd p)

/-- What is posted at the client's endpoint passes the checks of the server. -/
def Admitted (c : LinkCfg) (f : Nat → Op D H) (sid : Bytes) : Prop :=
  ∀ v i now a g n e d, f v = .wire (.serve i now a g n e d) → ∀ body, ∃ tok, AtEndpoint c.loopback c.server c.auth now (c.posted ⟨false, c.client.endpointPath, sid, body⟩ a) tok

/-- From time `T` on the client lives, its transport works and it has the session `sid`, which the server has as object `o`. -/
def Holds (c : LinkCfg) (w : World D H) (f : Nat → Op D H) (sid : Bytes) (o T : Nat) : Prop :=
  ∀ u, T ≤ u → (states c w f u).dead = false ∧ (states c w f u).link.ht.io = .running ∧ (states c w f u).link.ht.session = sid ∧ (states c w f u).link.hs.lookup sid = some o ∧
    ∀ y, (states c w f u).link.hs.objs[o]? = some y → y.version = lit "2025-11-25"

/-! ### Posts and flights stay until their turn -/

theorem ht_queued (o : HtOpts) (s : Ht D) {op : HtOp D} {p : Nat} {a : PostFor} {b : Bytes} (h : s.posts[p]? = some (.queued a b)) (h1 : op ≠ .begin p) (h2 : ∀ hd, op ≠ .failEarly hd p) :
    (s.step o op).posts[p]? = some (.queued a b) := by
  have grow : ∀ {l l' : List PostStage}, l[p]? = some (.queued a b) → (l' = l ∨ ∃ x, l' = l ++ [.queued .answer x]) → l'[p]? = some (.queued a b) := by
    rintro l l' hl (rfl | ⟨x, rfl⟩)
    · exact hl
    · exact getElem?_append_of_some hl
  cases op with
  | opened v => simp only [Ht.step, Ht.opened]; split <;> exact h
  | giveUp r => simp only [Ht.step, Ht.giveUp]; split <;> exact h
  | start => simp only [Ht.step, Ht.start]; split <;> exact h
  | send r => simp only [Ht.step, Ht.send]; split <;> exact h
  | file t =>
    simp only [Ht.step, Ht.file]
    split
    · exact getElem?_append_of_some h
    · exact h
  | note n =>
    simp only [Ht.step, Ht.note]
    split
    · exact getElem?_append_of_some h
    · exact h
  | begin k =>
    have hne : k ≠ p := fun e => h1 (by rw [e])
    simp only [Ht.step, Ht.begin]
    split
    · show (s.posts.set k _)[p]? = _
      rw [List.getElem?_set_ne hne]; exact h
    · exact h
  | finish hd k body sid =>
    simp only [Ht.step, Ht.finish]
    split
    · rename_i q _ hk
      have hne : k ≠ p := fun e => by subst e; rw [h] at hk; cases hk
      exact grow (l := s.posts.set k .over) (by rw [List.getElem?_set_ne hne]; exact h) (completed_posts o hd _ q body sid)
    · exact h
  | failEarly hd k =>
    have hne : k ≠ p := fun e => h2 hd (by rw [e])
    simp only [Ht.step, Ht.failEarly]
    split
    · exact grow (l := s.posts.set k .over) (by rw [List.getElem?_set_ne hne]; exact h) (completed_posts o hd _ _ [] [])
    · exact h
  | event hd json =>
    simp only [Ht.step, Ht.event]
    split
    · exact grow h (incoming_posts hd s json [])
    · exact h
  | close => simp only [Ht.step, Ht.close]; split <;> exact h

theorem link_queued (c : LinkCfg) (l : Http.Link D) {op : LinkOp D} {p : Nat} {a : PostFor} {b : Bytes} (h : l.ht.posts[p]? = some (.queued a b)) (h1 : op ≠ .begin p)
    (h2 : ∀ hd, op ≠ .failEarly hd p) : (l.step c op).ht.posts[p]? = some (.queued a b) := by
  have client : ∀ hop : HtOp D, hop ≠ .begin p → (∀ hd, hop ≠ .failEarly hd p) → (l.ht.step c.client hop).posts[p]? = some (.queued a b) := fun hop g1 g2 => ht_queued c.client l.ht h g1 g2
  have ended : ∀ hd k body sid, (l.ended c hd k body sid).ht.posts[p]? = some (.queued a b) := by
    intro hd k body sid
    unfold Http.Link.ended
    split
    · exact client _ (fun e => nomatch e) (fun _ e => nomatch e)
    · exact client _ (fun e => nomatch e) (fun _ e => nomatch e)
    · exact h
  cases op with
  | begin k =>
    simp only [Http.Link.step, Http.Link.begin]
    split
    · exact client (.begin k) (fun e => h1 (by cases e; rfl)) (fun _ e => nomatch e)
    · exact h
  | failEarly hd k => exact client (.failEarly hd k) (fun e => nomatch e) (fun hd' e => by cases e; exact h2 _ rfl)
  | serve i now au g n e d => simp only [Http.Link.step, Http.Link.serve]; split <;> exact h
  | arrive hd i =>
    simp only [Http.Link.step, Http.Link.arrive]
    split
    · exact ended _ _ _ _
    · exact h
  | lose hd i =>
    simp only [Http.Link.step, Http.Link.lose]
    split
    · exact ended _ _ _ _
    · exact h
  | listen now au g n e d => simp only [Http.Link.step, Http.Link.listen]; split <;> exact h
  | event hd j =>
    simp only [Http.Link.step, Http.Link.event]
    split
    · split
      · exact client _ (fun e => nomatch e) (fun _ e => nomatch e)
      · exact h
    · exact h
  | world op => exact h
  | start => exact client .start (fun e => nomatch e) (fun _ e => nomatch e)
  | send r => exact client (.send r) (fun e => nomatch e) (fun _ e => nomatch e)
  | file t => exact client (.file t) (fun e => nomatch e) (fun _ e => nomatch e)
  | note n => exact client (.note n) (fun e => nomatch e) (fun _ e => nomatch e)
  | close => exact client .close (fun e => nomatch e) (fun _ e => nomatch e)

/-- What a step of the whole does to the transports. -/
theorem link_by (c : LinkCfg) (w : World D H) (op : Op D H) : (w.step c op).link = w.link ∨
    ∃ lop, (w.step c op).link = w.link.step c lop ∧ (op = .wire lop ∨ (∃ m, lop = .world (.take m)) ∨ ∃ hd j, lop = .event hd j) := by
  cases op with
  | go i =>
    simp only [World.step, World.go]
    split
    · split
      · exact .inr ⟨_, rfl, .inr (.inl ⟨_, rfl⟩)⟩
      · exact .inl rfl
    · exact .inl rfl
  | deliver n => simp only [World.step, World.deliver]; split <;> (try split) <;> exact .inl rfl
  | wire op =>
    simp only [World.step]
    split
    · exact .inl rfl
    · exact .inr ⟨op, rfl, .inl rfl⟩
  | own op => cases op <;> simp only [World.step] <;> (try split) <;> first | exact .inl rfl | exact .inl trivial
  | heed j env n e =>
    simp only [World.step]
    split
    · exact .inl rfl
    · unfold World.heed
      split
      · exact .inl rfl
      · split
        · exact .inr ⟨_, rfl, .inr (.inr ⟨_, _, rfl⟩)⟩
        · split
          · exact .inr ⟨_, rfl, .inr (.inr ⟨_, _, rfl⟩)⟩
          · exact .inl rfl
          · exact .inl rfl
  | _ => exact .inl rfl

theorem world_queued (c : LinkCfg) (w : World D H) {op : Op D H} {p : Nat} {a : PostFor} {b : Bytes} (h : w.link.ht.posts[p]? = some (.queued a b)) (h1 : op ≠ .wire (.begin p))
    (h2 : ∀ hd, op ≠ .wire (.failEarly hd p)) : (w.step c op).link.ht.posts[p]? = some (.queued a b) := by
  rcases link_by c w op with e | ⟨lop, e, h3 | ⟨m, rfl⟩ | ⟨hd, j, rfl⟩⟩
  · rw [e]; exact h
  · rw [e]; subst h3
    exact link_queued c _ h (fun e => h1 (by rw [e])) (fun hd e => h2 hd (by rw [e]))
  · rw [e]; exact link_queued c _ h (fun e => nomatch e) (fun _ e => nomatch e)
  · rw [e]; exact link_queued c _ h (fun e => nomatch e) (fun _ e => nomatch e)

theorem link_flight (c : LinkCfg) (l : Http.Link D) {op : LinkOp D} {i : Nat} {fl : Flight} (h : l.flights[i]? = some fl) (h1 : ∀ now a g n e d, op ≠ .serve i now a g n e d) :
    (l.step c op).flights[i]? = some fl := by
  by_cases hb : ∃ k, op = .begin k
  · obtain ⟨k, rfl⟩ := hb
    simp only [Http.Link.step, Http.Link.begin]
    split
    · exact getElem?_append_of_some h
    · exact h
  · by_cases hs : ∃ j now a g n e d, op = .serve j now a g n e d
    · obtain ⟨j, now, a, g, n, e, d, rfl⟩ := hs
      have hne : j ≠ i := fun e' => h1 now a g n e d (by rw [e'])
      simp only [Http.Link.step, Http.Link.serve]
      split
      · show (l.flights.set j _)[i]? = _
        rw [List.getElem?_set_ne hne]; exact h
      · exact h
    · rw [(Web.flights_link c l op (fun k e => hb ⟨k, e⟩) (fun j now a g n e d e' => hs ⟨j, now, a, g, n, e, d, e'⟩)).1]
      exact h

theorem world_flight (c : LinkCfg) (w : World D H) {op : Op D H} {i : Nat} {fl : Flight} (h : w.link.flights[i]? = some fl) (h1 : ∀ now a g n e d, op ≠ .wire (.serve i now a g n e d)) :
    (w.step c op).link.flights[i]? = some fl := by
  rcases link_by c w op with e | ⟨lop, e, h3 | ⟨m, rfl⟩ | ⟨hd, j, rfl⟩⟩
  · rw [e]; exact h
  · rw [e]; subst h3
    exact link_flight c _ h (fun now a g n e d e' => h1 now a g n e d (by rw [e']))
  · rw [e]; exact link_flight c _ h (fun _ _ _ _ _ _ e => nomatch e)
  · rw [e]; exact link_flight c _ h (fun _ _ _ _ _ _ e => nomatch e)

/-- The first time at which something that can be told apart happens, or nothing has changed so far. -/
theorem until_turn {P : Nat → Prop} {Q : Nat → Prop} (hstep : ∀ u, P u → P (u + 1) ∨ Q u) {T v : Nat} (h : T ≤ v) (hT : P T) : P v ∨ ∃ u, T ≤ u ∧ u < v ∧ P u ∧ Q u := by
  induction h with
  | refl => exact .inl hT
  | @step v hv ih =>
    have hv' : T ≤ v := hv
    rcases ih with h1 | ⟨u, h1, h2, h3⟩
    · rcases hstep v h1 with h2 | h2
      · exact .inl h2
      · exact .inr ⟨v, hv', Nat.lt_succ_self v, h1, h2⟩
    · exact .inr ⟨u, h1, Nat.lt_succ_of_lt h2, h3⟩

/-! ### The server lets go -/

/-- What the server does with an answer of the client that passes its checks. -/
theorem answer_ops (c : LinkCfg) (s : Hs D) {q : Request D} {a : HandlerOutcome D} (hq : PlainReq q) (hpa : PlainAnswer a) (now : Int) (authorization : Bytes)
    (g : Option TokenInfo → Request D → HandlerOutcome D) (notes errors : Bool) (drawn : Bytes) {tok : Option TokenInfo} {o : Nat} {y : Sess D} {sid : Bytes} (hend : c.client.endpointPath ≠ [])
    (hat : AtEndpoint c.loopback c.server c.auth now (c.posted ⟨false, c.client.endpointPath, sid, serResponse (replyFor q a)⟩ authorization) tok)
    (hsess : sid ≠ []) (hlook : s.lookup sid = some o) (hy : s.objs[o]? = some y) (hv : y.version = lit "2025-11-25") :
    (Http.serve c.loopback c.server c.auth now (fun tok => (⟨some (g tok), notes, errors⟩ : Handlers D)) s drawn
      (c.posted ⟨false, c.client.endpointPath, sid, serResponse (replyFor q a)⟩ authorization)).ops = [.find sid, .answer s.finds.length (replyFor q a)] := by
  have hst : c.client.streamable = true := (streamable_iff _).2 hend
  have hcls := replyFor_classified hq.1 hpa.out
  have hread := answer_read hq.1 hpa
  generalize hreq : c.posted ⟨false, c.client.endpointPath, sid, serResponse (replyFor q a)⟩ authorization = req at hat
  have r1 : req.session = sid := by rw [← hreq]; rfl
  have r2 : req.version = currentVersion := by rw [← hreq]; show (if c.client.streamable then _ else _) = _; rw [hst]; rfl
  have r3 : req.verb = .post := by rw [← hreq]; rfl
  have r4 : req.body = serResponse (replyFor q a) := by rw [← hreq]; rfl
  rw [endpoint_serve hat (by rw [r3]; intro e; cases e)]
  unfold Http.handleEndpoint
  rw [if_neg (by rw [r3]; intro e; cases e), if_neg (by rw [r3]; simp)]
  have hop : Http.opening (D := D) req = none := by
    unfold Http.opening
    split
    · rw [if_neg (fun hh => hsess (r1 ▸ hh.2))]
    · rfl
  rw [hop, r1, hlook]
  simp only [hy]
  rw [r2, hv, if_neg (by decide)]
  unfold Http.withinSession
  simp only [r4]
  rw [C14_response_silent _ _ hcls]
  show _ ++ _ = _
  rw [hread]
  rfl

/-- Each promise was filed under the id of its request. -/
theorem keys_run (ops : List (HsOp D)) : ∀ m ∈ named Hs.init ops, keyText m.req.id ≠ [] ∧ ∃ x, ((Hs.init : Hs D).run ops).objs[m.obj]? = some x ∧ (m.fut, keyText m.req.id) ∈ x.pend.sent := by
  induction ops using Whole.snoc_induction with
  | h0 => exact fun m hm => (nomatch hm)
  | h1 ops op ih =>
    have hrefs := refs_run (Hs.init : Hs D) ops refs_init
    rw [hs_run_concat]
    intro m hm
    rw [named_snoc] at hm
    generalize hs : (Hs.init : Hs D).run ops = s at *
    rcases List.mem_append.1 hm with h1 | h1
    · obtain ⟨h0, x, h2, h3⟩ := ih m h1
      exact ⟨h0, _, step_obj s op _ x h2, (effect_grows s op _ x).2 _ h3⟩
    · have hm : namedBy s op = some m := by simpa using h1
      cases op with
      | advance t =>
        simp only [namedBy] at hm
        split at hm
        · rename_i o r hr
          cases hm
          obtain ⟨x, hx⟩ : ∃ x, s.objs[o]? = some x := ⟨_, List.getElem?_eq_some_iff.2 ⟨hrefs.sends t _ o hr rfl, rfl⟩⟩
          refine ⟨withId_key s r, _, step_obj s _ _ x hx, ?_⟩
          simp only [objEffect, hr, hx, if_true]
          exact List.mem_append_right _ (List.mem_singleton.2 rfl)
        · cases hm
      | _ => cases hm

/-- A promise that is filed is kept by a response with the id of its request, if it was not let go of before. -/
theorem resolve_lets {x : Sess D} (hi : PInv x) {n : Nat} {r : Response D} (hk : keyText r.id ≠ []) (h : (n, keyText r.id) ∈ x.pend.sent) : ∃ so, (n, so) ∈ (x.resolve r).pend.outcomes := by
  unfold Sess.resolve
  rw [if_neg hk]
  have hmem : n ∈ x.pend.all := hi.conserve.mem_iff.2 (List.mem_range.2 (hi.sentBound _ h))
  rcases List.mem_append.1 hmem with h1 | h1
  · obtain ⟨⟨key, n'⟩, h2, rfl⟩ := List.mem_map.1 h1
    have h3 := hi.pend key n' h2
    have hkey : key = keyText r.id := by
      have := eq_of_nodup hi.sentFun h3 h rfl
      exact congrArg Prod.snd this
    subst hkey
    exact ⟨_, PTab.complete_outcome (AMap.mem_get hi.keys h2)⟩
  · obtain ⟨⟨n', so⟩, h2, rfl⟩ := List.mem_map.1 h1
    refine ⟨so, ?_⟩
    unfold PTab.complete
    split
    · exact List.mem_append_left _ h2
    · exact h2

/-- C136 (partial), the way back: when the client has queued the answer to a request the server has filed, the client has this session and keeps it, its transport works, the connection of this post does
not fail and the server admits it, then the server's transport lets go of the request, so that the call ends (`C136_ended_partial`), whatever else is posted and served before and in between. Missing: an
answer whose connection fails is lost (`C93_unsent_counterexample`). -/
theorem C136_returned_partial (c : LinkCfg) (s0 : SSelf D) (cli : Cli D H) (f : Nat → Op D H) {T p o : Nat} {sid : Bytes} {m : Named D} {r : Response D} (hend : c.client.endpointPath ≠ [])
    (hsid : sid ≠ []) (hm : m ∈ named Hs.init (states c (World.init s0 cli) f T).link.srvDid) (ho : m.obj = o) (hq : PlainReq m.req) (hr : PlainAnswer (.resp r))
    (hp : (states c (World.init s0 cli) f T).link.ht.posts[p]? = some (.queued .answer (serResponse (replyFor m.req (.resp r)))))
    (hf : Posts f p) (hcon : Connects f p) (hadm : Admitted c f sid) (hh : Holds c (World.init s0 cli) f sid o T) :
    ∃ U, LetGo (states c (World.init s0 cli) f U).link m.ticket := by
  have hst : c.client.streamable = true := (streamable_iff _).2 hend
  have hpath : c.client.pathFor .answer = c.client.endpointPath := by
    show c.client.notifyTo = _
    unfold HtOpts.notifyTo
    rw [if_pos hst]
  -- it is sent
  obtain ⟨v, hv, hTv, hq1⟩ : ∃ v, f v = .wire (.begin p) ∧ T ≤ v ∧ (states c (World.init s0 cli) f v).link.ht.posts[p]? = some (.queued .answer (serResponse (replyFor m.req (.resp r)))) := by
    obtain ⟨v, hv1, hv2⟩ := hf.begin T
    rcases until_turn (P := fun u => (states c (World.init s0 cli) f u).link.ht.posts[p]? = some (.queued .answer (serResponse (replyFor m.req (.resp r)))))
      (Q := fun u => f u = .wire (.begin p)) (fun u hu => by
        rcases Classical.em (f u = .wire (.begin p)) with h1 | h1
        · exact .inr h1
        · exact .inl (world_queued c _ hu h1 (hcon u))) hv1 hp with h | ⟨u, h1, h2, h3, h4⟩
    · exact ⟨v, hv2, hv1, h⟩
    · exact ⟨u, h4, h1, h3⟩
  obtain ⟨hd, hio, hses, -, -⟩ := hh v hTv
  have hfl : (states c (World.init s0 cli) f (v + 1)).link.flights[(states c (World.init s0 cli) f v).link.flights.length]? =
      some ⟨p, .answer, ⟨false, c.client.endpointPath, sid, serResponse (replyFor m.req (.resp r))⟩, none⟩ := by
    have e : states c (World.init s0 cli) f (v + 1) = { states c (World.init s0 cli) f v with link := (states c (World.init s0 cli) f v).link.step c (.begin p) } := by
      simp only [states, hv, World.step, isEvent, ofClient, hd, Bool.and_false, Bool.or_false, Bool.false_eq_true, if_false]
    rw [e]
    simp only [Http.Link.step, Http.Link.begin, hio, hq1, hst, if_true, hpath, hses]
    exact List.getElem?_concat_length ..
  generalize (states c (World.init s0 cli) f v).link.flights.length = i at hfl
  -- it is served
  obtain ⟨u, now, a, g, n, e, d, hu, hTu, hfu⟩ : ∃ u now a g n e d, f u = .wire (.serve i now a g n e d) ∧ v + 1 ≤ u ∧
      (states c (World.init s0 cli) f u).link.flights[i]? = some ⟨p, .answer, ⟨false, c.client.endpointPath, sid, serResponse (replyFor m.req (.resp r))⟩, none⟩ := by
    obtain ⟨u, now, a, g, n, e, d, hu1, hu2⟩ := hf.serve i (v + 1)
    rcases until_turn (P := fun u => (states c (World.init s0 cli) f u).link.flights[i]? = some ⟨p, .answer, ⟨false, c.client.endpointPath, sid, serResponse (replyFor m.req (.resp r))⟩, none⟩)
      (Q := fun u => ∃ now a g n e d, f u = .wire (.serve i now a g n e d)) (fun u hu => by
        rcases Classical.em (∃ now a g n e d, f u = .wire (.serve i now a g n e d)) with h1 | h1
        · exact .inr h1
        · exact .inl (world_flight c _ hu (fun now a g n e d e' => h1 ⟨now, a, g, n, e, d, e'⟩))) hu1 hfl with h | ⟨u', h1, h2, h3, now', a', g', n', e', d', h4⟩
    · exact ⟨u, now, a, g, n, e, d, hu2, hu1, h⟩
    · exact ⟨u', now', a', g', n', e', d', h4, h1, h3⟩
  obtain ⟨hd', -, -, hlook, hver⟩ := hh u (by omega)
  have hmu : m ∈ named Hs.init (states c (World.init s0 cli) f u).link.srvDid := by
    obtain ⟨more, hmore⟩ := did_between c (World.init s0 cli) f (show T ≤ u by omega)
    rw [← hmore, named_append]; exact List.mem_append_left _ hm
  have hside := states_sides c s0 cli f u
  obtain ⟨hkey, x, hx, hsent⟩ := keys_run _ m hmu
  rw [← hside.hs] at hx
  have hinv : PInv x := run_inv (states c (World.init s0 cli) f u).link.srvDid (Hs.init : Hs D) (fun o x hx => by simp [Hs.init] at hx) m.obj x (by rw [← hside.hs]; exact hx)
  obtain ⟨tok, htok⟩ := hadm u i now a g n e d hu (serResponse (replyFor m.req (.resp r)))
  rw [ho] at hx
  have hops := answer_ops c (states c (World.init s0 cli) f u).link.hs hq hr now a g n e d hend htok hsid hlook hx (hver x hx)
  have e1 : (states c (World.init s0 cli) f (u + 1)).link = (states c (World.init s0 cli) f u).link.step c (.serve i now a g n e d) := by
    simp only [states, hu, World.step, isEvent, ofClient, Bool.false_and, Bool.or_false, Bool.false_eq_true, if_false]
  refine ⟨u + 1, .inr ⟨m, ?_, rfl, ?_⟩⟩
  · obtain ⟨more, hmore⟩ := did_between c (World.init s0 cli) f (Nat.le_succ u)
    rw [← hmore, named_append]; exact List.mem_append_left _ hmu
  · have hkey' : keyText (replyFor m.req (.resp r)).id = keyText m.req.id := by rw [replyFor_id]
    obtain ⟨so, hso⟩ := resolve_lets (r := replyFor m.req (.resp r)) hinv (by rw [hkey']; exact hkey) (by rw [hkey']; exact hsent)
    refine ⟨x.resolve (replyFor m.req (.resp r)), so, ?_, hso⟩
    rw [e1, ho]
    simp only [Http.Link.step, Http.Link.serve, hfu]
    show ((states c (World.init s0 cli) f u).link.hs.run _).objs[o]? = _
    rw [hops]
    show (((states c (World.init s0 cli) f u).link.hs.find sid).answer _ _).objs[o]? = _
    unfold Hs.find
    rw [hlook]
    unfold Hs.answer
    simp only [List.getElem?_concat_length]
    rw [modify_get, hx]
    simp

end Verif.Reach
