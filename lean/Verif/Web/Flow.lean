import Verif.Web.Props

/-! Helper lemmas for C116: a request that waits at the transport is queued or under way, and the end of its exchange completes it. -/

namespace Verif.Web

open Verif.Await Verif.Client Verif.Server Verif.Http
open Verif.Whole (asRequest asking snoc_induction lt_of_get)
open Verif.InMemory (PlainReq PlainNote replyFor_classified replyFor_id)

variable {D H : Type} [DblFmt D]

/-! ### Posts -/

/-- Each step leaves a post alone, unless it sends it, gives it up, or ends its exchange. -/
inductive PostMove (s : Http.Link D) (k : Nat) : LinkOp D → Prop
  | send : PostMove s k (.begin k)
  | early (h : HtHandlers D) : PostMove s k (.failEarly h k)
  | arrive (h : HtHandlers D) (i : Nat) (fl : Flight) (r : Reply) (h1 : s.flights[i]? = some fl) (h2 : fl.post = k) (h3 : fl.reply = some (some r)) : PostMove s k (.arrive h i)
  | lose (h : HtHandlers D) (i : Nat) (fl : Flight) (h1 : s.flights[i]? = some fl) (h2 : fl.post = k) : PostMove s k (.lose h i)

theorem completed_keeps (o : HtOpts) (h : HtHandlers D) (s : Ht D) (p : PostFor) (body sid : Bytes) {k : Nat} {x : PostStage} (hx : s.posts[k]? = some x) :
    (s.completed o h p body sid).posts[k]? = some x := by
  obtain ⟨t, e, hd, nt, ps, he, -⟩ := completed_eq o h s p body sid
  rw [he]
  exact getElem?_append_of_some hx

theorem incoming_keep (h : HtHandlers D) (s : Ht D) (json fb : Bytes) {k : Nat} {x : PostStage} (hx : s.posts[k]? = some x) : (s.incoming h json fb).posts[k]? = some x := by
  obtain ⟨t, he⟩ := incoming_eq h s json fb
  rw [he]
  exact getElem?_append_of_some hx

theorem finish_keeps (o : HtOpts) (h : HtHandlers D) (s : Ht D) (j : Nat) (body sid : Bytes) {k : Nat} {x : PostStage} (hx : s.posts[k]? = some x) (hne : j ≠ k) :
    (s.finish o h j body sid).posts[k]? = some x := by
  unfold Ht.finish
  split
  · exact completed_keeps _ _ _ _ _ _ (by rw [List.getElem?_set_ne hne]; exact hx)
  · exact hx

theorem ended_keeps (c : LinkCfg) (s : Http.Link D) (h : HtHandlers D) (j : Nat) (body sid : Bytes) {k : Nat} {x : PostStage} (hx : s.ht.posts[k]? = some x) (hne : j ≠ k) :
    (s.ended c h j body sid).ht.posts[k]? = some x := by
  unfold Link.ended
  split
  · exact finish_keeps _ _ _ _ _ _ hx hne
  · exact finish_keeps _ _ _ _ _ _ hx hne
  · exact hx

theorem post_step (c : LinkCfg) (s : Http.Link D) (op : LinkOp D) {k : Nat} {x : PostStage} (hx : s.ht.posts[k]? = some x) :
    (s.step c op).ht.posts[k]? = some x ∨ PostMove s k op := by
  cases op with
  | start => left; simp only [Link.step, Link.client, Ht.step, Ht.start]; split <;> exact hx
  | send r => left; simp only [Link.step, Link.client, Ht.step, Ht.send]; split <;> exact hx
  | file t =>
    left
    simp only [Link.step, Link.client, Ht.step, Ht.file]
    split
    · exact getElem?_append_of_some hx
    · exact hx
  | note n =>
    left
    simp only [Link.step, Link.client, Ht.step, Ht.note]
    split
    · exact getElem?_append_of_some hx
    · exact hx
  | begin j =>
    by_cases hj : j = k
    · subst hj; exact .inr .send
    · left
      simp only [Link.step, Link.begin]
      split
      · show (s.ht.begin c.client j).posts[k]? = _
        unfold Ht.begin
        split
        · show (s.ht.posts.set j _)[k]? = _
          rw [List.getElem?_set_ne hj]; exact hx
        · exact hx
      · exact hx
  | failEarly h j =>
    by_cases hj : j = k
    · subst hj; exact .inr (.early h)
    · left
      simp only [Link.step, Link.client, Ht.step, Ht.failEarly]
      split
      · exact completed_keeps _ _ _ _ _ _ (by rw [List.getElem?_set_ne hj]; exact hx)
      · exact hx
  | close =>
    left
    simp only [Link.step, Link.client, Ht.step, Ht.close]
    split <;> exact hx
  | serve i now a f n e d => left; simp only [Link.step, Link.serve]; split <;> exact hx
  | arrive h i =>
    simp only [Link.step, Link.arrive]
    split
    · rename_i j p w r hfl
      by_cases hj : j = k
      · exact .inr (.arrive h i _ r hfl hj rfl)
      · exact .inl (ended_keeps c s h j _ _ hx hj)
    · exact .inl hx
  | lose h i =>
    simp only [Link.step, Link.lose]
    split
    · rename_i j p w r hfl
      by_cases hj : j = k
      · exact .inr (.lose h i _ hfl hj)
      · exact .inl (ended_keeps c s h j _ _ hx hj)
    · exact .inl hx
  | listen now a f n e d => left; simp only [Link.step, Link.listen]; split <;> exact hx
  | event h j =>
    left
    simp only [Link.step, Link.event]
    split
    · split
      · show (s.ht.event h _).posts[k]? = _
        unfold Ht.event
        split
        · exact incoming_keep _ _ _ _ hx
        · exact hx
      · exact hx
    · exact hx
  | world op => exact .inl hx

/-- Flights stay. -/
theorem flight_step (c : LinkCfg) (s : Http.Link D) (op : LinkOp D) {i : Nat} {fl : Flight} (h : s.flights[i]? = some fl) :
    ∃ fl', (s.step c op).flights[i]? = some fl' ∧ fl'.post = fl.post ∧ fl'.what = fl.what := by
  by_cases hb : ∃ k, op = .begin k
  · obtain ⟨k, rfl⟩ := hb
    simp only [Link.step, Link.begin]
    split
    · exact ⟨fl, getElem?_append_of_some h, rfl, rfl⟩
    · exact ⟨fl, h, rfl, rfl⟩
  · by_cases hs : ∃ j now a f n e d, op = .serve j now a f n e d
    · obtain ⟨j, now, a, f, n, e, d, rfl⟩ := hs
      simp only [Link.step, Link.serve]
      split
      · rename_i k p w hfl
        by_cases hij : j = i
        · subst hij
          rw [h] at hfl
          cases hfl
          exact ⟨_, List.getElem?_set_self (lt_of_get h), rfl, rfl⟩
        · exact ⟨fl, by rw [List.getElem?_set_ne hij]; exact h, rfl, rfl⟩
      · exact ⟨fl, h, rfl, rfl⟩
    · refine ⟨fl, ?_, rfl, rfl⟩
      rw [(flights_link c s op (fun k e => hb ⟨k, e⟩) (fun j now a f n e d e' => hs ⟨j, now, a, f, n, e, d, e'⟩)).1]
      exact h

/-! ### The end of an exchange -/

/-- The future has an outcome. -/
def Done (s : Http.Link D) (m : Nat) : Prop := m ∈ s.ht.tab.outcomes.map (·.1)

/-- A body that is neither a request of the server nor the answer to another request. -/
theorem body_ends {s : Http.Link D} (hi : LinkInv s) {i : Nat} {fl : Flight} {key : Bytes} {st : Bool} {rep : Reply} (hfl : s.flights[i]? = some fl)
    (hw : fl.what = .request key st) (hr : fl.reply = some (some rep)) : ¬ (AsksClient D rep.body ∨ AnswersOther s.ht key rep.body) := by
  rcases hi.replies i fl key st rep hfl hw hr with (h | h | ⟨h1, h2⟩) | ⟨q, out, -, h1, h2, h3, h4⟩
  · rw [h]
    rintro (⟨h1, -⟩ | ⟨h1, -⟩) <;> (revert h1; decide)
  · rw [h]
    rintro (⟨h1, -⟩ | ⟨h1, -⟩) <;> (revert h1; decide +kernel)
  · rintro (h3 | h3)
    · have := h3.1; rw [h1] at this; cases this
    · exact h3.2.2.1 h2
  · have hc := replyFor_classified h2 h3.out
    rw [h4]
    rintro (h5 | h5)
    · have := h5.1; rw [hc] at this; cases this
    · refine h5.2.1 ?_
      rw [answer_read h2 h3, replyFor_id]
      exact h1

theorem ended_done {c : LinkCfg} {s : Http.Link D} (hs : Sides c s) (h : HtHandlers D) {k m : Nat} {key : Bytes} {st : Bool} (body sid : Bytes) (hio : s.ht.io = .running)
    (hk : s.ht.posts[k]? = some (.sent (.request key st))) (hp : AMap.get s.ht.tab.pending key = some m) (hb : ¬ (AsksClient D body ∨ AnswersOther s.ht key body)) :
    Done (s.ended c h k body sid) m := by
  have h46 := C46_exchange (D := D) c.client s.did h k key body sid st m
  simp only [← hs.ht] at h46
  have := (h46 hio hk hp).2 hb
  unfold Link.ended
  simp only [hio, hk]
  exact this

theorem not_empty_body (s : Ht D) (key : Bytes) : ¬ (AsksClient D [] ∨ AnswersOther s key []) := by
  rintro (⟨h1, -⟩ | ⟨h1, -⟩) <;> (revert h1; decide)

theorem early_done {c : LinkCfg} {s : Http.Link D} (hs : Sides c s) (h : HtHandlers D) {k m : Nat} {key : Bytes} {st : Bool} {b : Bytes} (hio : s.ht.io = .running)
    (hk : s.ht.posts[k]? = some (.queued (.request key st) b)) (hp : AMap.get s.ht.tab.pending key = some m) : Done (s.step c (.failEarly h k)) m := by
  have hi := tab_inv hs
  have hi' := tab_inv (sides_step hs (.failEarly h k))
  have ht : (s.step c (.failEarly h k)).ht.tab = s.ht.tab.complete key (localError key (lit "Invalid/empty HTTP response")) := by
    simp only [Link.step, Link.client, Ht.step, Ht.failEarly, hio, hk, Ht.completed]
    rw [if_neg (by simp), if_neg (by simp)]
    show (Ht.capture _ _).tab.complete _ _ = _
    rw [capture_tab]
  refine complete_of_gone hi' (key := key) ?_ ?_
  · rw [ht, PTab.complete_sent]
    exact hi.pend key m (AMap.get_some_mem hp)
  · rw [ht]; exact complete_self_none _ _ _

/-! ### A waiting request is queued or under way -/

/-- The post is queued with this request, or sent and there is a flight of it. -/
def Stage (s : Http.Link D) (key : Bytes) (st : Bool) (k : Nat) : Prop :=
  (∃ b, s.ht.posts[k]? = some (.queued (.request key st) b)) ∨
  (s.ht.posts[k]? = some (.sent (.request key st)) ∧ ∃ (i : Nat) (fl : Flight), s.flights[i]? = some fl ∧ fl.post = k ∧ fl.what = .request key st)

theorem begin_flight {c : LinkCfg} {s : Http.Link D} {k : Nat} {key : Bytes} {st : Bool} {b : Bytes} (hio : s.ht.io = .running)
    (hk : s.ht.posts[k]? = some (.queued (.request key st) b)) :
    (s.step c (.begin k)).ht.posts[k]? = some (.sent (.request key st)) ∧
      ∃ (i : Nat) (fl : Flight), (s.step c (.begin k)).flights[i]? = some fl ∧ fl.post = k ∧ fl.what = .request key st := by
  simp only [Link.step, Link.begin, hio, hk]
  constructor
  · show (s.ht.begin c.client k).posts[k]? = _
    simp only [Ht.begin, hio, hk]
    exact List.getElem?_set_self (lt_of_get hk)
  · refine ⟨s.flights.length, ⟨k, .request key st, ⟨false, c.client.pathFor (.request key st), if c.client.streamable then s.ht.session else [], b⟩, none⟩, ?_, rfl, rfl⟩
    simp

/-- What a step does to the post of a waiting request: nothing, or it is sent, or the request is complete. -/
theorem stage_step {c : LinkCfg} {s : Http.Link D} (hs : Sides c s) (hi : LinkInv s) (op : LinkOp D) {key : Bytes} {st : Bool} {k m : Nat} (hstage : Stage s key st k)
    (hp : AMap.get s.ht.tab.pending key = some m) : Stage (s.step c op) key st k ∨ Done (s.step c op) m := by
  have hflight : ∀ {i : Nat} {fl : Flight}, s.flights[i]? = some fl → fl.post = k → fl.what = .request key st →
      ∃ (i : Nat) (fl : Flight), (s.step c op).flights[i]? = some fl ∧ fl.post = k ∧ fl.what = .request key st := by
    intro i fl h1 h2 h3
    obtain ⟨fl', h4, h5, h6⟩ := flight_step c s op h1
    exact ⟨i, fl', h4, h5.trans h2, h6.trans h3⟩
  by_cases hio : s.ht.io = .running
  · rcases hstage with ⟨b, hk⟩ | ⟨hk, i, fl, h1, h2, h3⟩
    · rcases post_step c s op hk with h | h
      · exact .inl (.inl ⟨b, h⟩)
      · cases h with
        | send => exact .inl (.inr (begin_flight hio hk))
        | early h => exact .inr (early_done hs h hio hk hp)
        | arrive h i fl r g1 g2 g3 =>
          exfalso
          rcases (hi.flights i fl g1).2.2 with g | g <;> rw [g2, hk] at g <;> cases g
        | lose h i fl g1 g2 =>
          exfalso
          rcases (hi.flights i fl g1).2.2 with g | g <;> rw [g2, hk] at g <;> cases g
    · rcases post_step c s op hk with h | h
      · exact .inl (.inr ⟨h, hflight h1 h2 h3⟩)
      · cases h with
        | send =>
          left; right
          have : s.step c (.begin k) = s := by simp only [Link.step, Link.begin, hio, hk]
          rw [this]
          exact ⟨hk, i, fl, h1, h2, h3⟩
        | early h =>
          left; right
          refine ⟨?_, hflight h1 h2 h3⟩
          simp only [Link.step, Link.client, Ht.step, Ht.failEarly, hio, hk]
        | arrive h j fl' r g1 g2 g3 =>
          right
          have hw : fl'.what = .request key st := by
            rcases (hi.flights j fl' g1).2.2 with g | g
            · rw [g2, hk] at g
              simp only [Option.some.injEq, PostStage.sent.injEq] at g
              exact g.symm
            · rw [g2, hk] at g; cases g
          have hb := body_ends hi g1 hw g3
          obtain ⟨p, w, sent, rep⟩ := fl'
          cases g2
          cases g3
          simp only [Link.step, Link.arrive, g1]
          exact ended_done hs h _ _ hio hk hp hb
        | lose h j fl' g1 g2 =>
          right
          obtain ⟨p, w, sent, rep⟩ := fl'
          cases g2
          simp only [Link.step, Link.lose, g1]
          exact ended_done hs h _ _ hio hk hp (not_empty_body _ _)
  · -- nothing is sent and no exchange ends while the io thread does not run
    have hended : ∀ (h : HtHandlers D) (j : Nat) (body sid : Bytes), s.ended c h j body sid = s := by
      intro h j body sid
      unfold Link.ended
      split
      · rename_i g _; exact absurd g hio
      · rename_i g _; exact absurd g hio
      · rfl
    have stay : ∀ {x : PostStage}, s.ht.posts[k]? = some x → (s.step c op).ht.posts[k]? = some x := by
      intro x hx
      rcases post_step c s op hx with h | h
      · exact h
      · cases h with
        | send =>
          simp only [Link.step, Link.begin]
          split
          · rename_i g _; exact absurd g hio
          · exact hx
        | early h =>
          simp only [Link.step, Link.client, Ht.step, Ht.failEarly]
          split
          · rename_i g _; exact absurd g hio
          · exact hx
        | arrive h j fl' r g1 g2 g3 =>
          simp only [Link.step, Link.arrive]
          split
          · rw [hended]; exact hx
          · exact hx
        | lose h j fl' g1 g2 =>
          simp only [Link.step, Link.lose]
          split
          · rw [hended]; exact hx
          · exact hx
    rcases hstage with ⟨b, hk⟩ | ⟨hk, i, fl, h1, h2, h3⟩
    · exact .inl (.inl ⟨b, stay hk⟩)
    · exact .inl (.inr ⟨stay hk, hflight h1 h2 h3⟩)

/-- A request that is filed waits or is complete. -/
theorem waits_or_done {c : LinkCfg} {s : Http.Link D} (hs : Sides c s) {m : Nat} {key : Bytes} (hm : (m, key) ∈ s.ht.tab.sent) :
    AMap.get s.ht.tab.pending key = some m ∨ Done s m := by
  have hi := tab_inv hs
  rcases hi.accounted (hi.sentBound _ hm) with ⟨k', hk'⟩ | h
  · left
    have h3 : k' = key := nodup_map_fst_eq hi.sentFun (hi.pend k' m hk') hm
    rw [h3] at hk'
    exact AMap.mem_get hi.keys hk'
  · exact .inr h

/-- Every waiting request has its post. -/
def Covered (s : Http.Link D) : Prop := ∀ key m, AMap.get s.ht.tab.pending key = some m → ∃ st k, Stage s key st k

theorem outcomes_link (c : LinkCfg) (s : Http.Link D) (op : LinkOp D) : ∀ x ∈ s.ht.tab.outcomes, x ∈ (s.step c op).ht.tab.outcomes := by
  by_cases hp : Plainly op
  · exact fun x hx => (leaves_link c s op hp).1.outcomes.subset hx
  · cases op with
    | send r =>
      intro x hx
      simp only [Link.step, Link.client, Ht.step, Ht.send]
      split
      · exact hx
      · exact List.mem_append_left _ hx
    | file t =>
      intro x hx
      simp only [Link.step, Link.client, Ht.step, Ht.file]
      split
      · simp only [PTab.insert]
        split
        · exact List.mem_append_left _ hx
        · exact hx
      · exact hx
    | _ => exact absurd trivial hp

theorem Done.step {c : LinkCfg} {s : Http.Link D} {m : Nat} (h : Done s m) (op : LinkOp D) : Done (s.step c op) m := by
  obtain ⟨x, hx, rfl⟩ := List.mem_map.1 h
  exact List.mem_map_of_mem (outcomes_link c s op x hx)

theorem covered_step {c : LinkCfg} {s : Http.Link D} (hs : Sides c s) (hi : LinkInv s) (h : Covered s) (op : LinkOp D) : Covered (s.step c op) := by
  intro key m hp
  have hs' := sides_step hs op
  have hi' := tab_inv hs'
  have hmem := AMap.get_some_mem hp
  have hsent := hi'.pend key m hmem
  have hnd : ¬ Done (s.step c op) m := fun hd => hi'.pending_open hmem hd
  have old : (m, key) ∈ s.ht.tab.sent → ∃ st k, Stage (s.step c op) key st k := by
    intro hm
    rcases waits_or_done hs hm with h1 | h1
    · obtain ⟨st, k, h2⟩ := h key m h1
      rcases stage_step hs hi op h2 h1 with h3 | h3
      · exact ⟨st, k, h3⟩
      · exact absurd h3 hnd
    · exact absurd (h1.step op) hnd
  by_cases hpl : Plainly op
  · rw [(leaves_link c s op hpl).1.sent] at hsent
    exact old hsent
  · cases op with
    | send r =>
      refine old ?_
      simp only [Link.step, Link.client, Ht.step, Ht.send] at hsent
      split at hsent <;> exact hsent
    | file t =>
      by_cases hr : ∃ r, s.ht.tickets[t]? = some (some r)
      · obtain ⟨r, hr⟩ := hr
        have hsn : (s.step c (.file t)).ht.tab.sent = s.ht.tab.sent ++ [(s.ht.tab.nextFut, keyText (s.ht.withId r).1.id)] := by
          simp only [Link.step, Link.client, Ht.step, Ht.file, hr]; rfl
        rw [hsn] at hsent
        rcases List.mem_append.1 hsent with h1 | h1
        · exact old h1
        · cases List.mem_singleton.1 h1
          refine ⟨c.client.streamable && decide (r.method = lit "initialize"), s.ht.posts.length, .inl ⟨serRequest (s.ht.withId r).1, ?_⟩⟩
          simp only [Link.step, Link.client, Ht.step, Ht.file, hr]
          rw [List.getElem?_append_right (Nat.le_refl _), Nat.sub_self]
          rfl
      · refine old ?_
        simp only [Link.step, Link.client, Ht.step, Ht.file] at hsent
        split at hsent
        · rename_i r g; exact absurd ⟨r, g⟩ hr
        · exact hsent
    | _ => exact absurd trivial hpl

/-! ### What a step of the system does to the link -/

inductive LinkMove (c : LinkCfg) (s : Http.Link D) : Op D H → Http.Link D → Prop
  | stay (op : Op D H) : LinkMove c s op s
  | wire (lop : LinkOp D) (h1 : ∀ r, lop ≠ .send r) (h2 : ∀ i now a f n e d, lop ≠ .serve i now a f n e d) : LinkMove c s (.wire lop) (s.step c lop)
  | send (i : Nat) (r : Request D) : LinkMove c s (.go i) (s.step c (.send r))
  | serve (i : Nat) (now : Int) (a : Bytes) (env : Env D H) (f : Option TokenInfo → Request D → HandlerOutcome D) (n e : Bool) (d : Bytes) :
      LinkMove c s (.serve i now a env n e d) (s.step c (.serve i now a f n e d))
  | server (i : Nat) (now : Int) (a : Bytes) (env : Env D H) (n e : Bool) (d : Bytes) (ops : List (HsOp D)) : LinkMove c s (.serve i now a env n e d) (s.server ops)

theorem link_move (c : LinkCfg) (w : World D H) (op : Op D H) : LinkMove c w.link op (w.step c op).link := by
  cases op with
  | go i =>
    simp only [World.step, World.go]
    split
    · split
      · exact .send i _
      · exact .stay _
    · exact .stay _
  | deliver n =>
    simp only [World.step, World.deliver]
    split
    · split <;> exact .stay _
    · exact .stay _
  | wire lop =>
    cases lop with
    | send r => exact .stay _
    | serve i now a f n e d => exact .stay _
    | file t =>
      show LinkMove c w.link _ (w.file c t).link
      unfold World.file
      split
      · exact .wire (.file t) (fun _ => nofun) (fun _ _ _ _ _ _ _ => nofun)
      · exact .stay _
    | start => exact .wire .start (fun _ => nofun) (fun _ _ _ _ _ _ _ => nofun)
    | note n => exact .wire (.note n) (fun _ => nofun) (fun _ _ _ _ _ _ _ => nofun)
    | begin k => exact .wire (.begin k) (fun _ => nofun) (fun _ _ _ _ _ _ _ => nofun)
    | failEarly h k => exact .wire (.failEarly h k) (fun _ => nofun) (fun _ _ _ _ _ _ _ => nofun)
    | close => exact .wire .close (fun _ => nofun) (fun _ _ _ _ _ _ _ => nofun)
    | arrive h i => exact .wire (.arrive h i) (fun _ => nofun) (fun _ _ _ _ _ _ _ => nofun)
    | lose h i => exact .wire (.lose h i) (fun _ => nofun) (fun _ _ _ _ _ _ _ => nofun)
    | listen now a f n e d => exact .wire (.listen now a f n e d) (fun _ => nofun) (fun _ _ _ _ _ _ _ => nofun)
    | event h j => exact .wire (.event h j) (fun _ => nofun) (fun _ _ _ _ _ _ _ => nofun)
    | world op => exact .wire (.world op) (fun _ => nofun) (fun _ _ _ _ _ _ _ => nofun)
  | serve i now a env n e d =>
    simp only [World.step, World.serve]
    split
    · exact .stay _
    · split
      · exact .serve i now a env _ n e d
      · split
        · exact .serve i now a env _ n e d
        · exact .server i now a env n e d _
        · exact .stay _
  | _ => exact .stay _

theorem covered_world (c : LinkCfg) (s0 : Self D) (srv : Srv D H) (ops : List (Op D H)) (hc : Carried c (World.init s0 srv) ops)
    (few : ((World.init s0 srv).run c ops).slots.length < 2 ^ 32) : Covered ((World.init s0 srv).run c ops).link := by
  induction ops using snoc_induction with
  | h0 => intro key m h; cases h
  | h1 ops op ih =>
    rw [run_snoc] at few ⊢
    have few' := Nat.lt_of_le_of_lt (slots_step c _ op) few
    obtain ⟨l, h⟩ := inv_world c s0 srv ops hc.prefix few'
    have hcov := ih hc.prefix few'
    have hm := link_move c ((World.init s0 srv).run c ops) op
    have hs := h.sides
    have hi := h.link hc.reasons few'
    generalize (((World.init s0 srv).run c ops).step c op).link = s' at hm ⊢
    cases hm with
    | stay => exact hcov
    | wire lop _ _ => exact covered_step hs hi hcov lop
    | send i r => exact covered_step hs hi hcov (.send r)
    | serve i now a env f n e d => exact covered_step hs hi hcov (.serve i now a f n e d)
    | server i now a env n e d sops => exact hcov

end Verif.Web
