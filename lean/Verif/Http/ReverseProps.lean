import Verif.Http.ReverseLemmas

/-!
C93: the requests of an HTTP server to its client: the event stream carries them, the client answers with a POST.
-/

set_option linter.unusedSectionVars false

namespace Verif

open Http
open InMemory (PlainReq PlainNote PlainOut replyFor_classified replyFor_id)

variable {D : Type} [DblFmt D]

/-! ### What the client was asked and said -/

/-- The text is what the handler of the client said to a request. -/
def SaidTo (replied : List (Request D × HandlerOutcome D)) (b : Bytes) : Prop :=
  ∃ q out, (q, out) ∈ replied ∧ b = serResponse (replyFor q out)

def eventKey (s : Hs D) (j : Nat) : Option Bytes := (s.events[j]?).bind (fun e => msgKey D e.2.1.2)

/-- `W` are the responses other clients sent. -/
structure AnsInv (W : Response D → Prop) (s : Link D) : Prop where
  plain : ∀ m, HsOp.take m ∈ s.srvDid → PlainGoing m
  posts : ∀ b, PostStage.queued .answer b ∈ s.ht.posts → SaidTo s.replied b
  flights : ∀ fl ∈ s.flights, fl.what = .answer → SaidTo s.replied fl.sent.body
  replied : ∀ q out, (q, out) ∈ s.replied → PlainReq q ∧ keyText q.id ≠ [] ∧ PlainAnswer out ∧ AskedAs s.srvDid q
  answers : ∀ f r, HsOp.answer f r ∈ s.srvDid → W r ∨ ∃ q out, (q, out) ∈ s.replied ∧ r = replyFor q out
  taken : s.taken.Nodup
  bound : ∀ j ∈ s.taken, j < s.hs.events.length
  keys : s.replied.map (fun x => keyText x.1.id) = s.taken.filterMap (eventKey s.hs)

theorem ansInv_init (W : Response D → Prop) : AnsInv W (Link.init : Link D) := by
  refine ⟨?_, ?_, ?_, ?_, ?_, List.nodup_nil, ?_, rfl⟩
  · intro m h; cases h
  · intro b h; cases h
  · intro fl h; cases h
  · intro q out h; cases h
  · intro f r h; cases h
  · intro j h; cases h

theorem askedAs_mono {a b : List (HsOp D)} (hs : ∀ x ∈ a, x ∈ b) {q : Request D} (h : AskedAs a q) : AskedAs b q := by
  obtain ⟨r, h1, h2⟩ := h
  exact ⟨r, hs _ h1, h2⟩

/-- Something is done to the client that adds no answers. -/
theorem AnsInv.client {W : Response D → Prop} {c : LinkCfg} {s : Link D} (h : AnsInv W s) (op : HtOp D)
    (ho : ∀ b, PostStage.queued .answer b ∈ (s.ht.step c.client op).posts → PostStage.queued .answer b ∈ s.ht.posts) : AnsInv W (s.client c op) :=
  ⟨h.plain, fun b hb => h.posts b (ho b hb), h.flights, h.replied, h.answers, h.taken, h.bound, h.keys⟩

theorem AnsInv.quiet {W : Response D → Prop} {c : LinkCfg} {s : Link D} (h : AnsInv W s) (op : HtOp D)
    (h1 : ∀ hd k b sid, op ≠ .finish hd k b sid) (h2 : ∀ hd b, op ≠ .event hd b) : AnsInv W (s.client c op) := by
  refine h.client op (fun b hb => ?_)
  rcases ht_answers c.client s.ht op b hb with h3 | ⟨hd, k, body, sid, key, st, e, -⟩ | ⟨hd, json, e, -⟩
  · exact h3
  · exact absurd e (h1 _ _ _ _)
  · exact absurd e (h2 _ _)

theorem events_grow (s : Hs D) (op : HsOp D) : s.events <+: (s.step op).events := by
  cases op with
  | remove sid => simp only [Hs.step, Hs.remove]; split <;> exact List.prefix_refl _
  | advance c => simp only [Hs.step, Hs.advance]; split <;> exact List.prefix_refl _
  | answer f r => simp only [Hs.step, Hs.answer]; split <;> exact List.prefix_refl _
  | openStream f => simp only [Hs.step, Hs.openStream]; split <;> exact List.prefix_refl _
  | pump k ok =>
    simp only [Hs.step, Hs.pump]
    split
    · exact List.prefix_refl _
    · split
      · exact List.prefix_refl _
      · split
        · exact List.prefix_refl _
        · split
          · exact List.prefix_refl _
          · exact List.prefix_append _ _
  | _ => exact List.prefix_refl _

theorem events_grow_run (s : Hs D) (ops : List (HsOp D)) : s.events <+: (s.run ops).events := by
  induction ops generalizing s with
  | nil => exact List.prefix_refl _
  | cons op ops ih => exact (events_grow s op).trans (ih _)

theorem eventKey_grow {a b : Hs D} (h : a.events <+: b.events) {j : Nat} (hj : j < a.events.length) : eventKey b j = eventKey a j := by
  unfold eventKey
  obtain ⟨t, ht⟩ := h
  rw [← ht, List.getElem?_append_left hj]

theorem filterMap_congr' {α β : Type} {f g : α → Option β} {l : List α} (h : ∀ x ∈ l, f x = g x) : l.filterMap f = l.filterMap g := by
  induction l with
  | nil => rfl
  | cons a l ih =>
    rw [List.filterMap_cons, List.filterMap_cons, h a (List.mem_cons_self ..), ih (fun x hx => h x (List.mem_cons_of_mem _ hx))]

/-- Things are done to the server. -/
theorem AnsInv.server {W : Response D → Prop} {s : Link D} (h : AnsInv W s) (ops : List (HsOp D)) (hp : ∀ m, HsOp.take m ∈ ops → PlainGoing m)
    (ha : ∀ f r, HsOp.answer f r ∈ ops → W r ∨ ∃ q out, (q, out) ∈ s.replied ∧ r = replyFor q out) {mine : List Nat} {fls : List Flight}
    (hfl : ∀ fl ∈ fls, fl.what = .answer → SaidTo s.replied fl.sent.body) {hd : List (Nat × Request D × HandlerOutcome D)} :
    AnsInv W { s with hs := s.hs.run ops, srvDid := s.srvDid ++ ops, mine := mine, flights := fls, handled := hd } := by
  have hg := events_grow_run s.hs ops
  refine ⟨fun m hm => ?_, h.posts, hfl, fun q out hq => ?_, fun f r hr => ?_, h.taken, fun j hj => Nat.lt_of_lt_of_le (h.bound j hj) hg.length_le, ?_⟩
  · rcases List.mem_append.1 hm with h1 | h1
    · exact h.plain m h1
    · exact hp m h1
  · obtain ⟨h1, h2, h3, h4⟩ := h.replied q out hq
    exact ⟨h1, h2, h3, askedAs_mono (fun x hx => List.mem_append_left _ hx) h4⟩
  · rcases List.mem_append.1 hr with h1 | h1
    · exact h.answers f r h1
    · exact ha f r h1
  · exact h.keys.trans (filterMap_congr' (fun j hj => (eventKey_grow hg (h.bound j hj)).symm))

theorem ans_ended {W : Response D → Prop} {c : LinkCfg} {s : Link D} (hl : LinkInv s) (h : AnsInv W s) (hd : HtHandlers D) {i : Nat} {fl : Flight}
    (hfl : s.flights[i]? = some fl) (b sid : Bytes) (hb : ∀ key st, fl.what = .request key st → BodyFor s.handled key b) :
    AnsInv W (s.ended c hd fl.post b sid) := by
  obtain ⟨-, -, hst⟩ := hl.flights i fl hfl
  have silent : ∀ key st, s.ht.posts[fl.post]? = some (.sent (.request key st)) → (route hd.wrap b).reply = none ∧ (route hd.wrap b).requestsHandled = [] := by
    intro key st hk
    refine bodyFor_silent (hb key st ?_) hd.wrap
    rcases hst with h1 | h1
    · rw [hk] at h1
      simp only [Option.some.injEq, PostStage.sent.injEq] at h1
      exact h1.symm
    · rw [hk] at h1; cases h1
  have hcl : AnsInv W (s.client c (.finish hd fl.post b sid)) := by
    refine h.client _ (fun t ht => ?_)
    rcases ht_answers c.client s.ht _ t ht with h3 | ⟨hd', k', body', sid', key, st, e, hk, hr⟩ | ⟨hd', json, e, -⟩
    · exact h3
    · cases e
      rw [(silent key st hk).1] at hr; cases hr
    · cases e
  unfold Link.ended
  split
  · rename_i key st _ hk
    have : clientReplies hd b = [] := by
      unfold clientReplies
      rw [(silent key st hk).2]; rfl
    rw [this]
    show AnsInv W { s with ht := _, did := _, replied := s.replied ++ [] }
    rw [List.append_nil]
    exact hcl
  · exact hcl
  · exact h

theorem nodup_concat {α : Type} {l : List α} {a : α} (h : l.Nodup) (ha : a ∉ l) : (l ++ [a]).Nodup := by
  refine List.nodup_append.2 ⟨h, by simp, ?_⟩
  rintro x hx y hy rfl
  simp only [List.mem_singleton] at hy
  exact ha (hy ▸ hx)

theorem ans_event {W : Response D → Prop} {c : LinkCfg} {s : Link D} (hs : Sides c s) (h : AnsInv W s) (hd : HtHandlers D) (j : Nat)
    (hf : ∀ f, hd.request = some f → ∀ q, PlainAnswer (f q)) : AnsInv W (s.event c hd j) := by
  unfold Link.event
  split
  · rename_i k i payload ok hj
    split
    · rename_i hc
      have hj' := hj
      rw [hs.hs] at hj'
      have hlt : j < s.hs.events.length := (List.getElem?_eq_some_iff.1 hj).1
      have htext := event_text s.srvDid h.plain hj'
      obtain ⟨f, hwf, hpf⟩ := wrap_plain hf
      -- what the client is given and says
      obtain ⟨hrep, hkey, hnew⟩ : (∀ b, (route hd.wrap payload).reply = some b → SaidTo (s.replied ++ clientReplies hd payload) b) ∧
          (clientReplies hd payload).map (fun x => keyText x.1.id) = (eventKey s.hs j).toList ∧
          ∀ q out, (q, out) ∈ clientReplies hd payload → PlainReq q ∧ keyText q.id ≠ [] ∧ PlainAnswer out ∧ AskedAs s.srvDid q := by
        have hek : eventKey s.hs j = msgKey D payload := by unfold eventKey; rw [hj]; rfl
        rcases htext with ⟨q, h1, h2, h3, e⟩ | ⟨n, h1, -, e⟩
        · have hcr : clientReplies hd payload = [(q, f q)] := by
            unfold clientReplies
            rw [show payload = serRequest q from e, route_request hd.wrap f hwf h1, hwf]
            rfl
          refine ⟨fun b hb => ?_, ?_, fun q' out hq => ?_⟩
          · rw [show payload = serRequest q from e, route_request hd.wrap f hwf h1] at hb
            rw [hcr]
            exact ⟨q, f q, List.mem_append_right _ (List.mem_singleton.2 rfl), (Option.some.inj hb).symm⟩
          · rw [hcr, hek, show payload = serRequest q from e, msgKey_request h1]; rfl
          · rw [hcr] at hq
            simp only [List.mem_singleton, Prod.mk.injEq] at hq
            obtain ⟨rfl, rfl⟩ := hq
            exact ⟨h1, h2, hpf q', h3⟩
        · have hcr : clientReplies hd payload = [] := by
            unfold clientReplies
            rw [show payload = serNotification n from e, (route_note hd.wrap h1).2]; rfl
          refine ⟨fun b hb => ?_, ?_, fun q' out hq => ?_⟩
          · rw [show payload = serNotification n from e, (route_note hd.wrap h1).1] at hb; cases hb
          · rw [hcr, hek, show payload = serNotification n from e, msgKey_note h1]; rfl
          · rw [hcr] at hq; cases hq
      have mono : ∀ b, SaidTo s.replied b → SaidTo (s.replied ++ clientReplies hd payload) b := by
        rintro b ⟨q, out, h1, h2⟩
        exact ⟨q, out, List.mem_append_left _ h1, h2⟩
      refine ⟨h.plain, fun b hb => ?_, fun fl hfl hw => mono _ (h.flights fl hfl hw), fun q out hq => ?_, fun f r hr => ?_, nodup_concat h.taken hc.2.1, fun j' hj' => ?_, ?_⟩
      · rcases ht_answers c.client s.ht _ b hb with h3 | ⟨hd', k', body', sid', key, st, e, -⟩ | ⟨hd', json, e, hr⟩
        · exact mono _ (h.posts b h3)
        · cases e
        · cases e; exact hrep b hr
      · rcases List.mem_append.1 hq with h1 | h1
        · exact h.replied q out h1
        · exact hnew q out h1
      · rcases h.answers f r hr with h1 | ⟨q, out, h1, h2⟩
        · exact .inl h1
        · exact .inr ⟨q, out, List.mem_append_left _ h1, h2⟩
      · rcases List.mem_append.1 hj' with h1 | h1
        · exact h.bound j' h1
        · simp only [List.mem_singleton] at h1; subst h1; exact hlt
      · show (s.replied ++ clientReplies hd payload).map _ = (s.taken ++ [j]).filterMap _
        rw [List.map_append, List.filterMap_append, hkey, filterMap_one]
        exact congrArg (· ++ _) h.keys
    · exact h
  · exact h

theorem ans_serve {W : Response D → Prop} {c : LinkCfg} {s : Link D} (hl : LinkInv s) (h : AnsInv W s) (i : Nat) (now : Int) (a : Bytes)
    (f : Option TokenInfo → Request D → HandlerOutcome D) (n e : Bool) (d : Bytes) : AnsInv W (s.serve c i now a f n e d) := by
  unfold Link.serve
  split
  · rename_i k p w hi
    obtain ⟨hok, hdel, -⟩ := hl.flights i _ hi
    refine h.server _ (fun m hm => absurd hm (served_takes _ _ _ _ _ _ _ _ m)) (fun g r hr => ?_) (fun fl hfl hw => ?_)
    · obtain ⟨h1, h2⟩ := served_answers _ _ _ _ _ _ _ _ g r hr
      rw [show (c.posted w a).body = w.body from rfl] at h1 h2
      cases p with
      | request key st =>
        obtain ⟨q, hq, -, -, -, e⟩ := hok
        rw [show w.body = serRequest q from e, C15_request_classified q hq.1 hq.2.1 hq.2.2.2] at h1; cases h1
      | note =>
        obtain ⟨n, hn, e⟩ := hok
        rw [show w.body = serNotification n from e, C15_notification_classified n hn.1 hn.2.2] at h1; cases h1
      | answer =>
        obtain ⟨q, out, h3, h4⟩ := h.flights _ (List.mem_of_getElem? hi) rfl
        obtain ⟨h5, -, h6, -⟩ := h.replied q out h3
        refine .inr ⟨q, out, h3, ?_⟩
        rw [h2, show w.body = serResponse (replyFor q out) from h4, answer_read h5.1 h6]
    · rcases mem_set_cases hfl with h1 | h1
      · exact h.flights fl h1 hw
      · subst h1
        exact h.flights ⟨k, p, w, none⟩ (List.mem_of_getElem? hi) hw
  · exact h

theorem ans_step {W : Response D → Prop} {c : LinkCfg} {s : Link D} (hs : Sides c s) (hl : LinkInv s) (h : AnsInv W s) (op : LinkOp D)
    (hop : PlainLinkOp op) (hW : ∀ f r, op = .world (.answer f r) → W r) : AnsInv W (s.step c op) := by
  cases op with
  | start => exact h.quiet .start (fun _ _ _ _ e => by cases e) (fun _ _ e => by cases e)
  | send r => exact h.quiet (.send r) (fun _ _ _ _ e => by cases e) (fun _ _ e => by cases e)
  | file t => exact h.quiet (.file t) (fun _ _ _ _ e => by cases e) (fun _ _ e => by cases e)
  | note n => exact h.quiet (.note n) (fun _ _ _ _ e => by cases e) (fun _ _ e => by cases e)
  | failEarly hd k => exact h.quiet (.failEarly hd k) (fun _ _ _ _ e => by cases e) (fun _ _ e => by cases e)
  | close => exact h.quiet .close (fun _ _ _ _ e => by cases e) (fun _ _ e => by cases e)
  | begin k =>
    simp only [Link.step, Link.begin]
    split
    · rename_i p body hio hk
      have hc := h.quiet (c := c) (.begin k) (fun _ _ _ _ e => by cases e) (fun _ _ e => by cases e)
      refine ⟨hc.plain, hc.posts, fun fl hfl hw => ?_, hc.replied, hc.answers, hc.taken, hc.bound, hc.keys⟩
      rcases List.mem_append.1 hfl with h1 | h1
      · exact h.flights fl h1 hw
      · simp only [List.mem_singleton] at h1
        subst h1
        rw [show p = .answer from hw] at hk
        exact h.posts body (List.mem_of_getElem? hk)
    · exact h
  | serve i now a f n e d => exact ans_serve hl h i now a f n e d
  | arrive hd i =>
    simp only [Link.step, Link.arrive]
    split
    · rename_i k p w r hi
      refine ans_ended hl h hd hi r.body r.session (fun key st hw => ?_)
      rcases hl.replies i _ key st r hi hw rfl with h1 | ⟨q, out, h1⟩
      · exact .inl h1
      · exact .inr ⟨k, q, out, h1⟩
    · exact h
  | lose hd i =>
    simp only [Link.step, Link.lose]
    split
    · rename_i k p w r hi
      exact ans_ended hl h hd hi [] [] (fun key st hw => .inl (.inl rfl))
    · exact h
  | listen now a f n e d =>
    simp only [Link.step, Link.listen]
    split
    · refine h.server _ (fun m hm => absurd hm (served_takes _ _ _ _ _ _ _ _ m)) (fun g r hr => ?_) h.flights
      obtain ⟨h1, -⟩ := served_answers _ _ _ _ _ _ _ _ g r hr
      exact absurd h1 (by show classify ([] : Bytes) ≠ _; decide)
    · exact h
  | event hd j => exact ans_event hs h hd j hop
  | world op =>
    refine h.server [op] (fun m hm => ?_) (fun f r hr => ?_) h.flights
    · simp only [List.mem_singleton] at hm
      subst hm
      cases m with
      | request r => exact hop
      | note n => exact hop
    · simp only [List.mem_singleton] at hr
      subst hr
      exact .inl (hW f r rfl)

/-- The responses others delivered to the server. -/
def OthersSaid (ops : List (LinkOp D)) (r : Response D) : Prop := ∃ f, LinkOp.world (.answer f r) ∈ ops

theorem ansInv_run (c : LinkCfg) (ha : PlainReasons c.auth) (ops : List (LinkOp D)) (hops : ∀ op ∈ ops, PlainLinkOp op)
    (ho : OwnIds ((Link.init : Link D).run c ops).did) : AnsInv (OthersSaid ops) ((Link.init : Link D).run c ops) := by
  refine link_induct (P := fun s => OwnIds s.did → AnsInv (OthersSaid ops) s) c ops (fun _ => ansInv_init _) (fun a op hpre ih hown => ?_) ho
  rw [link_run_concat] at hown ⊢
  have hown' := ownIds_prefix (did_grows c _ op) hown
  have hmem : op ∈ ops := hpre.subset (List.mem_append_right _ (List.mem_singleton.2 rfl))
  refine ans_step (sides_run c a) (linkInv_run c ha a (fun op h => hops op (hpre.subset (List.mem_append_left _ h))) hown') (ih hown') op (hops op hmem)
    (fun f r e => ⟨f, e ▸ hmem⟩)

/-! ### C93 -/

/-- **C93 (partial).** A server and a client over HTTP, any interleaving, any losses, other clients beside: when a request of the server
completes, it completes with an error the server made when the session closed, with a response with its id that somebody else sent, or with exactly the
response owed for what the request handler of the client said to that very request, as the server's caller gave it. Missing: requests, answers,
messages and refusals must be such that they survive the wire format, and the ids each side is given pairwise different and not of the form
it makes itself. -/
theorem C93_answers_partial (c : LinkCfg) (ha : PlainReasons c.auth) (ops : List (LinkOp D)) (hops : ∀ op ∈ ops, PlainLinkOp op) :
    let s := (Link.init : Link D).run c ops
    OwnIds s.did → OwnSrvIds s.srvDid → ∀ (o : Nat) (x : Sess D) (n : Nat) (key : Bytes) (out : SOut D), s.hs.objs[o]? = some x →
      (n, key) ∈ x.pend.sent → (n, out) ∈ x.pend.outcomes →
      ∃ r, out = .resp r ∧ (ServerError key r ∨ (keyText r.id = key ∧ OthersSaid ops r) ∨
        ∃ q a, (q, a) ∈ s.replied ∧ keyText q.id = key ∧ AskedAs s.srvDid q ∧ OwedResponse q a r) := by
  intro s ho hos o x n key out hx hn hout
  have h := ansInv_run c ha ops hops ho
  have hx' : ((Hs.init : Hs D).run s.srvDid).objs[o]? = some x := by rw [← (sides_run c ops).hs]; exact hx
  obtain ⟨r, rfl, h1⟩ := srv_outcome s.srvDid h.plain hos hx' hn hout
  refine ⟨r, rfl, ?_⟩
  rcases h1 with h1 | ⟨h1, f, h2⟩
  · exact .inl h1
  · rcases h.answers f r h2 with h3 | ⟨q, a, h3, rfl⟩
    · exact .inr (.inl ⟨h1, h3⟩)
    · refine .inr (.inr ⟨q, a, h3, ?_, (h.replied q a h3).2.2.2, replyFor_owed q a⟩)
      rw [← h1, replyFor_id]

theorem nodup_filterMap {α β : Type} {f : α → Option β} {l : List α} (hn : l.Nodup)
    (hf : ∀ i ∈ l, ∀ j ∈ l, ∀ k, f i = some k → f j = some k → i = j) : (l.filterMap f).Nodup := by
  induction l with
  | nil => exact List.nodup_nil
  | cons a l ih =>
    have hn' := List.nodup_cons.1 hn
    have := ih hn'.2 (fun i hi j hj => hf i (List.mem_cons_of_mem _ hi) j (List.mem_cons_of_mem _ hj))
    rw [List.filterMap_cons]
    cases ha : f a with
    | none => exact this
    | some k =>
      refine List.nodup_cons.2 ⟨fun hk => ?_, this⟩
      obtain ⟨j, hj, hjk⟩ := List.mem_filterMap.1 hk
      have := hf a (List.mem_cons_self ..) j (List.mem_cons_of_mem _ hj) k ha hjk
      subst this
      exact hn'.1 hj

/-- **C93 (partial).** The request handler of the client is given only requests the caller of the server gave, as they gave them, and no two with the
same id: no request is handled twice. Missing: as above. -/
theorem C93_once_partial (c : LinkCfg) (ha : PlainReasons c.auth) (ops : List (LinkOp D)) (hops : ∀ op ∈ ops, PlainLinkOp op) :
    let s := (Link.init : Link D).run c ops
    OwnIds s.did → OwnSrvIds s.srvDid → (∀ q a, (q, a) ∈ s.replied → AskedAs s.srvDid q) ∧ (s.replied.map (fun x => keyText x.1.id)).Nodup := by
  intro s ho hos
  have h := ansInv_run c ha ops hops ho
  refine ⟨fun q a hq => (h.replied q a hq).2.2.2, ?_⟩
  rw [h.keys]
  have hid := srvIds_run s.srvDid h.plain hos
  rw [← (sides_run c ops).hs] at hid
  have hev : (eventKeys s.hs).Nodup := (List.nodup_append.1 (List.nodup_append.1 (List.nodup_append.1 hid.nodup).2.1).2.1).2.1
  refine nodup_filterMap h.taken (fun i hi j hj k h1 h2 => ?_)
  unfold eventKey at h1 h2
  rw [Option.bind_eq_some_iff] at h1 h2
  obtain ⟨x, h3, h4⟩ := h1
  obtain ⟨y, h5, h6⟩ := h2
  exact filterMap_inj hev h3 h5 h4 h6

/-- **C93 (partial).** A request of the server that reaches the client on one of its event streams is given to the client's request handler, as the
server's caller gave it, and exactly the response owed is queued to be sent. Missing: as above. -/
theorem C93_asked_partial (c : LinkCfg) (ha : PlainReasons c.auth) (ops : List (LinkOp D)) (hops : ∀ op ∈ ops, PlainLinkOp op) (hd : HtHandlers D) :
    let s := (Link.init : Link D).run c ops
    OwnIds s.did → ∀ (j k i : Nat) (payload : Bytes) (ok : Bool), s.hs.events[j]? = some (k, (i, payload), ok) → classify payload = .request →
      k ∈ s.mine → j ∉ s.taken → s.ht.sse = true → s.ht.connected = true →
      ∃ q out r, AskedAs s.srvDid q ∧ payload = serRequest q ∧ ClientSays hd q out ∧ OwedResponse q out r ∧
        (s.step c (.event hd j)).replied = s.replied ++ [(q, out)] ∧
        (s.step c (.event hd j)).ht.posts = s.ht.posts ++ [.queued .answer (serResponse r)] := by
  intro s ho j k i payload ok hj hc hk hnt hsse hcon
  have h := ansInv_run c ha ops hops ho
  have hj' : ((Hs.init : Hs D).run s.srvDid).events[j]? = some (k, (i, payload), ok) := by rw [← (sides_run c ops).hs]; exact hj
  rcases event_text s.srvDid h.plain hj' with ⟨q, h1, h2, h3, e⟩ | ⟨n, h1, -, e⟩
  · obtain ⟨f, hf⟩ : ∃ f, hd.wrap.request = some f := ⟨_, rfl⟩
    have hsays : ClientSays hd q (f q) := by
      unfold HtHandlers.wrap at hf
      simp only [Option.some.injEq] at hf
      refine ⟨fun g hg => ?_, fun hn => ?_⟩
      · rw [← hf]; simp only [hg]
      · rw [← hf]; simp only [hn]; rfl
    have hr := route_request hd.wrap f hf h1
    have hcr : clientReplies hd payload = [(q, f q)] := by
      unfold clientReplies
      rw [e, hr, hf]; rfl
    have hstep : s.step c (.event hd j) = { s.client c (.event hd payload) with taken := s.taken ++ [j], replied := s.replied ++ clientReplies hd payload } := by
      simp only [Link.step, Link.event, hj]
      exact if_pos ⟨hk, hnt, hsse, hcon⟩
    refine ⟨q, f q, replyFor q (f q), h3, e, hsays, replyFor_owed q _, by rw [hstep, hcr], ?_⟩
    rw [hstep]
    show (s.ht.step c.client (.event hd payload)).posts = _
    have e2 : s.ht.step c.client (.event hd payload) = s.ht.incoming hd payload [] := by
      simp only [Ht.step, Ht.event, hsse, hcon]; rfl
    obtain ⟨t, he⟩ := incoming_eq hd s.ht payload []
    rw [e2, he, e, hr]
    rfl
  · rw [e, C15_notification_classified n h1.1 h1.2.2] at hc; cases hc

theorem answer_served (c : LinkCfg) (s : Link D) (p i : Nat) {body : Bytes} (hi : i = s.flights.length) (now : Int) (authorization : Bytes)
    (f : Option TokenInfo → Request D → HandlerOutcome D) (notes errors : Bool) (drawn : Bytes) (hio : s.ht.io = .running)
    (hp : s.ht.posts[p]? = some (.queued .answer body)) :
    (s.run c [.begin p, .serve i now authorization f notes errors drawn]).hs = s.hs.run (Http.serve c.loopback c.server c.auth now
      (fun tok => ⟨some (f tok), notes, errors⟩) s.hs drawn
      (c.posted ⟨false, c.client.pathFor .answer, if c.client.streamable then s.ht.session else [], body⟩ authorization)).ops := by
  have e1 : s.step c (.begin p) = { s.client c (.begin p) with
      flights := s.flights ++ [⟨p, .answer, ⟨false, c.client.pathFor .answer, if c.client.streamable then s.ht.session else [], body⟩, none⟩] } := by
    simp only [Link.step, Link.begin, hio, hp]
  show ((s.step c (.begin p)).step c (.serve i now authorization f notes errors drawn)).hs = _
  rw [e1, hi]
  simp only [Link.step, Link.serve]
  rw [List.getElem?_concat_length]
  rfl

/-- **C93 (partial).** While the session of the client lives at the server, with the version the client names, an answer of the client that is sent and
passes the checks of the server completes the request it answers, if that waits in this session, with exactly the response owed for what the
handler of the client said. Missing: the network delivers, and as above. -/
theorem C93_delivered_partial (c : LinkCfg) (ha : PlainReasons c.auth) (ops : List (LinkOp D)) (hops : ∀ op ∈ ops, PlainLinkOp op) (now : Int)
    (authorization : Bytes) (f : Option TokenInfo → Request D → HandlerOutcome D) (notes errors : Bool) (drawn : Bytes) :
    let s := (Link.init : Link D).run c ops
    OwnIds s.did → ∀ (p : Nat) (body : Bytes) (tok : Option TokenInfo) (o : Nat) (y : Sess D), s.ht.io = .running →
      s.ht.posts[p]? = some (.queued .answer body) → c.client.endpointPath ≠ [] →
      AtEndpoint c.loopback c.server c.auth now (c.posted ⟨false, c.client.endpointPath, s.ht.session, body⟩ authorization) tok →
      s.ht.session ≠ [] → s.hs.lookup s.ht.session = some o → s.hs.objs[o]? = some y → y.version = lit "2025-11-25" →
      ∃ q a r, (q, a) ∈ s.replied ∧ OwedResponse q a r ∧ body = serResponse r ∧
        ∀ n, AMap.get y.pend.pending (keyText q.id) = some n →
          ∃ y', (s.run c [.begin p, .serve s.flights.length now authorization f notes errors drawn]).hs.objs[o]? = some y' ∧
            (n, .resp r) ∈ y'.pend.outcomes := by
  intro s ho p body tok o y hio hp hend hat hsess hlook hy hv
  have h := ansInv_run c ha ops hops ho
  obtain ⟨q, a, h1, rfl⟩ := h.posts body (List.mem_of_getElem? hp)
  obtain ⟨h2, h3, h4, -⟩ := h.replied q a h1
  have hst : c.client.streamable = true := (streamable_iff _).2 hend
  have hpath : c.client.pathFor .answer = c.client.endpointPath := by
    show c.client.notifyTo = _
    unfold HtOpts.notifyTo
    rw [if_pos hst]
  have hcls := replyFor_classified h2.1 h4.out
  have hread := answer_read h2.1 h4
  refine ⟨q, a, replyFor q a, h1, replyFor_owed q a, rfl, fun n hn => ?_⟩
  rw [answer_served c s p _ rfl now authorization f notes errors drawn hio hp, hpath, hst, if_pos rfl]
  generalize hreq : c.posted ⟨false, c.client.endpointPath, s.ht.session, serResponse (replyFor q a)⟩ authorization = req at hat
  have r1 : req.session = s.ht.session := by rw [← hreq]; rfl
  have r2 : req.version = currentVersion := by rw [← hreq]; show (if c.client.streamable then _ else _) = _; rw [hst]; rfl
  have r3 : req.verb = .post := by rw [← hreq]; rfl
  have r4 : req.body = serResponse (replyFor q a) := by rw [← hreq]; rfl
  have hops' : (Http.serve c.loopback c.server c.auth now (fun tok => (⟨some (f tok), notes, errors⟩ : Handlers D)) s.hs drawn req).ops =
      [.find s.ht.session, .answer s.hs.finds.length (replyFor q a)] := by
    rw [endpoint_serve hat (by rw [r3]; intro e; cases e)]
    unfold handleEndpoint
    rw [if_neg (by rw [r3]; intro e; cases e), if_neg (by rw [r3]; simp)]
    have hop : opening (D := D) req = none := by
      unfold opening
      split
      · rw [if_neg (fun hh => hsess (r1 ▸ hh.2))]
      · rfl
    rw [hop, r1, hlook]
    simp only [hy]
    rw [r2, hv, if_neg (by decide)]
    unfold withinSession
    simp only [r4]
    rw [C14_response_silent _ _ hcls]
    show _ ++ _ = _
    rw [hread]
    rfl
  rw [hops']
  refine ⟨y.resolve (replyFor q a), ?_, ?_⟩
  · show (((s.hs.find s.ht.session).answer s.hs.finds.length (replyFor q a)).objs[o]?) = _
    unfold Hs.answer
    rw [show (s.hs.find s.ht.session).finds[s.hs.finds.length]? = some (some o) by
      show (s.hs.finds ++ [s.hs.lookup s.ht.session])[s.hs.finds.length]? = _
      rw [List.getElem?_concat_length, hlook]]
    show (s.hs.objs.modify o _)[o]? = _
    rw [modify_get, hy]
    simp
  · unfold Sess.resolve
    rw [replyFor_id, if_neg h3]
    exact PTab.complete_outcome hn

/-! ### An answer that is not sent -/

/-- The request waits, or the server ended it. -/
def StillWaits (s : Hs D) (o n : Nat) (key : Bytes) : Prop :=
  ∃ x, s.objs[o]? = some x ∧ (n, key) ∈ x.pend.sent ∧ (AMap.get x.pend.pending key = some n ∨ ∃ r, ServerError key r ∧ (n, .resp r) ∈ x.pend.outcomes)

theorem closeAll_get {t : PTab (SOut D)} {key : Bytes} {n : Nat} (h : AMap.get t.pending key = some n) (f : Bytes → SOut D) :
    (n, f key) ∈ (t.closeAll f).outcomes :=
  List.mem_append_right _ (List.mem_map.2 ⟨_, AMap.get_some_mem h, rfl⟩)

theorem stillWaits_step {L : List (HsOp D)} (hp : ∀ m, HsOp.take m ∈ L → PlainGoing m) {op : HsOp D} (ho : OwnSrvIds (L ++ [op])) {o n : Nat} {key : Bytes}
    (hno : ∀ f r, op = .answer f r → keyText r.id ≠ key) (h : StillWaits ((Hs.init : Hs D).run L) o n key) :
    StillWaits ((Hs.init : Hs D).run (L ++ [op])) o n key := by
  have hid := srvIds_run L hp (ownSrvIds_init ho)
  have hplain := hsPlain_run hsPlain_init L hp
  rw [hs_run_concat]
  generalize (Hs.init : Hs D).run L = s at h hid hplain
  obtain ⟨x, hx, hs, hw⟩ := h
  have hclose : ∀ text ∈ [lit "HTTP session closed", lit "Transport closed"], (n, key) ∈ (x.close text).pend.sent ∧
      (AMap.get (x.close text).pend.pending key = some n ∨ ∃ r, ServerError key r ∧ (n, .resp r) ∈ (x.close text).pend.outcomes) := by
    intro text ht
    refine ⟨hs, .inr ?_⟩
    rcases hw with h1 | ⟨r, h1, h2⟩
    · exact ⟨_, ⟨rfl, rfl, text, ht, rfl⟩, closeAll_get h1 (closedOut text)⟩
    · exact ⟨r, h1, List.mem_append_left _ h2⟩
  refine ⟨objEffect s op o x, step_obj s op o x hx, ?_⟩
  cases op with
  | remove sid => simp only [objEffect]; split; exact hclose _ (by simp); exact ⟨hs, hw⟩
  | stop => simp only [objEffect]; split; exact hclose _ (by simp); exact ⟨hs, hw⟩
  | answer f r =>
    simp only [objEffect]
    split
    · unfold Sess.resolve
      split
      · exact ⟨hs, hw⟩
      · refine ⟨by rw [show ({ x with pend := x.pend.complete (keyText r.id) (.resp r) } : Sess D).pend.sent = x.pend.sent from PTab.complete_sent _ _]; exact hs, ?_⟩
        rcases hw with h1 | ⟨r', h1, h2⟩
        · left
          show AMap.get (x.pend.complete _ _).pending key = _
          rw [PTab.complete_other (fun e => hno f r rfl e.symm)]; exact h1
        · refine .inr ⟨r', h1, ?_⟩
          show _ ∈ (x.pend.complete _ _).outcomes
          unfold PTab.complete
          split
          · exact List.mem_append_left _ h2
          · exact h2
    · exact ⟨hs, hw⟩
  | pump k ok => simp only [objEffect]; split; exact ⟨hs, hw⟩; exact ⟨hs, hw⟩
  | advance c =>
    simp only [objEffect]
    split
    · rename_i o' r hc
      split
      · have hfresh := (srvIds_filing hid (ownSrvIds_init ho) hc (hplain.found o' _ (List.mem_of_getElem? hc))).1
        have hne : key ≠ keyText (s.withId r).1.id := fun e => hfresh (e ▸ hid.sent x (List.mem_of_getElem? hx) n key hs)
        generalize keyText (s.withId r).1.id = k at hne
        refine ⟨List.mem_append_left _ hs, ?_⟩
        rcases hw with h1 | ⟨r', h1, h2⟩
        · left
          show AMap.get (AMap.put x.pend.pending k _) key = _
          rw [AMap.get_put_ne _ _ hne]; exact h1
        · refine .inr ⟨r', h1, ?_⟩
          show _ ∈ (match AMap.get x.pend.pending k with | some old => x.pend.outcomes ++ [(old, SOut.broken)] | none => x.pend.outcomes)
          split
          · exact List.mem_append_left _ h2
          · exact h2
      · exact ⟨hs, hw⟩
    · split
      · exact ⟨hs, hw⟩
      · exact ⟨hs, hw⟩
    · split
      · exact ⟨hs, hw⟩
      · exact ⟨hs, hw⟩
    · exact ⟨hs, hw⟩
  | _ => exact ⟨hs, hw⟩

theorem stillWaits_run (L ops : List (HsOp D)) (hp : ∀ m, HsOp.take m ∈ L ++ ops → PlainGoing m) (ho : OwnSrvIds (L ++ ops)) {o n : Nat} {key : Bytes}
    (hno : ∀ f r, HsOp.answer f r ∈ ops → keyText r.id ≠ key) (h : StillWaits ((Hs.init : Hs D).run L) o n key) :
    StillWaits ((Hs.init : Hs D).run (L ++ ops)) o n key := by
  induction ops generalizing L with
  | nil => rw [List.append_nil]; exact h
  | cons op ops ih =>
    rw [List.append_cons] at hp ho ⊢
    refine ih (L ++ [op]) hp ho (fun f r hm => hno f r (List.mem_cons_of_mem _ hm)) ?_
    exact stillWaits_step (fun m hm => hp m (List.mem_append_left _ (List.mem_append_left _ hm))) (ownSrvIds_init ho)
      (fun f r e => hno f r (e ▸ List.mem_cons_self ..)) h

/-- The request was given to the handler of the client, and nothing that answers it is still to be sent or served. -/
structure GivenUp (key : Bytes) (s : Link D) : Prop where
  said : key ∈ s.replied.map (fun x => keyText x.1.id)
  posts : ∀ b, PostStage.queued .answer b ∈ s.ht.posts → keyText (deResponse (D := D) b).id ≠ key
  flights : ∀ fl ∈ s.flights, fl.what = .answer → fl.reply = none → keyText (deResponse (D := D) fl.sent.body).id ≠ key

theorem said_grows (c : LinkCfg) (s : Link D) (op : LinkOp D) : s.replied <+: (s.step c op).replied ∧ s.srvDid <+: (s.step c op).srvDid := by
  have en : ∀ hd k b sid, s.replied <+: (s.ended c hd k b sid).replied ∧ s.srvDid <+: (s.ended c hd k b sid).srvDid := by
    intro hd k b sid
    unfold Link.ended
    split
    · exact ⟨List.prefix_append _ _, List.prefix_refl _⟩
    · exact ⟨List.prefix_refl _, List.prefix_refl _⟩
    · exact ⟨List.prefix_refl _, List.prefix_refl _⟩
  cases op with
  | begin k =>
    simp only [Link.step, Link.begin]
    split <;> exact ⟨List.prefix_refl _, List.prefix_refl _⟩
  | serve i now a f n e d =>
    simp only [Link.step, Link.serve]
    split
    · exact ⟨List.prefix_refl _, List.prefix_append _ _⟩
    · exact ⟨List.prefix_refl _, List.prefix_refl _⟩
  | arrive hd i =>
    simp only [Link.step, Link.arrive]
    split
    · exact en _ _ _ _
    · exact ⟨List.prefix_refl _, List.prefix_refl _⟩
  | lose hd i =>
    simp only [Link.step, Link.lose]
    split
    · exact en _ _ _ _
    · exact ⟨List.prefix_refl _, List.prefix_refl _⟩
  | listen now a f n e d =>
    simp only [Link.step, Link.listen]
    split
    · exact ⟨List.prefix_refl _, List.prefix_append _ _⟩
    · exact ⟨List.prefix_refl _, List.prefix_refl _⟩
  | event hd j =>
    simp only [Link.step, Link.event]
    split
    · split
      · exact ⟨List.prefix_append _ _, List.prefix_refl _⟩
      · exact ⟨List.prefix_refl _, List.prefix_refl _⟩
    · exact ⟨List.prefix_refl _, List.prefix_refl _⟩
  | world op => exact ⟨List.prefix_refl _, List.prefix_append _ _⟩
  | _ => exact ⟨List.prefix_refl _, List.prefix_refl _⟩

/-- A step that answers the key neither in what the server gets nor in what is to be sent. -/
def StaysUp (key : Bytes) (s s' : Link D) : Prop :=
  GivenUp key s' ∧ ∃ new, s'.srvDid = s.srvDid ++ new ∧ ∀ f r, HsOp.answer f r ∈ new → keyText r.id ≠ key

theorem givenUp_client {key : Bytes} {c : LinkCfg} {s : Link D} (h : GivenUp key s) (op : HtOp D)
    (ho : ∀ b, PostStage.queued .answer b ∈ (s.ht.step c.client op).posts → PostStage.queued .answer b ∈ s.ht.posts) : StaysUp key s (s.client c op) :=
  ⟨⟨h.said, fun b hb => h.posts b (ho b hb), h.flights⟩, [], (List.append_nil _).symm, fun f r hm => (by cases hm)⟩

theorem givenUp_quiet {key : Bytes} {c : LinkCfg} {s : Link D} (h : GivenUp key s) (op : HtOp D)
    (h1 : ∀ hd k b sid, op ≠ .finish hd k b sid) (h2 : ∀ hd b, op ≠ .event hd b) : StaysUp key s (s.client c op) := by
  refine givenUp_client h op (fun b hb => ?_)
  rcases ht_answers c.client s.ht op b hb with h3 | ⟨hd, k, body, sid, key, st, e, -⟩ | ⟨hd, json, e, -⟩
  · exact h3
  · exact absurd e (h1 _ _ _ _)
  · exact absurd e (h2 _ _)

theorem staysUp_refl {key : Bytes} {s : Link D} (h : GivenUp key s) : StaysUp key s s :=
  ⟨h, [], (List.append_nil _).symm, fun f r hm => (by cases hm)⟩

theorem givenUp_ended {key : Bytes} {c : LinkCfg} {s : Link D} (hl : LinkInv s) (h : GivenUp key s) (hd : HtHandlers D) {i : Nat} {fl : Flight}
    (hfl : s.flights[i]? = some fl) (b sid : Bytes) (hb : ∀ key st, fl.what = .request key st → BodyFor s.handled key b) :
    StaysUp key s (s.ended c hd fl.post b sid) := by
  obtain ⟨-, -, hst⟩ := hl.flights i fl hfl
  have silent : ∀ key st, s.ht.posts[fl.post]? = some (.sent (.request key st)) → (route hd.wrap b).reply = none := by
    intro key st hk
    refine (bodyFor_silent (hb key st ?_) hd.wrap).1
    rcases hst with h1 | h1
    · rw [hk] at h1
      simp only [Option.some.injEq, PostStage.sent.injEq] at h1
      exact h1.symm
    · rw [hk] at h1; cases h1
  have hcl : StaysUp key s (s.client c (.finish hd fl.post b sid)) := by
    refine givenUp_client h _ (fun t ht => ?_)
    rcases ht_answers c.client s.ht _ t ht with h3 | ⟨hd', k', body', sid', key, st, e, hk, hr⟩ | ⟨hd', json, e, -⟩
    · exact h3
    · cases e
      rw [silent key st hk] at hr; cases hr
    · cases e
  unfold Link.ended
  split
  · exact ⟨⟨by rw [show ({ s.client c (.finish hd fl.post b sid) with replied := s.replied ++ clientReplies hd b } : Link D).replied = s.replied ++ clientReplies hd b from rfl, List.map_append]; exact List.mem_append_left _ h.said, hcl.1.posts, hcl.1.flights⟩, hcl.2⟩
  · exact hcl
  · exact staysUp_refl h

theorem givenUp_step {W : Response D → Prop} {key : Bytes} {c : LinkCfg} {s : Link D} (hs : Sides c s) (hl : LinkInv s) (ha : AnsInv W s) (h : GivenUp key s) (op : LinkOp D)
    (hop : PlainLinkOp op) (hW : ∀ f r, op = .world (.answer f r) → keyText r.id ≠ key)
    (hn : ((s.step c op).replied.map (fun x => keyText x.1.id)).Nodup) : StaysUp key s (s.step c op) := by
  cases op with
  | start => exact givenUp_quiet h .start (fun _ _ _ _ e => by cases e) (fun _ _ e => by cases e)
  | send r => exact givenUp_quiet h (.send r) (fun _ _ _ _ e => by cases e) (fun _ _ e => by cases e)
  | file t => exact givenUp_quiet h (.file t) (fun _ _ _ _ e => by cases e) (fun _ _ e => by cases e)
  | note n => exact givenUp_quiet h (.note n) (fun _ _ _ _ e => by cases e) (fun _ _ e => by cases e)
  | failEarly hd k => exact givenUp_quiet h (.failEarly hd k) (fun _ _ _ _ e => by cases e) (fun _ _ e => by cases e)
  | close => exact givenUp_quiet h .close (fun _ _ _ _ e => by cases e) (fun _ _ e => by cases e)
  | begin k =>
    simp only [Link.step, Link.begin]
    split
    · rename_i p body hio hk
      obtain ⟨hc, hnew⟩ := givenUp_quiet (c := c) h (.begin k) (fun _ _ _ _ e => by cases e) (fun _ _ e => by cases e)
      refine ⟨⟨hc.said, hc.posts, fun fl hfl hw hr => ?_⟩, hnew⟩
      rcases List.mem_append.1 hfl with h1 | h1
      · exact h.flights fl h1 hw hr
      · simp only [List.mem_singleton] at h1
        subst h1
        rw [show p = .answer from hw] at hk
        exact h.posts body (List.mem_of_getElem? hk)
    · exact staysUp_refl h
  | serve i now a f n e d =>
    simp only [Link.step, Link.serve]
    split
    · rename_i k p w hi
      obtain ⟨hok, hdel, -⟩ := hl.flights i _ hi
      refine ⟨⟨h.said, h.posts, fun fl hfl hw hr => ?_⟩, _, rfl, fun g r hr => ?_⟩
      · rcases mem_set_cases hfl with h1 | h1
        · exact h.flights fl h1 hw hr
        · subst h1; cases hr
      · obtain ⟨h1, h2⟩ := served_answers _ _ _ _ _ _ _ _ g r hr
        rw [show (c.posted w a).body = w.body from rfl] at h1 h2
        cases p with
        | request key st =>
          obtain ⟨q, hq, -, -, -, e⟩ := hok
          rw [show w.body = serRequest q from e, C15_request_classified q hq.1 hq.2.1 hq.2.2.2] at h1; cases h1
        | note =>
          obtain ⟨n, hn, e⟩ := hok
          rw [show w.body = serNotification n from e, C15_notification_classified n hn.1 hn.2.2] at h1; cases h1
        | answer => rw [h2]; exact h.flights _ (List.mem_of_getElem? hi) rfl rfl
    · exact staysUp_refl h
  | arrive hd i =>
    simp only [Link.step, Link.arrive]
    split
    · rename_i k p w r hi
      refine givenUp_ended hl h hd hi r.body r.session (fun key st hw => ?_)
      rcases hl.replies i _ key st r hi hw rfl with h1 | ⟨q, out, h1⟩
      · exact .inl h1
      · exact .inr ⟨k, q, out, h1⟩
    · exact staysUp_refl h
  | lose hd i =>
    simp only [Link.step, Link.lose]
    split
    · rename_i k p w r hi
      exact givenUp_ended hl h hd hi [] [] (fun key st hw => .inl (.inl rfl))
    · exact staysUp_refl h
  | listen now a f n e d =>
    simp only [Link.step, Link.listen]
    split
    · refine ⟨⟨h.said, h.posts, h.flights⟩, _, rfl, fun g r hr => ?_⟩
      obtain ⟨h1, -⟩ := served_answers _ _ _ _ _ _ _ _ g r hr
      exact absurd h1 (by show classify ([] : Bytes) ≠ _; decide)
    · exact staysUp_refl h
  | event hd j =>
    simp only [Link.step, Link.event] at hn ⊢
    split at hn
    · rename_i k i payload ok hj
      split at hn
      · rename_i hc
        rw [if_pos hc]
        have hj' := hj
        rw [hs.hs] at hj'
        have htext := event_text s.srvDid ha.plain hj'
        obtain ⟨f, hwf, hpf⟩ := wrap_plain hop
        have hn' : ((s.replied ++ clientReplies hd payload).map (fun x => keyText x.1.id)).Nodup := hn
        rw [List.map_append] at hn'
        refine ⟨⟨?_, fun b hb => ?_, h.flights⟩, [], (List.append_nil _).symm, fun f r hm => (by cases hm)⟩
        · show key ∈ (s.replied ++ clientReplies hd payload).map (fun x => keyText x.1.id)
          rw [List.map_append]
          exact List.mem_append_left _ h.said
        · rcases ht_answers c.client s.ht _ b hb with h3 | ⟨hd', k', body', sid', key, st, e, -⟩ | ⟨hd', json, e, hr⟩
          · exact h.posts b h3
          · cases e
          · cases e
            rcases htext with ⟨q, h1, h2, h3, e⟩ | ⟨n, h1, -, e⟩
            · have hcr : clientReplies hd payload = [(q, f q)] := by
                unfold clientReplies
                rw [show payload = serRequest q from e, route_request hd.wrap f hwf h1, hwf]
                rfl
              rw [show payload = serRequest q from e, route_request hd.wrap f hwf h1] at hr
              cases hr
              rw [answer_read h1.1 (hpf q), replyFor_id]
              intro e'
              rw [hcr] at hn'
              exact (List.nodup_append.1 hn').2.2 key h.said key (by simp [e']) rfl
            · rw [show payload = serNotification n from e, (route_note hd.wrap h1).1] at hr; cases hr
      · rename_i hc
        rw [if_neg hc]; exact staysUp_refl h
    · exact staysUp_refl h
  | world op =>
    refine ⟨⟨h.said, h.posts, h.flights⟩, [op], rfl, fun f r hm => ?_⟩
    simp only [List.mem_singleton] at hm
    exact hW f r (by rw [hm])

theorem link_run_append (c : LinkCfg) (s : Link D) (a b : List (LinkOp D)) : s.run c (a ++ b) = (s.run c a).run c b := List.foldl_append

theorem ownSrvIds_prefix {a b : List (HsOp D)} (h : a <+: b) (hb : OwnSrvIds b) : OwnSrvIds a := by
  obtain ⟨t, rfl⟩ := h
  exact ownSrvIds_init hb

theorem givenUp_run (c : LinkCfg) (ha : PlainReasons c.auth) (ops more : List (LinkOp D)) (hops : ∀ op ∈ ops ++ more, PlainLinkOp op)
    (ho : OwnIds ((Link.init : Link D).run c (ops ++ more)).did) (hos : OwnSrvIds ((Link.init : Link D).run c (ops ++ more)).srvDid) {key : Bytes}
    (hW : ∀ f r, LinkOp.world (.answer f r) ∈ more → keyText r.id ≠ key) (h : GivenUp key ((Link.init : Link D).run c ops)) :
    StaysUp key ((Link.init : Link D).run c ops) ((Link.init : Link D).run c (ops ++ more)) := by
  have key' : ∀ l : List (LinkOp D), l.reverse <+: more → StaysUp key ((Link.init : Link D).run c ops) ((Link.init : Link D).run c (ops ++ l.reverse)) := by
    intro l
    induction l with
    | nil => intro _; rw [List.reverse_nil, List.append_nil]; exact staysUp_refl h
    | cons op l ih =>
      intro hpre
      rw [List.reverse_cons] at hpre ⊢
      obtain ⟨h1, new, h2, h3⟩ := ih ((List.prefix_append _ _).trans hpre)
      obtain ⟨t, ht⟩ := hpre
      have hall : ops ++ more = (ops ++ l.reverse ++ [op]) ++ t := by rw [← ht]; simp
      rw [← List.append_assoc]
      have hgrow : ∀ (t : List (LinkOp D)) (s : Link D), s.did <+: (s.run c t).did ∧ s.srvDid <+: (s.run c t).srvDid := by
        intro t
        induction t with
        | nil => intro s; exact ⟨List.prefix_refl _, List.prefix_refl _⟩
        | cons x t ih =>
          intro s
          exact ⟨(did_grows c s x).trans (ih (s.step c x)).1, (said_grows c s x).2.trans (ih (s.step c x)).2⟩
      have ho' : OwnIds ((Link.init : Link D).run c (ops ++ l.reverse ++ [op])).did := by
        rw [hall, link_run_append c _ _ t] at ho
        exact ownIds_prefix (hgrow t _).1 ho
      have hos' : OwnSrvIds ((Link.init : Link D).run c (ops ++ l.reverse ++ [op])).srvDid := by
        rw [hall, link_run_append c _ _ t] at hos
        exact ownSrvIds_prefix (hgrow t _).2 hos
      have hpl : ∀ x ∈ ops ++ l.reverse ++ [op], PlainLinkOp x := fun x hx => hops x (by rw [hall]; exact List.mem_append_left _ hx)
      have honce := (C93_once_partial c ha (ops ++ l.reverse ++ [op]) hpl ho' hos').2
      rw [link_run_concat] at honce ho' ⊢
      have ho'' := ownIds_prefix (did_grows c _ op) ho'
      have hpl' : ∀ x ∈ ops ++ l.reverse, PlainLinkOp x := fun x hx => hpl x (List.mem_append_left _ hx)
      obtain ⟨h4, new', h5, h6⟩ := givenUp_step (sides_run c (ops ++ l.reverse)) (linkInv_run c ha _ hpl' ho'') (ansInv_run c ha _ hpl' ho'') h1 op
        (hpl op (List.mem_append_right _ (List.mem_singleton.2 rfl)))
        (fun f r e => hW f r (by rw [← ht, ← e]; simp)) honce
      refine ⟨h4, new ++ new', by rw [h5, h2, List.append_assoc], fun f r hm => ?_⟩
      rcases List.mem_append.1 hm with h7 | h7
      · exact h3 f r h7
      · exact h6 f r h7
  have := key' more.reverse (by rw [List.reverse_reverse]; exact List.prefix_refl _)
  rwa [List.reverse_reverse] at this

/-- **C93**, the other way about: the client sends an answer once. When the connection for it fails, nothing completes the request at the server
any more, whatever the two sides do: it waits until the session is closed, then it ends with the server's own error (or somebody else answers it). -/
theorem C93_unsent_counterexample (c : LinkCfg) (ha : PlainReasons c.auth) (ops more : List (LinkOp D)) (hops : ∀ op ∈ ops ++ more, PlainLinkOp op) :
    let s := (Link.init : Link D).run c ops
    let t := (Link.init : Link D).run c (ops ++ more)
    OwnIds t.did → OwnSrvIds t.srvDid → ∀ (o : Nat) (x : Sess D) (key : Bytes) (n : Nat), s.hs.objs[o]? = some x →
      AMap.get x.pend.pending key = some n → GivenUp key s → (∀ f r, LinkOp.world (.answer f r) ∈ more → keyText r.id ≠ key) →
      ∃ y, t.hs.objs[o]? = some y ∧ (AMap.get y.pend.pending key = some n ∨ ∃ r, ServerError key r ∧ (n, .resp r) ∈ y.pend.outcomes) := by
  intro s t ho hos o x key n hx hn hg hW
  obtain ⟨-, new, h1, h2⟩ := givenUp_run c ha ops more hops ho hos hW hg
  have hpl := (ansInv_run c ha (ops ++ more) hops ho).plain
  have hinv := run_inv s.srvDid (Hs.init : Hs D) (fun o x hx => by simp [Hs.init] at hx) o x (by rw [← (sides_run c ops).hs]; exact hx)
  have hsw : StillWaits ((Hs.init : Hs D).run s.srvDid) o n key := by
    rw [← (sides_run c ops).hs]
    exact ⟨x, hx, hinv.pend _ _ (AMap.get_some_mem hn), .inl hn⟩
  have := stillWaits_run s.srvDid new (by rw [← h1]; exact hpl) (by rw [← h1]; exact hos) h2 hsw
  rw [← h1, ← (sides_run c (ops ++ more)).hs] at this
  obtain ⟨y, h3, -, h4⟩ := this
  exact ⟨y, h3, h4⟩

/-! ### The hypotheses are met -/

/-- A client that listens, and a server that asks it for its roots. -/
def askOps : List (LinkOp Empty) :=
  (demoOps (lit "2025-11-25")).take 6 ++
    [.listen 0 [] demoSays true true [], .world (.take (.request ⟨.null, lit "roots/list", none⟩)), .world (.advance 0), .world (.advance 0), .world (.pump 0 true)]

/-- The client answers that it has none. -/
def askClient : HtHandlers Empty := ⟨some fun _ => .resp ⟨.null, some (.str (lit "none")), none⟩, true, true⟩

theorem ask_plain : ∀ op ∈ askOps ++ [.event askClient 0], PlainLinkOp op := by
  intro op hop
  rcases List.mem_append.1 hop with hop | hop
  · rcases List.mem_append.1 hop with hop | hop
    · exact demo_plain _ op (List.mem_of_mem_take hop)
    · simp only [List.mem_cons, List.not_mem_nil, or_false] at hop
      rcases hop with rfl | rfl | rfl | rfl | rfl
      · trivial
      · exact ⟨trivial, (plain_dec (by decide) : PlainText (lit "roots/list")), (by decide : lit "roots/list" ≠ []), fun v hv => (by cases hv)⟩
      · trivial
      · trivial
      · trivial
  · simp only [List.mem_singleton] at hop
    subst hop
    intro f hf q
    cases hf
    refine ⟨fun v hv => ?_, fun v hv => (by cases hv), fun h => (by cases h), .inl (by simp)⟩
    cases hv
    exact ⟨trivial, fun h => (by cases h)⟩

/-- The request reaches the client: the hypotheses of `C93_asked_partial`. -/
example : let s := (Link.init : Link Empty).run demoCfg askOps
    OwnIds s.did ∧ s.hs.events[0]? = some (0, (1, serRequest (⟨.str (lit "http-server-req-1"), lit "roots/list", none⟩ : Request Empty)), true) ∧
    classify (serRequest (⟨.str (lit "http-server-req-1"), lit "roots/list", none⟩ : Request Empty)) = .request ∧ 0 ∈ s.mine ∧ 0 ∉ s.taken ∧
    s.ht.sse = true ∧ s.ht.connected = true :=
  ⟨⟨by decide +kernel, by decide +kernel, by decide +kernel⟩, by decide +kernel, by decide +kernel,
    by decide +kernel, by decide +kernel, by decide +kernel, by decide +kernel⟩

/-- The answer is to be sent: the hypotheses of `C93_delivered_partial`; and it is delivered: the hypotheses of `C93_answers_partial` and
`C93_once_partial`. -/
example : let s := (Link.init : Link Empty).run demoCfg (askOps ++ [.event askClient 0])
    let t := s.run demoCfg [.begin 1, .serve 1 0 [] demoSays true true []]
    let body := serResponse (⟨.str (lit "http-server-req-1"), some (.str (lit "none")), none⟩ : Response Empty)
    OwnIds s.did ∧ s.ht.io = .running ∧ s.ht.posts[1]? = some (.queued .answer body) ∧
    AtEndpoint demoCfg.loopback demoCfg.server demoCfg.auth 0 (demoCfg.posted ⟨false, demoCfg.client.endpointPath, s.ht.session, body⟩ []) none ∧
    s.ht.session ≠ [] ∧ s.hs.lookup s.ht.session = some 0 ∧ (s.hs.objs[0]?.map (·.version)) = some (lit "2025-11-25") ∧
    (s.hs.objs[0]?.bind (fun y => AMap.get y.pend.pending (lit "http-server-req-1"))) = some 0 ∧
    OwnIds t.did ∧ OwnSrvIds t.srvDid ∧ t.replied.map (fun x => keyText x.1.id) = [lit "http-server-req-1"] ∧
    (t.hs.objs[0]?.map (fun y => (y.pend.sent, y.pend.outcomes.map (·.1)))) = some ([(0, lit "http-server-req-1")], [0]) :=
  ⟨⟨by decide +kernel, by decide +kernel, by decide +kernel⟩, by decide +kernel, by decide +kernel,
    ⟨by decide, by decide +kernel, ⟨by decide +kernel, by decide +kernel⟩, by decide +kernel, .inl ⟨rfl, rfl⟩⟩,
    by decide +kernel, by decide +kernel, by decide +kernel, by decide +kernel,
    ⟨by decide +kernel, by decide +kernel, by decide +kernel⟩, ⟨by decide +kernel, by decide +kernel⟩, by decide +kernel, by decide +kernel⟩

/-- The connection for the answer fails: the hypotheses of `C93_unsent_counterexample`; closing the session ends the request with the server's error. -/
example : let s := (Link.init : Link Empty).run demoCfg (askOps ++ [.event askClient 0, .failEarly askClient 1])
    let t := s.run demoCfg [.world (.remove (lit "s1"))]
    GivenUp (lit "http-server-req-1") s ∧ (s.hs.objs[0]?.bind (fun y => AMap.get y.pend.pending (lit "http-server-req-1"))) = some 0 ∧
    OwnIds t.did ∧ OwnSrvIds t.srvDid ∧ (t.hs.objs[0]?.map (fun y => y.pend.outcomes.map (·.1))) = some [0] := by
  refine ⟨⟨by decide +kernel, ?_, ?_⟩, by decide +kernel, ⟨by decide +kernel, by decide +kernel, by decide +kernel⟩, ⟨by decide +kernel, by decide +kernel⟩,
    by decide +kernel⟩
  · intro b hb
    exfalso
    have : ((Link.init : Link Empty).run demoCfg (askOps ++ [.event askClient 0, .failEarly askClient 1])).ht.posts.all
        (fun p => match p with | .queued .answer _ => false | _ => true) = true := by decide +kernel
    exact absurd (List.all_eq_true.1 this _ hb) (by simp)
  · intro fl hfl hw hr
    exfalso
    have : ((Link.init : Link Empty).run demoCfg (askOps ++ [.event askClient 0, .failEarly askClient 1])).flights.all
        (fun p => match p.what with | .answer => false | _ => true) = true := by decide +kernel
    have := List.all_eq_true.1 this _ hfl
    rw [hw] at this
    cases this

end Verif
