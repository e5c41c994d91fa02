import Verif.Http.LinkLemmas

/-!
C92: an HTTP client transport and a server put together: what the requests of the client get.
-/

set_option linter.unusedSectionVars false

namespace Verif

open Http
open InMemory (PlainReq PlainNote PlainOut replyFor_classified replyFor_id)

variable {D : Type} [DblFmt D]

/-! ### Specification -/

/-- The request as the caller gave it: same method, params, and id if it had one. -/
def GivenAs (did : List (HtOp D)) (q : Request D) : Prop :=
  ∃ r, HtOp.send r ∈ did ∧ q.method = r.method ∧ q.params = r.params ∧ (keyText r.id ≠ [] → q.id = r.id)

/-- An error the client transport makes itself. -/
def LocalError (key : Bytes) (r : Response D) : Prop :=
  r.id = .str key ∧ r.result = none ∧ ∃ text ∈ [lit "Mismatched response id", lit "Invalid/empty HTTP response", lit "Transport closed"],
    r.error = some (.obj [(lit "code", .int (-32603)), (lit "message", .str text)])

/-- Traffic that survives the wire format. -/
def PlainLinkOp : LinkOp D → Prop
  | .send r => PlainReq r
  | .note n => PlainNote n
  | .serve _ _ _ f _ _ _ => ∀ tok q, PlainAnswer (f tok q)
  | .event h _ => ∀ f, h.request = some f → ∀ q, PlainAnswer (f q)
  | .world (.take (.request r)) => PlainReq r
  | .world (.take (.note n)) => PlainNote n
  | _ => True

/-! ### The two sides on their own -/

theorem link_run_concat (c : LinkCfg) (s : Link D) (a : List (LinkOp D)) (op : LinkOp D) : s.run c (a ++ [op]) = (s.run c a).step c op := by
  unfold Link.run
  rw [List.foldl_append]; rfl

/-- The client is the client transport, the server the sessions. -/
structure Sides (c : LinkCfg) (s : Link D) : Prop where
  ht : s.ht = (Ht.init : Ht D).run c.client s.did
  hs : s.hs = (Hs.init : Hs D).run s.srvDid

theorem sides_client {c : LinkCfg} {s : Link D} (h : Sides c s) (op : HtOp D) : Sides c (s.client c op) :=
  ⟨by show s.ht.step c.client op = _; rw [h.ht, ← ht_run_concat]; rfl, h.hs⟩

theorem sides_server {c : LinkCfg} {s : Link D} (h : Sides c s) (ops : List (HsOp D)) : Sides c (s.server ops) :=
  ⟨h.ht, by show s.hs.run ops = _; rw [h.hs, ← hs_run_append]; rfl⟩

theorem sides_ended {c : LinkCfg} {s : Link D} (h : Sides c s) (hd : HtHandlers D) (k : Nat) (b sid : Bytes) : Sides c (s.ended c hd k b sid) := by
  unfold Link.ended
  split
  · have := sides_client h (.finish hd k b sid); exact ⟨this.ht, this.hs⟩
  · exact sides_client h _
  · exact h

theorem sides_step {c : LinkCfg} {s : Link D} (h : Sides c s) (op : LinkOp D) : Sides c (s.step c op) := by
  cases op with
  | start => exact sides_client h _
  | send r => exact sides_client h _
  | file t => exact sides_client h _
  | note n => exact sides_client h _
  | begin k =>
    simp only [Link.step, Link.begin]
    split
    · have := sides_client h (.begin k); exact ⟨this.ht, this.hs⟩
    · exact h
  | failEarly hd k => exact sides_client h _
  | close => exact sides_client h _
  | serve i now a f n e d =>
    simp only [Link.step, Link.serve]
    split
    · have := sides_server h (Http.serve c.loopback c.server c.auth now (fun tok => ⟨some (f tok), n, e⟩) s.hs d (c.posted (by assumption) a)).ops
      exact ⟨this.ht, this.hs⟩
    · exact h
  | arrive hd i =>
    simp only [Link.step, Link.arrive]
    split
    · exact sides_ended h _ _ _ _
    · exact h
  | lose hd i =>
    simp only [Link.step, Link.lose]
    split
    · exact sides_ended h _ _ _ _
    · exact h
  | listen now a f n e d =>
    simp only [Link.step, Link.listen]
    split
    · have := sides_server h (Http.serve c.loopback c.server c.auth now (fun tok => ⟨some (f tok), n, e⟩) s.hs d (c.listens s.ht.session a)).ops
      exact ⟨this.ht, this.hs⟩
    · exact h
  | event hd j =>
    simp only [Link.step, Link.event]
    split
    · split
      · rename_i p _ _ _
        have := sides_client h (.event hd p); exact ⟨this.ht, this.hs⟩
      · exact h
    · exact h
  | world op => exact sides_server h _

theorem link_induct {P : Link D → Prop} (c : LinkCfg) (ops : List (LinkOp D)) (h0 : P Link.init)
    (hs : ∀ a op, a ++ [op] <+: ops → P ((Link.init : Link D).run c a) → P ((Link.init : Link D).run c (a ++ [op]))) : P ((Link.init : Link D).run c ops) := by
  have key : ∀ l : List (LinkOp D), l.reverse <+: ops → P ((Link.init : Link D).run c l.reverse) := by
    intro l
    induction l with
    | nil => intro _; exact h0
    | cons op l ih =>
      intro h
      rw [List.reverse_cons] at h ⊢
      exact hs _ _ h (ih ((List.prefix_append _ _).trans h))
  have := key ops.reverse (by rw [List.reverse_reverse]; exact List.prefix_refl _)
  rwa [List.reverse_reverse] at this

theorem sides_run (c : LinkCfg) (ops : List (LinkOp D)) : Sides c ((Link.init : Link D).run c ops) :=
  link_induct c ops ⟨rfl, rfl⟩ (fun a op _ h => by rw [link_run_concat]; exact sides_step h op)

/-- What was done to the client grows. -/
theorem did_grows (c : LinkCfg) (s : Link D) (op : LinkOp D) : s.did <+: (s.step c op).did := by
  have cl : ∀ op, s.did <+: (s.client c op).did := fun op => List.prefix_append _ _
  have en : ∀ hd k b sid, s.did <+: (s.ended c hd k b sid).did := by
    intro hd k b sid
    unfold Link.ended
    split
    · exact cl _
    · exact cl _
    · exact List.prefix_refl _
  cases op with
  | start => exact cl _
  | send r => exact cl _
  | file t => exact cl _
  | note n => exact cl _
  | begin k =>
    simp only [Link.step, Link.begin]
    split
    · exact cl _
    · exact List.prefix_refl _
  | failEarly hd k => exact cl _
  | close => exact cl _
  | serve i now a f n e d =>
    simp only [Link.step, Link.serve]
    split <;> exact List.prefix_refl _
  | arrive hd i =>
    simp only [Link.step, Link.arrive]
    split
    · exact en _ _ _ _
    · exact List.prefix_refl _
  | lose hd i =>
    simp only [Link.step, Link.lose]
    split
    · exact en _ _ _ _
    · exact List.prefix_refl _
  | listen now a f n e d =>
    simp only [Link.step, Link.listen]
    split <;> exact List.prefix_refl _
  | event hd j =>
    simp only [Link.step, Link.event]
    split
    · split
      · exact cl _
      · exact List.prefix_refl _
    · exact List.prefix_refl _
  | world op => exact List.prefix_refl _

theorem ownIds_prefix {a b : List (HtOp D)} (h : a <+: b) (hb : OwnIds b) : OwnIds a := by
  obtain ⟨t, rfl⟩ := h
  exact ownIds_init hb

theorem did_run_grows (c : LinkCfg) (s : Link D) (ops : List (LinkOp D)) : s.did <+: (s.run c ops).did := by
  induction ops generalizing s with
  | nil => exact List.prefix_refl _
  | cons op ops ih => exact (did_grows c s op).trans (ih _)

/-! ### The messages of the server -/

/-- A plain message of the server to the client. -/
def MsgText (D : Type) [DblFmt D] (b : Bytes) : Prop := (∃ q : Request D, PlainReq q ∧ b = serRequest q) ∨ ∃ n : Notification D, PlainNote n ∧ b = serNotification n

def PlainGoing : Outgoing D → Prop
  | .request r => PlainReq r
  | .note n => PlainNote n

structure HsPlain (s : Hs D) : Prop where
  queues : ∀ x ∈ s.objs, ∀ e ∈ x.queue, MsgText D e.2
  found : ∀ o m, SendStage.found o m ∈ s.sends → PlainGoing m
  filed : ∀ o p, SendStage.filed o p ∈ s.sends → MsgText D p
  events : ∀ e ∈ s.events, MsgText D e.2.1.2

theorem mem_modify {α : Type} {l : List α} {i : Nat} {f : α → α} {y : α} (h : y ∈ l.modify i f) : y ∈ l ∨ ∃ x ∈ l, y = f x := by
  obtain ⟨j, hj⟩ := List.mem_iff_getElem?.1 h
  rw [modify_get] at hj
  cases hl : l[j]? with
  | none => rw [hl] at hj; cases hj
  | some x =>
    rw [hl] at hj
    simp only [Option.map_some, Option.some.injEq] at hj
    have hx := List.mem_of_getElem? hl
    split at hj
    · exact .inr ⟨x, hx, hj.symm⟩
    · exact .inl (hj ▸ hx)

theorem queues_modify {l : List (Sess D)} (h : ∀ x ∈ l, ∀ e ∈ x.queue, MsgText D e.2) (i : Nat) {f : Sess D → Sess D}
    (hf : ∀ x ∈ l, ∀ e ∈ (f x).queue, e ∈ x.queue ∨ MsgText D e.2) : ∀ x ∈ l.modify i f, ∀ e ∈ x.queue, MsgText D e.2 := by
  intro y hy e he
  rcases mem_modify hy with h1 | ⟨x, hx, rfl⟩
  · exact h y h1 e he
  · rcases hf x hx e he with h2 | h2
    · exact h x hx e h2
    · exact h2

theorem srvId_plain (s : Hs D) {r : Request D} (h : PlainReq r) : PlainReq (s.withId r).1 := by
  unfold Hs.withId
  split
  · refine ⟨?_, h.2⟩
    intro x hx
    rcases List.mem_append.1 hx with h1 | h1
    · clear hx; revert x; decide
    · have := natDec_isDig h1
      constructor <;> (intro e; subst e; revert this; decide)
  · exact h

theorem cltId_plain (s : Ht D) {r : Request D} (h : PlainReq r) : PlainReq (s.withId r).1 := by
  unfold Ht.withId
  split
  · refine ⟨?_, h.2⟩
    intro x hx
    rcases List.mem_append.1 hx with h1 | h1
    · clear hx; revert x; decide
    · have := natDec_isDig h1
      constructor <;> (intro e; subst e; revert this; decide)
  · exact h

theorem mem_set_cases {α : Type} {l : List α} {i : Nat} {a b : α} (h : b ∈ l.set i a) : b ∈ l ∨ b = a := List.mem_or_eq_of_mem_set h

theorem hsPlain_step {s : Hs D} (h : HsPlain s) (op : HsOp D) (hop : ∀ m, op = .take m → PlainGoing m) : HsPlain (s.step op) := by
  cases op with
  | create sid v =>
    refine ⟨fun x hx => ?_, h.found, h.filed, h.events⟩
    rcases List.mem_append.1 hx with h1 | h1
    · exact h.queues x h1
    · simp only [List.mem_singleton] at h1; subst h1; intro e he; cases he
  | remove sid =>
    simp only [Hs.step, Hs.remove]
    split
    · exact h
    · exact ⟨queues_modify h.queues _ (fun x _ e he => .inl he), h.found, h.filed, h.events⟩
  | take m =>
    refine ⟨h.queues, fun o m' hm => ?_, fun o p hm => ?_, h.events⟩
    · rcases List.mem_append.1 hm with h1 | h1
      · exact h.found o m' h1
      · simp only [List.mem_singleton] at h1
        split at h1
        · cases h1; exact hop _ rfl
        · cases h1
    · rcases List.mem_append.1 hm with h1 | h1
      · exact h.filed o p h1
      · simp only [List.mem_singleton] at h1
        split at h1 <;> cases h1
  | advance c =>
    simp only [Hs.step, Hs.advance]
    split
    · rename_i o r hc
      have hr : PlainReq r := h.found o _ (List.mem_of_getElem? hc)
      refine ⟨queues_modify h.queues _ (fun x _ e he => .inl he), fun o m hm => ?_, fun o p hm => ?_, h.events⟩
      · rcases mem_set_cases hm with h1 | h1
        · exact h.found o m h1
        · cases h1
      · rcases mem_set_cases hm with h1 | h1
        · exact h.filed o p h1
        · cases h1; exact .inl ⟨_, srvId_plain s hr, rfl⟩
    · rename_i o n hc
      have hn : PlainNote n := h.found o _ (List.mem_of_getElem? hc)
      refine ⟨queues_modify h.queues _ (fun x _ e he => ?_), fun o m hm => ?_, fun o p hm => ?_, h.events⟩
      · rcases List.mem_append.1 he with h1 | h1
        · exact .inl h1
        · simp only [List.mem_singleton] at h1; subst h1; exact .inr (.inr ⟨n, hn, rfl⟩)
      · rcases mem_set_cases hm with h1 | h1
        · exact h.found o m h1
        · cases h1
      · rcases mem_set_cases hm with h1 | h1
        · exact h.filed o p h1
        · cases h1
    · rename_i o p hc
      have hp := h.filed o _ (List.mem_of_getElem? hc)
      refine ⟨queues_modify h.queues _ (fun x _ e he => ?_), fun o m hm => ?_, fun o p hm => ?_, h.events⟩
      · rcases List.mem_append.1 he with h1 | h1
        · exact .inl h1
        · simp only [List.mem_singleton] at h1; subst h1; exact .inr hp
      · rcases mem_set_cases hm with h1 | h1
        · exact h.found o m h1
        · cases h1
      · rcases mem_set_cases hm with h1 | h1
        · exact h.filed o p h1
        · cases h1
    · exact h
  | find sid => exact ⟨h.queues, h.found, h.filed, h.events⟩
  | answer f r =>
    simp only [Hs.step, Hs.answer]
    split
    · refine ⟨queues_modify h.queues _ (fun x _ e he => .inl ?_), h.found, h.filed, h.events⟩
      revert he
      unfold Sess.resolve
      split <;> exact fun he => he
    · exact h
  | openStream f =>
    simp only [Hs.step, Hs.openStream]
    split
    · exact ⟨h.queues, h.found, h.filed, h.events⟩
    · exact h
  | pump k ok =>
    simp only [Hs.step, Hs.pump]
    split
    · exact h
    · split
      · exact h
      · rename_i x hx
        split
        · exact h
        · split
          · exact h
          · rename_i e rest hq
            have hx' := List.mem_of_getElem? hx
            refine ⟨?_, h.found, h.filed, fun e' he => ?_⟩
            · intro y hy e' he'
              obtain ⟨j, hj⟩ := List.mem_iff_getElem?.1 hy
              rw [modify_get] at hj
              cases hl : s.objs[j]? with
              | none => rw [hl] at hj; cases hj
              | some z =>
                rw [hl] at hj
                simp only [Option.map_some, Option.some.injEq] at hj
                split at hj
                · rename_i hij
                  subst hij
                  rw [hx] at hl
                  cases hl
                  subst hj
                  exact h.queues x hx' e' (by rw [hq]; exact List.mem_cons_of_mem _ he')
                · subst hj; exact h.queues z (List.mem_of_getElem? hl) e' he'
            · rcases List.mem_append.1 he with h1 | h1
              · exact h.events e' h1
              · simp only [List.mem_singleton] at h1
                subst h1
                exact h.queues x hx' e (by rw [hq]; exact List.mem_cons_self ..)
  | stop =>
    refine ⟨fun y hy e he => ?_, h.found, h.filed, h.events⟩
    obtain ⟨j, hj⟩ := List.mem_iff_getElem?.1 hy
    simp only [Hs.step, Hs.stop] at hj
    rw [stop_objs] at hj
    cases hl : s.objs[j]? with
    | none => rw [hl] at hj; cases hj
    | some z =>
      rw [hl] at hj
      simp only [Option.map_some, Option.some.injEq] at hj
      have hz := h.queues z (List.mem_of_getElem? hl)
      split at hj
      · subst hj; exact hz e he
      · subst hj; exact hz e he

theorem hsPlain_run {s : Hs D} (h : HsPlain s) (ops : List (HsOp D)) (hops : ∀ m, HsOp.take m ∈ ops → PlainGoing m) : HsPlain (s.run ops) := by
  induction ops generalizing s with
  | nil => exact h
  | cons op ops ih =>
    exact ih (hsPlain_step h op (fun m e => hops m (by rw [e]; exact List.mem_cons_self ..))) (fun m hm => hops m (List.mem_cons_of_mem _ hm))

/-! ### The invariant of the requests of the client -/

/-- A text of the client. -/
def SentOk (did : List (HtOp D)) : PostFor → Bytes → Prop
  | .request key _, b => ∃ q : Request D, PlainReq q ∧ keyText q.id = key ∧ key ≠ [] ∧ GivenAs did q ∧ b = serRequest q
  | .note, b => ∃ n : Notification D, PlainNote n ∧ b = serNotification n
  | .answer, b => ∃ (q : Request D) (out : HandlerOutcome D), IdPlain q.id ∧ PlainAnswer out ∧ b = serResponse (replyFor q out)

def whatKey : PostFor → Option Bytes
  | .request key _ => some key
  | _ => none

def queuedKey : PostStage → Option Bytes
  | .queued p _ => whatKey p
  | _ => none

def linkPool (posts : List PostStage) (flights : List Flight) : List Bytes := posts.filterMap queuedKey ++ flights.filterMap (fun fl => whatKey fl.what)

/-- The response is an error made by the client, or what the server said to the request with the key. -/
def GoodEnd (handled : List (Nat × Request D × HandlerOutcome D)) (key : Bytes) (r : Response D) : Prop :=
  LocalError key r ∨ ∃ k q out, (k, q, out) ∈ handled ∧ keyText q.id = key ∧ r = replyFor q out

structure LinkInv (s : Link D) : Prop where
  tickets : ∀ r, some r ∈ s.ht.tickets → PlainReq r ∧ HtOp.send r ∈ s.did
  posts : ∀ (k : Nat) (p : PostFor) (b : Bytes), s.ht.posts[k]? = some (.queued p b) → SentOk s.did p b
  flights : ∀ (i : Nat) (fl : Flight), s.flights[i]? = some fl → SentOk s.did fl.what fl.sent.body ∧ fl.sent.delete = false ∧
    (s.ht.posts[fl.post]? = some (.sent fl.what) ∨ s.ht.posts[fl.post]? = some .over)
  pool : (linkPool s.ht.posts s.flights).Nodup
  poolSent : ∀ key ∈ linkPool s.ht.posts s.flights, key ∈ s.ht.tab.sent.map (·.2)
  replies : ∀ (i : Nat) (fl : Flight) (key : Bytes) (st : Bool) (rep : Reply), s.flights[i]? = some fl → fl.what = .request key st → fl.reply = some (some rep) →
    QuietBody D rep.body ∨ ∃ q out, (fl.post, q, out) ∈ s.handled ∧ keyText q.id = key ∧ IdPlain q.id ∧ PlainAnswer out ∧
      rep.body = serResponse (replyFor q out)
  handled : ∀ k q out, (k, q, out) ∈ s.handled → GivenAs s.did q ∧ PlainReq q ∧
    ∃ (i : Nat) (fl : Flight) (st : Bool), s.flights[i]? = some fl ∧ fl.post = k ∧ fl.what = .request (keyText q.id) st ∧ fl.reply ≠ none
  handledOnce : (s.handled.map (fun x => keyText x.2.1.id)).Nodup
  outcomes : ∀ n key r, (n, key) ∈ s.ht.tab.sent → (n, .resp r) ∈ s.ht.tab.outcomes → GoodEnd s.handled key r
  server : HsPlain s.hs

theorem linkInv_init : LinkInv (Link.init : Link D) := by
  refine ⟨?_, ?_, ?_, List.nodup_nil, ?_, ?_, ?_, List.nodup_nil, ?_, ⟨?_, ?_, ?_, ?_⟩⟩
  · intro r h; cases h
  · intro k p b h; cases h
  · intro i fl h; cases h
  · intro key h; cases h
  · intro i fl key st rep h; cases h
  · intro k q out h; cases h
  · intro n key r h; cases h
  · intro x h; cases h
  · intro o m h; cases h
  · intro o p h; cases h
  · intro e h; cases h

theorem givenAs_mono {a b : List (HtOp D)} (hs : ∀ x ∈ a, x ∈ b) {q : Request D} (h : GivenAs a q) : GivenAs b q := by
  obtain ⟨r, h1, h2⟩ := h
  exact ⟨r, hs _ h1, h2⟩

theorem sentOk_mono {a b : List (HtOp D)} (hs : ∀ x ∈ a, x ∈ b) {p : PostFor} {t : Bytes} (h : SentOk a p t) : SentOk b p t := by
  cases p with
  | request key st => obtain ⟨q, h1, h2, h3, h4, h5⟩ := h; exact ⟨q, h1, h2, h3, givenAs_mono hs h4, h5⟩
  | note => exact h
  | answer => exact h

/-- How the posts of the client may move without a new request: some end, and texts that answer or notify are added. -/
structure PostsMove (did : List (HtOp D)) (a b : List PostStage) : Prop where
  queued : ∀ (k : Nat) (p : PostFor) (t : Bytes), b[k]? = some (.queued p t) → a[k]? = some (.queued p t) ∨ SentOk did p t
  sent : ∀ (k : Nat) (p : PostFor), a[k]? = some (.sent p) → b[k]? = some (.sent p) ∨ b[k]? = some .over
  over : ∀ k : Nat, a[k]? = some .over → b[k]? = some .over
  keys : (b.filterMap queuedKey).Sublist (a.filterMap queuedKey)

theorem PostsMove.refl (did : List (HtOp D)) (a : List PostStage) : PostsMove did a a :=
  ⟨fun _ _ _ h => .inl h, fun _ _ h => .inl h, fun _ h => h, List.Sublist.refl _⟩

theorem filterMap_set_over (l : List PostStage) (k : Nat) : ((l.set k .over).filterMap queuedKey).Sublist (l.filterMap queuedKey) := by
  induction l generalizing k with
  | nil => exact List.Sublist.refl _
  | cons a l ih =>
    cases k with
    | zero =>
      rw [List.set_cons_zero, List.filterMap_cons, List.filterMap_cons]
      cases queuedKey a with
      | none => exact List.Sublist.refl _
      | some x => exact List.sublist_cons_self _ _
    | succ k =>
      rw [List.set_cons_succ, List.filterMap_cons, List.filterMap_cons]
      cases queuedKey a with
      | none => exact ih k
      | some x => exact (ih k).cons₂ x

theorem PostsMove.over_at (did : List (HtOp D)) (a : List PostStage) (k : Nat) : PostsMove did a (a.set k .over) := by
  refine ⟨fun j p t h => ?_, fun j p h => ?_, fun j h => ?_, filterMap_set_over a k⟩
  · rw [List.getElem?_set] at h
    split at h
    · split at h <;> cases h
    · exact .inl h
  · rw [List.getElem?_set]
    have : j < a.length := (List.getElem?_eq_some_iff.1 h).1
    split
    · rename_i e; subst e; rw [if_pos this]; exact .inr rfl
    · exact .inl h
  · rw [List.getElem?_set]
    have : j < a.length := (List.getElem?_eq_some_iff.1 h).1
    split
    · rename_i e; subst e; rw [if_pos this]
    · exact h

theorem PostsMove.add (did : List (HtOp D)) (a : List PostStage) {p : PostFor} {t : Bytes} (hp : whatKey p = none) (ht : SentOk did p t) :
    PostsMove did a (a ++ [.queued p t]) := by
  refine ⟨fun j q u h => ?_, fun j q h => .inl (getElem?_append_of_some h), fun j h => getElem?_append_of_some h, ?_⟩
  · rcases getElem?_concat_cases h with h1 | h1
    · exact .inl h1
    · cases h1; exact .inr ht
  · rw [List.filterMap_append]
    have : [PostStage.queued p t].filterMap queuedKey = [] := by
      rw [List.filterMap_cons, show queuedKey (.queued p t) = none from hp]; rfl
    rw [this, List.append_nil]; exact List.Sublist.refl _

/-- Something was done to the client that files nothing, and promises were completed well. -/
theorem LinkInv.frame {s : Link D} (h : LinkInv s) {ht' : Ht D} {did' : List (HtOp D)} (hd : ∀ x ∈ s.did, x ∈ did')
    (htk : ∀ r, some r ∈ ht'.tickets → some r ∈ s.ht.tickets) (hp : PostsMove did' s.ht.posts ht'.posts) (hs : ht'.tab.sent = s.ht.tab.sent)
    (ho : ∀ n key r, (n, key) ∈ s.ht.tab.sent → (n, .resp r) ∈ ht'.tab.outcomes → (n, .resp r) ∈ s.ht.tab.outcomes ∨ GoodEnd s.handled key r)
    {rp : List (Request D × HandlerOutcome D)} {tk : List Nat} :
    LinkInv { s with ht := ht', did := did', replied := rp, taken := tk } := by
  have hpool : (linkPool ht'.posts s.flights).Sublist (linkPool s.ht.posts s.flights) := hp.keys.append (List.Sublist.refl _)
  refine ⟨fun r hr => ⟨(h.tickets r (htk r hr)).1, hd _ (h.tickets r (htk r hr)).2⟩, ?_, ?_, hpool.nodup h.pool, ?_, h.replies, ?_, h.handledOnce, ?_, h.server⟩
  · intro k p b hk
    rcases hp.queued k p b hk with h1 | h1
    · exact sentOk_mono hd (h.posts k p b h1)
    · exact h1
  · intro i fl hi
    obtain ⟨h1, h2, h3⟩ := h.flights i fl hi
    refine ⟨sentOk_mono hd h1, h2, ?_⟩
    rcases h3 with h3 | h3
    · exact hp.sent _ _ h3
    · exact .inr (hp.over _ h3)
  · intro key hk
    show key ∈ ht'.tab.sent.map (·.2)
    rw [hs]
    exact h.poolSent key (hpool.subset hk)
  · intro k q out hq
    obtain ⟨h1, h2⟩ := h.handled k q out hq
    exact ⟨givenAs_mono hd h1, h2⟩
  · intro n key r hn hr
    rw [show ht'.tab.sent = s.ht.tab.sent from hs] at hn
    rcases ho n key r hn hr with h1 | h1
    · exact h.outcomes n key r hn h1
    · exact h1

theorem goodEnd_mono {a b : List (Nat × Request D × HandlerOutcome D)} (hs : ∀ x ∈ a, x ∈ b) {key : Bytes} {r : Response D} (h : GoodEnd a key r) :
    GoodEnd b key r := by
  rcases h with h | ⟨k, q, out, h1, h2⟩
  · exact .inl h
  · exact .inr ⟨k, q, out, hs _ h1, h2⟩

theorem goodEnd_local (l : List (Nat × Request D × HandlerOutcome D)) (key : Bytes) {text : Bytes}
    (h : text ∈ [lit "Mismatched response id", lit "Invalid/empty HTTP response", lit "Transport closed"]) {r : Response D}
    (hr : (.resp r : SOut D) = localError key text) : GoodEnd l key r := by
  unfold localError at hr
  cases hr
  exact .inl ⟨rfl, rfl, text, h, rfl⟩

/-- Completing the promise of a key well. -/
theorem complete_good {t : PTab (SOut D)} (hi : t.Inv OwnEnd UnfiledEnd) {l : List (Nat × Request D × HandlerOutcome D)} {k : Bytes} {out : SOut D}
    (hg : ∀ r, .resp r = out → GoodEnd l k r) :
    ∀ n key r, (n, key) ∈ t.sent → (n, .resp r) ∈ (t.complete k out).outcomes → (n, .resp r) ∈ t.outcomes ∨ GoodEnd l key r := by
  intro n key r hn hr
  unfold PTab.complete at hr
  cases hp : AMap.get t.pending k with
  | none => rw [hp] at hr; exact .inl hr
  | some m =>
    rw [hp] at hr
    rcases List.mem_append.1 hr with h1 | h1
    · exact .inl h1
    · simp only [List.mem_singleton, Prod.mk.injEq] at h1
      obtain ⟨rfl, e⟩ := h1
      have := hi.pend _ _ (AMap.get_some_mem hp)
      have hk : key = k := by
        have := nodup_map_fst_eq hi.sentFun hn this
        exact this
      rw [hk]
      exact .inr (hg r e)

theorem mem_concat {α : Type} {l : List α} {a : α} : ∀ x ∈ l, x ∈ l ++ [a] := fun _ h => List.mem_append_left _ h

theorem filterMap_inj {α β : Type} {f : α → Option β} {l : List α} (hn : (l.filterMap f).Nodup) {i j : Nat} {x y : α} {k : β} (hi : l[i]? = some x)
    (hj : l[j]? = some y) (hx : f x = some k) (hy : f y = some k) : i = j := by
  induction l generalizing i j with
  | nil => cases hi
  | cons a l ih =>
    rw [List.filterMap_cons] at hn
    cases i with
    | zero =>
      cases j with
      | zero => rfl
      | succ j =>
        simp only [List.getElem?_cons_zero, Option.some.injEq] at hi
        rw [List.getElem?_cons_succ] at hj
        subst hi
        rw [hx] at hn
        exact absurd (List.mem_filterMap.2 ⟨y, List.mem_of_getElem? hj, hy⟩) (List.nodup_cons.1 hn).1
    | succ i =>
      cases j with
      | zero =>
        simp only [List.getElem?_cons_zero, Option.some.injEq] at hj
        rw [List.getElem?_cons_succ] at hi
        subst hj
        rw [hy] at hn
        exact absurd (List.mem_filterMap.2 ⟨x, List.mem_of_getElem? hi, hx⟩) (List.nodup_cons.1 hn).1
      | succ j =>
        rw [List.getElem?_cons_succ] at hi hj
        have : (l.filterMap f).Nodup := by
          revert hn
          cases f a with
          | none => exact fun h => h
          | some b => exact fun h => (List.nodup_cons.1 h).2
        rw [ih this hi hj]

theorem filterMap_set_eq {α β : Type} {f : α → Option β} {l : List α} {i : Nat} {x y : α} (hi : l[i]? = some x) (he : f y = f x) :
    (l.set i y).filterMap f = l.filterMap f := by
  induction l generalizing i with
  | nil => cases hi
  | cons a l ih =>
    cases i with
    | zero =>
      simp only [List.getElem?_cons_zero, Option.some.injEq] at hi
      subst hi
      rw [List.set_cons_zero, List.filterMap_cons, List.filterMap_cons, he]
    | succ i =>
      rw [List.getElem?_cons_succ] at hi
      rw [List.set_cons_succ, List.filterMap_cons, List.filterMap_cons, ih hi]

theorem filterMap_set_perm {α β : Type} {f : α → Option β} {l : List α} {i : Nat} {x y : α} (hi : l[i]? = some x) (hy : f y = none) :
    (l.filterMap f).Perm ((l.set i y).filterMap f ++ (f x).toList) := by
  induction l generalizing i with
  | nil => cases hi
  | cons a l ih =>
    cases i with
    | zero =>
      simp only [List.getElem?_cons_zero, Option.some.injEq] at hi
      subst hi
      rw [List.set_cons_zero, List.filterMap_cons, List.filterMap_cons, hy]
      cases f a with
      | none => simp
      | some b => simp only [Option.toList_some]; exact (List.perm_append_singleton _ _).symm
    | succ i =>
      rw [List.getElem?_cons_succ] at hi
      rw [List.set_cons_succ, List.filterMap_cons, List.filterMap_cons]
      cases f a with
      | none => exact ih hi
      | some b => exact (ih hi).cons b

/-! ### Steps of the client -/

theorem tab_inv {c : LinkCfg} {s : Link D} (hs : Sides c s) : s.ht.tab.Inv OwnEnd UnfiledEnd := by
  have := ht_inv c.client s.did
  rw [← hs.ht] at this
  exact this

theorem inv_send {c : LinkCfg} {s : Link D} (hs : Sides c s) (h : LinkInv s) (r : Request D) (hr : PlainReq r) : LinkInv (s.client c (.send r)) := by
  have hi := tab_inv hs
  by_cases hc : s.ht.connected = true
  · have e : s.ht.step c.client (.send r) = { s.ht with tickets := s.ht.tickets ++ [some r] } := by
      simp only [Ht.step, Ht.send, if_pos hc]
    unfold Link.client
    rw [e]
    refine ⟨?_, ?_, ?_, h.pool, h.poolSent, h.replies, ?_, h.handledOnce, h.outcomes, h.server⟩
    · intro q hq
      rcases List.mem_append.1 hq with h1 | h1
      · exact ⟨(h.tickets q h1).1, mem_concat _ (h.tickets q h1).2⟩
      · simp only [List.mem_singleton, Option.some.injEq] at h1
        subst h1
        exact ⟨hr, List.mem_append_right _ (List.mem_singleton.2 rfl)⟩
    · intro k p b hk; exact sentOk_mono mem_concat (h.posts k p b hk)
    · intro i fl hfl
      obtain ⟨h1, h2⟩ := h.flights i fl hfl
      exact ⟨sentOk_mono mem_concat h1, h2⟩
    · intro k q out hq
      obtain ⟨h1, h2⟩ := h.handled k q out hq
      exact ⟨givenAs_mono mem_concat h1, h2⟩
  · have e : s.ht.step c.client (.send r) = { s.ht with tab := s.ht.tab.immediate (.resp ⟨r.id, none, some (mkErrorObj Code.internalError (lit "Transport not connected") none)⟩) } := by
      simp only [Ht.step, Ht.send, if_neg hc]
    unfold Link.client
    rw [e]
    refine h.frame ?_ ?_ ?_ ?_ ?_
    · exact mem_concat
    · exact fun _ hq => hq
    · exact PostsMove.refl _ _
    · rfl
    intro n key r' hn hr'
    rcases List.mem_append.1 hr' with h1 | h1
    · exact .inl h1
    · simp only [List.mem_singleton, Prod.mk.injEq] at h1
      have := hi.sentBound _ hn
      omega

theorem inv_file {c : LinkCfg} {s : Link D} (hs : Sides c s) (h : LinkInv s) (t : Nat) (ho : OwnIds (s.did ++ [.file t])) : LinkInv (s.client c (.file t)) := by
  have hi := tab_inv hs
  have hid := idInv_run c.client _ ho
  rw [ht_run_concat, ← hs.ht] at hid
  by_cases hc : ∃ r, s.ht.tickets[t]? = some (some r)
  · obtain ⟨r, hr⟩ := hc
    have e : s.ht.step c.client (.file t) = { s.ht with
        tickets := s.ht.tickets.set t none
        counter := (s.ht.withId r).2
        tab := s.ht.tab.insert (keyText (s.ht.withId r).1.id) .broken
        posts := s.ht.posts ++ [.queued (.request (keyText (s.ht.withId r).1.id) (c.client.streamable && decide (r.method = lit "initialize"))) (serRequest (s.ht.withId r).1)] } := by
      simp only [Ht.step, Ht.file, hr]
    have hid' := hid.nodup
    unfold Link.client
    rw [e] at hid' ⊢
    have hkey := withId_key s.ht r
    have hsp := withId_spec s.ht r
    have hpl : PlainReq (s.ht.withId r).1 := cltId_plain s.ht (h.tickets r (List.mem_of_getElem? hr)).1
    have hsent := (h.tickets r (List.mem_of_getElem? hr)).2
    generalize (s.ht.withId r).1 = w at hkey hsp hpl hid' ⊢
    generalize (c.client.streamable && decide (r.method = lit "initialize")) = st
    generalize (s.ht.withId r).2 = cnt
    have hfresh : keyText w.id ∉ s.ht.tab.sent.map (·.2) := by
      have h1 := (List.nodup_append.1 hid').1
      rw [show (s.ht.tab.insert (keyText w.id) SOut.broken).sent = s.ht.tab.sent ++ [(s.ht.tab.nextFut, keyText w.id)] from rfl, List.map_append] at h1
      intro hm
      exact (List.nodup_append.1 h1).2.2 _ hm _ (List.mem_singleton.2 rfl) rfl
    have hgiven : GivenAs (s.did ++ [.file t]) w :=
      ⟨r, mem_concat _ hsent, by rw [hsp.1], by rw [hsp.1], hsp.2⟩
    have hpoolE : (linkPool (s.ht.posts ++ [.queued (.request (keyText w.id) st) (serRequest w)]) s.flights).Perm (keyText w.id :: linkPool s.ht.posts s.flights) := by
      unfold linkPool
      rw [List.filterMap_append]
      show ((s.ht.posts.filterMap queuedKey ++ [keyText w.id]) ++ _).Perm _
      rw [List.append_assoc]
      exact List.perm_middle
    refine ⟨?_, ?_, ?_, ?_, ?_, h.replies, ?_, h.handledOnce, ?_, h.server⟩
    · intro q hq
      rcases mem_set_cases hq with h1 | h1
      · exact ⟨(h.tickets q h1).1, mem_concat _ (h.tickets q h1).2⟩
      · cases h1
    · intro k p b hk
      rcases getElem?_concat_cases hk with h1 | h1
      · exact sentOk_mono mem_concat (h.posts k p b h1)
      · cases h1
        exact ⟨w, hpl, rfl, hkey, hgiven, rfl⟩
    · intro i fl hfl
      obtain ⟨h1, h2, h3⟩ := h.flights i fl hfl
      refine ⟨sentOk_mono mem_concat h1, h2, ?_⟩
      rcases h3 with h3 | h3
      · exact .inl (getElem?_append_of_some h3)
      · exact .inr (getElem?_append_of_some h3)
    · refine (hpoolE.nodup_iff).2 (List.nodup_cons.2 ⟨fun hm => hfresh (h.poolSent _ hm), h.pool⟩)
    · intro key hk
      show key ∈ (s.ht.tab.sent ++ [(s.ht.tab.nextFut, keyText w.id)]).map (·.2)
      rw [List.map_append]
      rcases List.mem_cons.1 (hpoolE.mem_iff.1 hk) with h1 | h1
      · exact List.mem_append_right _ (by simp [h1])
      · exact List.mem_append_left _ (h.poolSent _ h1)
    · intro k q out hq
      obtain ⟨h1, h2⟩ := h.handled k q out hq
      exact ⟨givenAs_mono mem_concat h1, h2⟩
    · intro n key r' hn hr'
      have hr'' : (n, SOut.resp r') ∈ s.ht.tab.outcomes := by
        revert hr'
        show (n, SOut.resp r') ∈ (match AMap.get s.ht.tab.pending (keyText w.id) with
          | some old => s.ht.tab.outcomes ++ [(old, SOut.broken)]
          | none => s.ht.tab.outcomes) → _
        cases AMap.get s.ht.tab.pending (keyText w.id) with
        | none => exact fun h => h
        | some old =>
          intro hm
          rcases List.mem_append.1 hm with h1 | h1
          · exact h1
          · simp at h1
      rcases List.mem_append.1 hn with h1 | h1
      · exact h.outcomes n key r' h1 hr''
      · simp only [List.mem_singleton, Prod.mk.injEq] at h1
        have : n < s.ht.tab.nextFut := List.mem_range.1 (hi.conserve.mem_iff.1 (List.mem_append_right _ (List.mem_map.2 ⟨_, hr'', rfl⟩)))
        omega
  · have e : s.ht.step c.client (.file t) = s.ht := by
      simp only [Ht.step, Ht.file]
      split
      · rename_i r hr; exact absurd ⟨r, hr⟩ hc
      · rfl
    unfold Link.client
    rw [e]
    refine h.frame ?_ ?_ ?_ ?_ ?_
    · exact mem_concat
    · exact fun _ hq => hq
    · exact PostsMove.refl _ _
    · rfl
    · exact fun _ _ _ _ hr => .inl hr

theorem inv_note {c : LinkCfg} {s : Link D} (h : LinkInv s) (n : Notification D) (hn : PlainNote n) : LinkInv (s.client c (.note n)) := by
  unfold Link.client
  by_cases hc : s.ht.connected = true
  · rw [show s.ht.step c.client (.note n) = { s.ht with posts := s.ht.posts ++ [.queued .note (serNotification n)] } by simp only [Ht.step, Ht.note, if_pos hc]]
    refine h.frame ?_ ?_ ?_ ?_ ?_
    · exact mem_concat
    · exact fun _ hq => hq
    · exact PostsMove.add _ _ (p := .note) rfl ⟨n, hn, rfl⟩
    · rfl
    · exact fun _ _ _ _ hr => .inl hr
  · rw [show s.ht.step c.client (.note n) = s.ht by simp only [Ht.step, Ht.note, if_neg hc]]
    refine h.frame ?_ ?_ ?_ ?_ ?_
    · exact mem_concat
    · exact fun _ hq => hq
    · exact PostsMove.refl _ _
    · rfl
    · exact fun _ _ _ _ hr => .inl hr

theorem inv_start {c : LinkCfg} {s : Link D} (h : LinkInv s) : LinkInv (s.client c .start) := by
  unfold Link.client
  have e : ∃ a b d, s.ht.step c.client .start = { s.ht with connected := a, io := b, terminated := d } := by
    simp only [Ht.step, Ht.start]
    split
    · exact ⟨true, .running, s.ht.terminated, rfl⟩
    · exact ⟨s.ht.connected, s.ht.io, true, rfl⟩
    · exact ⟨true, s.ht.io, s.ht.terminated, rfl⟩
  obtain ⟨a, b, d, e⟩ := e
  rw [e]
  refine h.frame ?_ ?_ ?_ ?_ ?_
  · exact mem_concat
  · exact fun _ hq => hq
  · exact PostsMove.refl _ _
  · rfl
  · exact fun _ _ _ _ hr => .inl hr

theorem inv_close {c : LinkCfg} {s : Link D} (hs : Sides c s) (h : LinkInv s) : LinkInv (s.client c .close) := by
  have hi := tab_inv hs
  unfold Link.client
  by_cases hc : (s.ht.connected && c.client.streamable && c.client.enableDeleteOnClose && decide (s.ht.io ≠ .running)) = true
  · rw [show s.ht.step c.client .close = { s.ht with hung := true } by simp only [Ht.step, Ht.close, if_pos hc]]
    refine h.frame ?_ ?_ ?_ ?_ ?_
    · exact mem_concat
    · exact fun _ hq => hq
    · exact PostsMove.refl _ _
    · rfl
    · exact fun _ _ _ _ hr => .inl hr
  · have e : ∃ w, s.ht.step c.client .close = { s.ht with
        wire := w, sse := false, sseEnabled := false, sseThread := false, connected := false, session := [], io := .stopped,
        tab := s.ht.tab.closeAll (localError · (lit "Transport closed")) } := by
      simp only [Ht.step, Ht.close, if_neg hc]
      exact ⟨_, rfl⟩
    obtain ⟨w, e⟩ := e
    rw [e]
    refine h.frame ?_ ?_ ?_ ?_ ?_
    · exact mem_concat
    · exact fun _ hq => hq
    · exact PostsMove.refl _ _
    · rfl
    intro n key r hn hr
    rcases List.mem_append.1 hr with h1 | h1
    · exact .inl h1
    · obtain ⟨⟨k, m⟩, h2, h3⟩ := List.mem_map.1 h1
      simp only [Prod.mk.injEq] at h3
      obtain ⟨rfl, h3⟩ := h3
      have := nodup_map_fst_eq hi.sentFun hn (hi.pend _ _ h2)
      subst this
      exact .inr (goodEnd_local _ _ (by simp) h3.symm)

theorem inv_begin {c : LinkCfg} {s : Link D} (h : LinkInv s) (k : Nat) : LinkInv (s.begin c k) := by
  unfold Link.begin
  split
  · rename_i p body hio hk
    have e : s.ht.step c.client (.begin k) = { s.ht with
        posts := s.ht.posts.set k (.sent p), wire := s.ht.wire ++ [⟨false, c.client.pathFor p, if c.client.streamable then s.ht.session else [], body⟩] } := by
      simp only [Ht.step, Ht.begin, hio, hk]
    unfold Link.client
    rw [e]
    have hlt : k < s.ht.posts.length := (List.getElem?_eq_some_iff.1 hk).1
    have hpoolE : (linkPool (s.ht.posts.set k (.sent p)) (s.flights ++ [⟨k, p, ⟨false, c.client.pathFor p, if c.client.streamable then s.ht.session else [], body⟩, none⟩])).Perm
        (linkPool s.ht.posts s.flights) := by
      unfold linkPool
      rw [List.filterMap_append]
      have h1 := filterMap_set_perm (f := queuedKey) (y := .sent p) hk rfl
      refine List.Perm.trans ?_ ((h1.append_right _).symm)
      rw [List.append_assoc]
      refine List.Perm.append_left _ ?_
      refine List.perm_append_comm.trans ?_
      refine List.Perm.append_right _ ?_
      rw [List.filterMap_cons, List.filterMap_nil]
      rw [show queuedKey (.queued p body) = whatKey p from rfl]
      dsimp only
      cases whatKey p <;> exact List.Perm.refl _
    refine ⟨fun r hr => ⟨(h.tickets r hr).1, mem_concat _ (h.tickets r hr).2⟩, ?_, ?_, hpoolE.nodup_iff.2 h.pool, ?_, ?_, ?_, h.handledOnce, h.outcomes, h.server⟩
    · intro j p' b hj
      rcases getElem?_set_cases hj with h1 | h1
      · exact sentOk_mono mem_concat (h.posts j p' b h1)
      · cases h1
    · intro i fl hfl
      rcases getElem?_concat_cases hfl with h1 | h1
      · obtain ⟨h2, h3, h4⟩ := h.flights i fl h1
        refine ⟨sentOk_mono mem_concat h2, h3, ?_⟩
        have hne : k ≠ fl.post := by
          rintro rfl
          rcases h4 with h4 | h4 <;> (rw [hk] at h4; cases h4)
        show (s.ht.posts.set k (.sent p))[fl.post]? = _ ∨ (s.ht.posts.set k (.sent p))[fl.post]? = _
        rw [List.getElem?_set_ne hne]
        exact h4
      · subst h1
        refine ⟨sentOk_mono mem_concat (h.posts k p body hk), rfl, .inl ?_⟩
        show (s.ht.posts.set k (.sent p))[k]? = _
        rw [List.getElem?_set_self hlt]
    · intro key hkey; exact h.poolSent key (hpoolE.mem_iff.1 hkey)
    · intro i fl key st rep hfl hw hr
      rcases getElem?_concat_cases hfl with h1 | h1
      · exact h.replies i fl key st rep h1 hw hr
      · subst h1; cases hr
    · intro j q out hq
      obtain ⟨h1, h2, i, fl, st, h3, h4⟩ := h.handled j q out hq
      exact ⟨givenAs_mono mem_concat h1, h2, i, fl, st, getElem?_append_of_some h3, h4⟩
  · exact h

/-- A body the client may get for its request. -/
def BodyFor (handled : List (Nat × Request D × HandlerOutcome D)) (key b : Bytes) : Prop :=
  QuietBody D b ∨ ∃ k q out, (k, q, out) ∈ handled ∧ keyText q.id = key ∧ IdPlain q.id ∧ PlainAnswer out ∧ b = serResponse (replyFor q out)

/-- The end of an exchange for a request: the posts do not grow, and the promise is completed well. -/
theorem completed_request {o : HtOpts} (hd : HtHandlers D) (s : Ht D) {key : Bytes} (st : Bool) {b : Bytes} (sid : Bytes) (hk : key ≠ [])
    (hi : s.tab.Inv OwnEnd UnfiledEnd) {l : List (Nat × Request D × HandlerOutcome D)} (hb : BodyFor l key b) :
    (s.completed o hd (.request key st) b sid).posts = s.posts ∧ (s.completed o hd (.request key st) b sid).tickets = s.tickets ∧
    (s.completed o hd (.request key st) b sid).tab.sent = s.tab.sent ∧
    ∀ n key' r, (n, key') ∈ s.tab.sent → (n, .resp r) ∈ (s.completed o hd (.request key st) b sid).tab.outcomes →
      (n, .resp r) ∈ s.tab.outcomes ∨ GoodEnd l key' r := by
  obtain ⟨t, e, hd', nt, ps, heq, hps⟩ := completed_eq o hd s (.request key st) b sid
  have hsent := (completed_resp o hd s (.request key st) b sid).1
  have hroute : b ≠ [] → (route hd.wrap b).reply = none := by
    intro hne
    rcases hb with hq | ⟨k, q, out, -, -, h1, h2, rfl⟩
    · exact (incoming_quiet hd s hq hne hk).choose_spec.2.2
    · exact (route_response hd.wrap (replyFor_classified h1 h2.out)).1
  have hnil : (route hd.wrap ([] : Bytes)).reply = none := by
    cases hr : (route hd.wrap ([] : Bytes)).reply with
    | none => rfl
    | some x =>
      have := (C14_reply_iff_handled hd.wrap ([] : Bytes)).2.2 (by rw [hr]; rfl)
      exact absurd this (by decide)
  have hps0 : ps = [] := by
    cases ps with
    | nil => rfl
    | cons x ps =>
      obtain ⟨b', hb', -⟩ := hps x (List.mem_cons_self ..)
      by_cases hne : b = []
      · rw [hne, hnil] at hb'; cases hb'
      · rw [hroute hne] at hb'; cases hb'
  refine ⟨by rw [heq, hps0]; exact List.append_nil _, by rw [heq], hsent, ?_⟩
  have htab : ∃ out, (∀ r, .resp r = out → GoodEnd l key r) ∧ ((s.completed o hd (.request key st) b sid).tab = s.tab.complete key out ∨
      (s.completed o hd (.request key st) b sid).tab = s.tab) := by
    unfold Ht.completed
    simp only
    have h2 : (if st && !sid.isEmpty then (s.capture sid).startSse o else s.capture sid).tab = s.tab := by
      split
      · rw [startSse_tab, capture_tab]
      · rw [capture_tab]
    generalize (if st && !sid.isEmpty then (s.capture sid).startSse o else s.capture sid) = s2 at h2 ⊢
    split
    · rename_i hne
      rcases hb with hq | ⟨k, q, out, hm, rfl, h3, h4, rfl⟩
      · obtain ⟨text, h3, h4, -⟩ := incoming_quiet hd s2 hq hne hk
        rw [h4, h2]
        refine ⟨_, fun r hr => goodEnd_local l key ?_ hr, .inl rfl⟩
        rcases h3 with h3 | h3 <;> simp [h3]
      · refine ⟨.resp (replyFor q out), fun r hr => ?_, ?_⟩
        · cases hr; exact .inr ⟨k, q, out, hm, rfl, rfl⟩
        · rcases incoming_answer hd s2 h3 h4 hk with ⟨n, -, h5⟩ | ⟨-, h5⟩
          · rw [h5, h2]; exact .inl rfl
          · rw [h5, h2]; exact .inr rfl
    · refine ⟨localError key (lit "Invalid/empty HTTP response"), fun r hr => goodEnd_local l key (by simp) hr, .inl ?_⟩
      show s2.tab.complete _ _ = _
      rw [h2]
  obtain ⟨out, hg, h1 | h1⟩ := htab
  · rw [h1]; exact complete_good hi hg
  · rw [h1]; exact fun _ _ _ _ hr => .inl hr

theorem inv_ended {c : LinkCfg} {s : Link D} (hs : Sides c s) (h : LinkInv s) (hd : HtHandlers D) {i : Nat} {fl : Flight} (hfl : s.flights[i]? = some fl)
    (b sid : Bytes) (hb : ∀ key st, fl.what = .request key st → BodyFor s.handled key b) : LinkInv (s.ended c hd fl.post b sid) := by
  have hi := tab_inv hs
  obtain ⟨hok, -, hst⟩ := h.flights i fl hfl
  unfold Link.ended
  split
  · rename_i key st hio hk
    have hw : fl.what = .request key st := by
      rcases hst with h1 | h1
      · rw [hk] at h1
        simp only [Option.some.injEq, PostStage.sent.injEq] at h1
        exact h1.symm
      · rw [hk] at h1; cases h1
    rw [hw] at hok
    obtain ⟨q, -, -, hne, -⟩ := hok
    have e : s.ht.step c.client (.finish hd fl.post b sid) = ({ s.ht with posts := s.ht.posts.set fl.post .over } : Ht D).completed c.client hd (.request key st) b sid := by
      simp only [Ht.step, Ht.finish, hio, hk]
    obtain ⟨h1, h2, h3, h4⟩ := completed_request (o := c.client) hd ({ s.ht with posts := s.ht.posts.set fl.post .over } : Ht D) st sid hne hi (hb key st hw)
    unfold Link.client
    rw [e]
    refine h.frame ?_ ?_ ?_ ?_ ?_
    · exact mem_concat
    · rw [h2]; exact fun _ hq => hq
    · rw [h1]; exact PostsMove.over_at _ _ _
    · exact h3
    · exact h4
  · rename_i p hnot hio hk
    have hnk : ∀ key st, p ≠ .request key st := fun key st e => hnot key st e
    have e : s.ht.step c.client (.finish hd fl.post b sid) = ({ s.ht with posts := s.ht.posts.set fl.post .over } : Ht D).completed c.client hd p b sid := by
      simp only [Ht.step, Ht.finish, hio, hk]
    have e2 : ({ s.ht with posts := s.ht.posts.set fl.post .over } : Ht D).completed c.client hd p b sid =
        ({ s.ht with posts := s.ht.posts.set fl.post .over } : Ht D).capture sid := by
      cases p with
      | request key st => exact absurd rfl (hnk key st)
      | note => rfl
      | answer => rfl
    unfold Link.client
    rw [e, e2, capture_eq]
    refine h.frame ?_ ?_ ?_ ?_ ?_
    · exact mem_concat
    · exact fun _ hq => hq
    · exact PostsMove.over_at _ _ _
    · rfl
    · exact fun _ _ _ _ hr => .inl hr
  · exact h

theorem inv_failEarly {c : LinkCfg} {s : Link D} (hs : Sides c s) (h : LinkInv s) (hd : HtHandlers D) (k : Nat) : LinkInv (s.client c (.failEarly hd k)) := by
  have hi := tab_inv hs
  unfold Link.client
  by_cases hq : s.ht.io = .running ∧ ∃ p b, s.ht.posts[k]? = some (.queued p b)
  · obtain ⟨hio, p, b, hk⟩ := hq
    rw [show s.ht.step c.client (.failEarly hd k) = ({ s.ht with posts := s.ht.posts.set k .over } : Ht D).completed c.client hd p [] [] by
      simp only [Ht.step, Ht.failEarly, hio, hk]]
    have hok := h.posts k p b hk
    cases p with
    | request key st =>
      obtain ⟨q, -, -, hne, -⟩ := hok
      obtain ⟨h1, h2, h3, h4⟩ := completed_request (o := c.client) hd ({ s.ht with posts := s.ht.posts.set k .over } : Ht D) st [] hne hi
        (l := s.handled) (b := []) (.inl (.inl rfl))
      refine h.frame ?_ ?_ ?_ ?_ ?_
      · exact mem_concat
      · rw [h2]; exact fun _ hq => hq
      · rw [h1]; exact PostsMove.over_at _ _ _
      · exact h3
      · exact h4
    | note =>
      refine h.frame ?_ ?_ ?_ ?_ ?_
      · exact mem_concat
      · exact fun _ hq => hq
      · exact PostsMove.over_at _ _ _
      · rfl
      · exact fun _ _ _ _ hr => .inl hr
    | answer =>
      refine h.frame ?_ ?_ ?_ ?_ ?_
      · exact mem_concat
      · exact fun _ hq => hq
      · exact PostsMove.over_at _ _ _
      · rfl
      · exact fun _ _ _ _ hr => .inl hr
  · rw [show s.ht.step c.client (.failEarly hd k) = s.ht by
      simp only [Ht.step, Ht.failEarly]
      split
      · rename_i p b hio hk; exact absurd ⟨hio, p, b, hk⟩ hq
      · rfl]
    refine h.frame ?_ ?_ ?_ ?_ ?_
    · exact mem_concat
    · exact fun _ hq => hq
    · exact PostsMove.refl _ _
    · rfl
    · exact fun _ _ _ _ hr => .inl hr

/-- The answers of the client's handler are plain too. -/
theorem wrap_plain {hd : HtHandlers D} (hf : ∀ f, hd.request = some f → ∀ q, PlainAnswer (f q)) :
    ∃ f, hd.wrap.request = some f ∧ ∀ q, PlainAnswer (f q) := by
  refine ⟨_, rfl, fun q => ?_⟩
  cases hr : hd.request with
  | some f => exact hf f hr q
  | none =>
    refine ⟨fun v hv => (by cases hv), fun v hv => ?_, fun _ v hv => ?_, .inr (by simp)⟩
    · cases hv
      simp [mkErrorObj, JVal.Wire, WireFields, PlainText, Int64OK, Code.methodNotAllowed, lit]
    · cases hv
      simp [mkErrorObj, JVal.HasKey, HasKeyFields, lit]

theorem inv_event {c : LinkCfg} {s : Link D} (h : LinkInv s) (hd : HtHandlers D) (j : Nat)
    (hf : ∀ f, hd.request = some f → ∀ q, PlainAnswer (f q)) : LinkInv (s.event c hd j) := by
  unfold Link.event
  split
  · rename_i k x payload y hj
    split
    · rename_i hc
      obtain ⟨-, -, h1, h2⟩ := hc
      have hm : MsgText D payload := h.server.events _ (List.mem_of_getElem? hj)
      have e : s.ht.step c.client (.event hd payload) = s.ht.incoming hd payload [] := by
        simp only [Ht.step, Ht.event, h1, h2]; rfl
      have hnot : classify payload ≠ .response := by
        rcases hm with ⟨q, hq, e⟩ | ⟨n, hn, e⟩
        · rw [e, C15_request_classified q hq.1 hq.2.1 hq.2.2.2]; intro e; cases e
        · rw [e, C15_notification_classified n hn.1 hn.2.2]; intro e; cases e
      have htab : (s.ht.incoming hd payload []).tab = s.ht.tab := by
        rw [incoming_tab, if_neg hnot]
        split
        · rfl
        · rfl
      obtain ⟨t, he⟩ := incoming_eq hd s.ht payload []
      have hpo : (s.ht.incoming hd payload []).posts = s.ht.posts ++ (route hd.wrap payload).reply.toList.map (.queued .answer ·) := by rw [he]
      have htk : (s.ht.incoming hd payload []).tickets = s.ht.tickets := by rw [he]
      unfold Link.client
      rw [e]
      refine h.frame ?_ ?_ ?_ ?_ ?_
      · exact mem_concat
      · rw [htk]; exact fun _ hq => hq
      · rw [hpo]
        rcases hm with ⟨q, hq, e⟩ | ⟨n, hn, e⟩
        · obtain ⟨f, h3, h4⟩ := wrap_plain hf
          rw [show payload = serRequest q from e, route_request hd.wrap f h3 hq]
          exact PostsMove.add _ _ rfl ⟨q, f q, hq.1, h4 q, rfl⟩
        · rw [show payload = serNotification n from e, (route_note hd.wrap hn).1]
          show PostsMove _ _ (s.ht.posts ++ [])
          rw [List.append_nil]
          exact PostsMove.refl _ _
      · rw [htab]
      · rw [htab]; exact fun _ _ _ _ hr => .inl hr
    · exact h
  · exact h

/-! ### Steps of the server -/

theorem inv_server {s : Link D} (h : LinkInv s) (ops : List (HsOp D)) (hops : ∀ m, HsOp.take m ∈ ops → PlainGoing m) {mine : List Nat} :
    LinkInv { s.server ops with mine := mine } :=
  ⟨h.tickets, h.posts, h.flights, h.pool, h.poolSent, h.replies, h.handled, h.handledOnce, h.outcomes, hsPlain_run h.server ops hops⟩

/-- What serving a flight comes to. -/
theorem flight_served {did : List (HtOp D)} {p : PostFor} {body : Bytes} (hok : SentOk did p body) (f : Option TokenInfo → Request D → HandlerOutcome D)
    (notes errors : Bool) {out : Served D} (ho : PostServed (fun tok => ⟨some (f tok), notes, errors⟩) body out) :
    (out.handled = [] ∧ ∀ key st rep, p = .request key st → out.reply = some rep → QuietBody D rep.body) ∨
    ∃ st q tok, p = .request (keyText q.id) st ∧ PlainReq q ∧ GivenAs did q ∧ out.handled = [(q, tok)] ∧
      ∀ rep, out.reply = some rep → QuietBody D rep.body ∨ rep.body = serResponse (replyFor q (f tok q)) := by
  rcases ho with ⟨h1, h2⟩ | ⟨tok, rep, h1, h2, h3⟩
  · exact .inl ⟨h1, fun _ _ rep _ hr => h2 rep hr⟩
  · cases p with
    | request key st =>
      obtain ⟨q, h4, rfl, h5, h6, rfl⟩ := hok
      rw [route_request (⟨some (f tok), notes, errors⟩ : Handlers D) (f tok) rfl h4] at h1 h3
      refine .inr ⟨st, q, tok, rfl, h4, h6, h1, fun rep' hr => ?_⟩
      rw [h2] at hr
      cases hr
      rcases h3 with h3 | h3 | h3
      · cases h3
      · exact .inr (Option.some.inj h3).symm
      · exact .inl h3
    | note =>
      obtain ⟨n, h4, rfl⟩ := hok
      rw [(route_note _ h4).2] at h1
      exact .inl ⟨h1, fun key st rep e => (by cases e)⟩
    | answer =>
      obtain ⟨q, out', h4, h5, rfl⟩ := hok
      rw [(route_response _ (replyFor_classified h4 h5.out)).2] at h1
      exact .inl ⟨h1, fun key st rep e => (by cases e)⟩

theorem inv_serve {c : LinkCfg} (ha : PlainReasons c.auth) {s : Link D} (h : LinkInv s) (i : Nat) (now : Int) (a : Bytes)
    (f : Option TokenInfo → Request D → HandlerOutcome D) (n e : Bool) (d : Bytes) (hf : ∀ tok q, PlainAnswer (f tok q)) :
    LinkInv (s.serve c i now a f n e d) := by
  unfold Link.serve
  split
  · rename_i k p w hi
    obtain ⟨hok, hdel, hst⟩ := h.flights i _ hi
    have hverb : (c.posted w a).verb = .post := by
      show (if w.delete then Verb.delete else .post) = _
      rw [show w.delete = false from hdel]; rfl
    have hps := served_post c.loopback c.server ha now (fun tok => (⟨some (f tok), n, e⟩ : Handlers D)) s.hs d (c.posted w a) hverb
    have htk := served_takes c.loopback c.server c.auth now (fun tok => (⟨some (f tok), n, e⟩ : Handlers D)) s.hs d (c.posted w a)
    generalize Http.serve c.loopback c.server c.auth now (fun tok => (⟨some (f tok), n, e⟩ : Handlers D)) s.hs d (c.posted w a) = out at hps htk
    have hcase := flight_served hok f n e hps
    clear hps hverb
    have hlt : i < s.flights.length := (List.getElem?_eq_some_iff.1 hi).1
    simp only
    have hsrv : HsPlain (s.hs.run out.ops) := hsPlain_run h.server _ (fun m hm => absurd hm (htk m))
    have hpool : linkPool s.ht.posts (s.flights.set i ⟨k, p, w, some out.reply⟩) = linkPool s.ht.posts s.flights := by
      unfold linkPool
      rw [filterMap_set_eq (f := fun fl : Flight => whatKey fl.what) (y := ⟨k, p, w, some out.reply⟩) hi rfl]
    have hget : ∀ (j : Nat) (fl : Flight), (s.flights.set i ⟨k, p, w, some out.reply⟩)[j]? = some fl →
        (j ≠ i ∧ s.flights[j]? = some fl) ∨ (j = i ∧ fl = ⟨k, p, w, some out.reply⟩) := by
      intro j fl hj
      by_cases e : i = j
      · subst e
        rw [List.getElem?_set_self hlt] at hj
        exact .inr ⟨rfl, (Option.some.inj hj).symm⟩
      · rw [List.getElem?_set_ne e] at hj
        exact .inl ⟨fun e' => e e'.symm, hj⟩
    have hflights : ∀ (j : Nat) (fl : Flight), (s.flights.set i ⟨k, p, w, some out.reply⟩)[j]? = some fl →
        SentOk s.did fl.what fl.sent.body ∧ fl.sent.delete = false ∧ (s.ht.posts[fl.post]? = some (.sent fl.what) ∨ s.ht.posts[fl.post]? = some .over) := by
      intro j fl hj
      rcases hget j fl hj with ⟨-, h1⟩ | ⟨-, rfl⟩
      · exact h.flights j fl h1
      · exact ⟨hok, hdel, hst⟩
    have hold : ∀ k' q out', (k', q, out') ∈ s.handled → ∃ (j : Nat) (fl : Flight) (st : Bool), j ≠ i ∧ s.flights[j]? = some fl ∧ fl.post = k' ∧
        fl.what = .request (keyText q.id) st ∧ fl.reply ≠ none := by
      intro k' q out' hm
      obtain ⟨-, -, j, fl, st, h1, h2, h3, h4⟩ := h.handled k' q out' hm
      refine ⟨j, fl, st, ?_, h1, h2, h3, h4⟩
      rintro rfl
      rw [hi] at h1
      cases h1
      exact h4 rfl
    have hkeep : ∀ k' q out', (k', q, out') ∈ s.handled → GivenAs s.did q ∧ PlainReq q ∧ ∃ (j : Nat) (fl : Flight) (st : Bool),
        (s.flights.set i ⟨k, p, w, some out.reply⟩)[j]? = some fl ∧ fl.post = k' ∧ fl.what = .request (keyText q.id) st ∧ fl.reply ≠ none := by
      intro k' q out' hm
      obtain ⟨h1, h2, -⟩ := h.handled k' q out' hm
      obtain ⟨j, fl, st, h3, h4, h5⟩ := hold k' q out' hm
      exact ⟨h1, h2, j, fl, st, by rw [List.getElem?_set_ne (fun e => h3 e.symm)]; exact h4, h5⟩
    rcases hcase with ⟨h1, h2⟩ | ⟨st, q, tok, hp, hq, hg, h1, h2⟩
    · rw [h1]
      show LinkInv { s with hs := _, srvDid := _, flights := _, handled := s.handled ++ [] }
      rw [List.append_nil]
      refine ⟨h.tickets, h.posts, hflights, by show (linkPool _ _).Nodup; rw [hpool]; exact h.pool, ?_, ?_, hkeep, h.handledOnce, h.outcomes, hsrv⟩
      · intro key hk
        exact h.poolSent key (by rw [← hpool]; exact hk)
      · intro j fl key st rep hj hw hr
        rcases hget j fl hj with ⟨-, h3⟩ | ⟨-, rfl⟩
        · exact h.replies j fl key st rep h3 hw hr
        · exact .inl (h2 key st rep hw (Option.some.inj hr))
    · rw [h1]
      show LinkInv { s with hs := _, srvDid := _, flights := _, handled := s.handled ++ [(k, q, f tok q)] }
      refine ⟨h.tickets, h.posts, hflights, by show (linkPool _ _).Nodup; rw [hpool]; exact h.pool, ?_, ?_, ?_, ?_, ?_, hsrv⟩
      · intro key hk
        exact h.poolSent key (by rw [← hpool]; exact hk)
      · intro j fl key st' rep hj hw hr
        rcases hget j fl hj with ⟨-, h3⟩ | ⟨-, rfl⟩
        · rcases h.replies j fl key st' rep h3 hw hr with h4 | ⟨q', out', h4, h5⟩
          · exact .inl h4
          · exact .inr ⟨q', out', List.mem_append_left _ h4, h5⟩
        · rcases h2 rep (Option.some.inj hr) with h4 | h4
          · exact .inl h4
          · refine .inr ⟨q, f tok q, List.mem_append_right _ (List.mem_singleton.2 rfl), ?_, hq.1, hf tok q, h4⟩
            rw [show p = _ from hw] at hp
            cases hp
            rfl
      · intro k' q' out' hm
        rcases List.mem_append.1 hm with h3 | h3
        · exact hkeep k' q' out' h3
        · simp only [List.mem_singleton, Prod.mk.injEq] at h3
          obtain ⟨rfl, rfl, rfl⟩ := h3
          exact ⟨hg, hq, i, _, st, List.getElem?_set_self hlt, rfl, hp, by simp⟩
      · show ((s.handled ++ [(k, q, f tok q)]).map _).Nodup
        rw [List.map_append]
        refine List.nodup_append.2 ⟨h.handledOnce, by simp, ?_⟩
        rintro x hx y hy rfl
        simp only [List.map_cons, List.map_nil, List.mem_singleton] at hy
        obtain ⟨⟨k', q', out'⟩, h3, h4⟩ := List.mem_map.1 hx
        obtain ⟨j, fl, st', h5, h6, -, h7, -⟩ := hold k' q' out' h3
        refine h5 (filterMap_inj (f := fun fl : Flight => whatKey fl.what) (List.nodup_append.1 h.pool).2.1 h6 hi
          (k := keyText q.id) ?_ ?_)
        · show whatKey fl.what = _
          rw [h7, ← hy, ← h4]; rfl
        · show whatKey p = _
          rw [show p = _ from hp]; rfl
      · intro m key r hm hr
        exact goodEnd_mono (fun x hx => List.mem_append_left _ hx) (h.outcomes m key r hm hr)
  · exact h

theorem inv_step {c : LinkCfg} (ha : PlainReasons c.auth) {s : Link D} (hs : Sides c s) (h : LinkInv s) (op : LinkOp D) (hop : PlainLinkOp op)
    (ho : OwnIds (s.step c op).did) : LinkInv (s.step c op) := by
  cases op with
  | start => exact inv_start h
  | send r => exact inv_send hs h r hop
  | file t => exact inv_file hs h t ho
  | note n => exact inv_note h n hop
  | begin k => exact inv_begin h k
  | failEarly hd k => exact inv_failEarly hs h hd k
  | close => exact inv_close hs h
  | serve i now a f n e d => exact inv_serve ha h i now a f n e d hop
  | arrive hd i =>
    simp only [Link.step, Link.arrive]
    split
    · rename_i k p w r hi
      refine inv_ended hs h hd hi r.body r.session (fun key st hw => ?_)
      rcases h.replies i _ key st r hi hw rfl with h1 | ⟨q, out, h1⟩
      · exact .inl h1
      · exact .inr ⟨k, q, out, h1⟩
    · exact h
  | lose hd i =>
    simp only [Link.step, Link.lose]
    split
    · rename_i k p w r hi
      exact inv_ended hs h hd hi [] [] (fun key st hw => .inl (.inl rfl))
    · exact h
  | listen now a f n e d =>
    simp only [Link.step, Link.listen]
    split
    · exact inv_server h _ (fun m hm => absurd hm (served_takes _ _ _ _ _ _ _ _ m))
    · exact h
  | event hd j => exact inv_event h hd j hop
  | world op =>
    refine inv_server h [op] (fun m hm => ?_)
    simp only [List.mem_singleton] at hm
    subst hm
    cases m with
    | request r => exact hop
    | note n => exact hop

theorem linkInv_run (c : LinkCfg) (ha : PlainReasons c.auth) (ops : List (LinkOp D)) (hops : ∀ op ∈ ops, PlainLinkOp op)
    (ho : OwnIds ((Link.init : Link D).run c ops).did) : LinkInv ((Link.init : Link D).run c ops) := by
  refine link_induct (P := fun s => OwnIds s.did → LinkInv s) c ops (fun _ => linkInv_init) (fun a op hpre ih hown => ?_) ho
  rw [link_run_concat] at hown ⊢
  refine inv_step ha (sides_run c a) (ih (ownIds_prefix (did_grows c _ op) hown)) op (hops op ?_) hown
  exact hpre.subset (List.mem_append_right _ (List.mem_singleton.2 rfl))

/-! ### C92 -/

theorem replyFor_owed (q : Request D) (out : HandlerOutcome D) : OwedResponse q out (replyFor q out) := by
  cases out <;> simp [OwedResponse, replyFor, mkErrorObj, Code.internalError]

/-- **C92 (partial).** A client and a server over HTTP, any interleaving, any losses, other clients beside: when a request of the client
completes, it completes with an error the client transport made itself, or with exactly the response owed for what the request handler of the
server said to that very request, as the caller gave it. Missing: requests, answers, messages and refusals must be such that they survive the
wire format, and the caller's ids pairwise different and not of the form the transport makes. -/
theorem C92_answers_partial (c : LinkCfg) (ha : PlainReasons c.auth) (ops : List (LinkOp D)) (hops : ∀ op ∈ ops, PlainLinkOp op) :
    let s := (Link.init : Link D).run c ops
    OwnIds s.did → ∀ n key out, (n, key) ∈ s.ht.tab.sent → (n, out) ∈ s.ht.tab.outcomes →
      ∃ r, out = .resp r ∧ (LocalError key r ∨ ∃ k q o, (k, q, o) ∈ s.handled ∧ keyText q.id = key ∧ GivenAs s.did q ∧ OwedResponse q o r) := by
  intro s ho n key out hn hout
  have h := linkInv_run c ha ops hops ho
  have hid := idInv_run c.client _ ho
  rw [← (sides_run c ops).ht] at hid
  cases out with
  | broken => exact absurd rfl (hid.noBroken _ hout)
  | resp r =>
    refine ⟨r, rfl, ?_⟩
    rcases h.outcomes n key r hn hout with h1 | ⟨k, q, o, h1, h2, rfl⟩
    · exact .inl h1
    · exact .inr ⟨k, q, o, h1, h2, (h.handled k q o h1).1, replyFor_owed q o⟩

/-- **C92 (partial).** The request handler of the server is given only requests the caller gave to the client, as they gave them, and no two
with the same id: no request is handled twice. Missing: as above. -/
theorem C92_once_partial (c : LinkCfg) (ha : PlainReasons c.auth) (ops : List (LinkOp D)) (hops : ∀ op ∈ ops, PlainLinkOp op) :
    let s := (Link.init : Link D).run c ops
    OwnIds s.did → (∀ k q o, (k, q, o) ∈ s.handled → GivenAs s.did q) ∧ (s.handled.map (fun x => keyText x.2.1.id)).Nodup := by
  intro s ho
  have h := linkInv_run c ha ops hops ho
  exact ⟨fun k q o hm => (h.handled k q o hm).1, h.handledOnce⟩

/-- The exchange of a post: it is sent, served and its response arrives. -/
structure Exchange (D : Type) where
  post : Nat
  handlers : HtHandlers D
  now : Int
  authorization : Bytes
  says : Option TokenInfo → Request D → HandlerOutcome D
  notes : Bool
  errors : Bool
  drawn : Bytes

/-- The steps of an exchange that is flight `i`. -/
def Exchange.ops (x : Exchange D) (i : Nat) : List (LinkOp D) :=
  [.begin x.post, .serve i x.now x.authorization x.says x.notes x.errors x.drawn, .arrive x.handlers i]

/-- What the server reads. -/
def Exchange.reads (x : Exchange D) (c : LinkCfg) (s : Link D) (p : PostFor) (body : Bytes) : HttpReq :=
  c.posted ⟨false, c.client.pathFor p, if c.client.streamable then s.ht.session else [], body⟩ x.authorization

def Exchange.served (x : Exchange D) (c : LinkCfg) (s : Link D) (p : PostFor) (body : Bytes) : Served D :=
  Http.serve c.loopback c.server c.auth x.now (fun tok => ⟨some (x.says tok), x.notes, x.errors⟩) s.hs x.drawn (x.reads c s p body)

theorem exchange_eq (c : LinkCfg) (s : Link D) (x : Exchange D) {key body : Bytes} {st : Bool} {rep : Reply} (hio : s.ht.io = .running)
    (hk : s.ht.posts[x.post]? = some (.queued (.request key st) body)) (hrep : (x.served c s (.request key st) body).reply = some rep) :
    let s' := s.run c (x.ops s.flights.length)
    s'.ht = (s.ht.step c.client (.begin x.post)).step c.client (.finish x.handlers x.post rep.body rep.session) ∧
    s'.hs = s.hs.run (x.served c s (.request key st) body).ops ∧
    s'.handled = s.handled ++ (x.served c s (.request key st) body).handled.map (fun y => (x.post, y.1, x.says y.2 y.1)) ∧
    s'.flights.length = s.flights.length + 1 := by
  have hlt : x.post < s.ht.posts.length := (List.getElem?_eq_some_iff.1 hk).1
  have e1 : s.step c (.begin x.post) = { s.client c (.begin x.post) with
      flights := s.flights ++ [⟨x.post, .request key st, ⟨false, c.client.pathFor (.request key st), if c.client.streamable then s.ht.session else [], body⟩, none⟩] } := by
    simp only [Link.step, Link.begin, hio, hk]
  have e2 : (s.step c (.begin x.post)).step c (.serve s.flights.length x.now x.authorization x.says x.notes x.errors x.drawn) =
      { (s.client c (.begin x.post)).server (x.served c s (.request key st) body).ops with
        flights := s.flights ++ [⟨x.post, .request key st, ⟨false, c.client.pathFor (.request key st), if c.client.streamable then s.ht.session else [], body⟩, some (some rep)⟩]
        handled := s.handled ++ (x.served c s (.request key st) body).handled.map (fun y => (x.post, y.1, x.says y.2 y.1)) } := by
    rw [e1]
    simp only [Link.step, Link.serve]
    rw [List.getElem?_concat_length]
    simp only
    have hset : ∀ (l : List Flight) (a b : Flight), (l ++ [a]).set l.length b = l ++ [b] := by
      intro l a b
      rw [List.set_append_right _ _ (Nat.le_refl _), Nat.sub_self]; rfl
    rw [hset, ← hrep]
    rfl
  have hbegin : (s.ht.step c.client (.begin x.post)).io = .running ∧
      (s.ht.step c.client (.begin x.post)).posts[x.post]? = some (.sent (.request key st)) := by
    simp only [Ht.step, Ht.begin, hio, hk]
    exact ⟨trivial, List.getElem?_set_self hlt⟩
  have e3 : s.run c (x.ops s.flights.length) =
      (((s.step c (.begin x.post)).step c (.serve s.flights.length x.now x.authorization x.says x.notes x.errors x.drawn)).step c (.arrive x.handlers s.flights.length)) := rfl
  intro s'
  show (s.run c _).ht = _ ∧ (s.run c _).hs = _ ∧ (s.run c _).handled = _ ∧ (s.run c _).flights.length = _
  rw [e3, e2]
  simp only [Link.step, Link.arrive]
  rw [List.getElem?_concat_length]
  simp only [Link.ended]
  have hio' : ((s.client c (.begin x.post)).server (x.served c s (.request key st) body).ops).ht.io = .running := hbegin.1
  have hpo' : ((s.client c (.begin x.post)).server (x.served c s (.request key st) body).ops).ht.posts[x.post]? = some (.sent (.request key st)) := hbegin.2
  rw [hio', hpo']
  simp only
  exact ⟨rfl, rfl, rfl, by show (s.flights ++ [_]).length = _; simp⟩

/-- How the promise of the request and the session of the client come out of an exchange. -/
theorem exchange_client (c : LinkCfg) (s : Link D) (x : Exchange D) {key body : Bytes} {st : Bool} {rep : Reply} (hio : s.ht.io = .running)
    (hk : s.ht.posts[x.post]? = some (.queued (.request key st) body)) (hkey : key ≠ []) {l : List (Nat × Request D × HandlerOutcome D)} (hb : BodyFor l key rep.body)
    (hrep : (x.served c s (.request key st) body).reply = some rep) :
    let s' := s.run c (x.ops s.flights.length)
    s'.ht.session = (if rep.session = [] then s.ht.session else rep.session) ∧ s'.ht.io = .running ∧ s'.ht.connected = s.ht.connected ∧
    s'.ht.posts = s.ht.posts.set x.post .over ∧
    (QuietBody D rep.body → ∃ text ∈ [lit "Mismatched response id", lit "Invalid/empty HTTP response"], s'.ht.tab = s.ht.tab.complete key (localError key text)) ∧
    (rep.body ≠ [] → ∀ n, AMap.get s.ht.tab.pending key = some n → keyText (deResponse (D := D) rep.body).id = key → classify rep.body = .response →
      s'.ht.tab = s.ht.tab.complete key (.resp (deResponse rep.body))) := by
  intro s'
  have hlt : x.post < s.ht.posts.length := (List.getElem?_eq_some_iff.1 hk).1
  have he : s'.ht = _ := (exchange_eq c s x hio hk hrep).1
  have hb1 : s.ht.step c.client (.begin x.post) = { s.ht with
      posts := s.ht.posts.set x.post (.sent (.request key st)), wire := s.ht.wire ++ [⟨false, c.client.pathFor (.request key st), if c.client.streamable then s.ht.session else [], body⟩] } := by
    simp only [Ht.step, Ht.begin, hio, hk]
  generalize hw : s.ht.wire ++ [⟨false, c.client.pathFor (.request key st), if c.client.streamable then s.ht.session else [], body⟩] = w at hb1
  have hpo : (s.ht.posts.set x.post (.sent (.request key st)))[x.post]? = some (.sent (.request key st)) := List.getElem?_set_self hlt
  have hfin : s'.ht = ({ s.ht with posts := (s.ht.posts.set x.post (.sent (.request key st))).set x.post .over, wire := w } : Ht D).completed c.client x.handlers (.request key st) rep.body rep.session := by
    rw [he, hb1]
    simp only [Ht.step, Ht.finish, hio, hpo]
  rw [List.set_set] at hfin
  obtain ⟨t, e, hd', nt, ps, heq, hps⟩ := completed_eq c.client x.handlers ({ s.ht with posts := s.ht.posts.set x.post .over, wire := w } : Ht D) (.request key st) rep.body rep.session
  have htab : s'.ht.tab = (if rep.body ≠ [] then ((if st && !rep.session.isEmpty then (({ s.ht with posts := s.ht.posts.set x.post .over, wire := w } : Ht D).capture rep.session).startSse c.client
      else ({ s.ht with posts := s.ht.posts.set x.post .over, wire := w } : Ht D).capture rep.session).incoming x.handlers rep.body key)
      else (if st && !rep.session.isEmpty then (({ s.ht with posts := s.ht.posts.set x.post .over, wire := w } : Ht D).capture rep.session).startSse c.client
      else ({ s.ht with posts := s.ht.posts.set x.post .over, wire := w } : Ht D).capture rep.session).fail key (lit "Invalid/empty HTTP response")).tab := by
    rw [hfin]
    rfl
  have h2 : (if st && !rep.session.isEmpty then (({ s.ht with posts := s.ht.posts.set x.post .over, wire := w } : Ht D).capture rep.session).startSse c.client
      else ({ s.ht with posts := s.ht.posts.set x.post .over, wire := w } : Ht D).capture rep.session).tab = s.ht.tab := by
    split
    · rw [startSse_tab, capture_tab]
    · rw [capture_tab]
  generalize (if st && !rep.session.isEmpty then (({ s.ht with posts := s.ht.posts.set x.post .over, wire := w } : Ht D).capture rep.session).startSse c.client
      else ({ s.ht with posts := s.ht.posts.set x.post .over, wire := w } : Ht D).capture rep.session) = s2 at htab h2
  refine ⟨by rw [hfin, heq], by rw [hfin, heq]; exact hio, by rw [hfin, heq], ?_, fun hq => ?_, fun hne n hn hid hc => ?_⟩
  · have hroute : (route x.handlers.wrap rep.body).reply = none := by
      by_cases hne : rep.body = []
      · rw [hne]
        cases hr : (route x.handlers.wrap ([] : Bytes)).reply with
        | none => rfl
        | some y =>
          have := (C14_reply_iff_handled x.handlers.wrap ([] : Bytes)).2.2 (by rw [hr]; rfl)
          exact absurd this (by decide)
      · rcases hb with hq | ⟨k, q, out, -, -, h3, h4, h5⟩
        · exact (incoming_quiet x.handlers s2 hq hne hkey).choose_spec.2.2
        · rw [h5]; exact (route_response x.handlers.wrap (replyFor_classified h3 h4.out)).1
    have hps0 : ps = [] := by
      cases ps with
      | nil => rfl
      | cons y ps =>
        obtain ⟨b', hb', -⟩ := hps y (List.mem_cons_self ..)
        rw [hroute] at hb'; cases hb'
    rw [hfin, heq, hps0]
    exact List.append_nil _
  · by_cases hne : rep.body = []
    · rw [if_neg (by simp [hne])] at htab
      refine ⟨lit "Invalid/empty HTTP response", by simp, ?_⟩
      rw [htab]
      show s2.tab.complete _ _ = _
      rw [h2]
    · rw [if_pos hne] at htab
      obtain ⟨text, h3, h4, -⟩ := incoming_quiet x.handlers s2 hq hne hkey
      refine ⟨text, ?_, ?_⟩
      · rcases h3 with h3 | h3 <;> simp [h3]
      · rw [htab, h4, h2]
  · rw [if_pos hne] at htab
    rw [htab, incoming_tab, if_pos hc]
    unfold Ht.deliver
    rw [hid, h2, if_pos ⟨hkey, by rw [hn]; rfl⟩]

theorem session_reads {c : LinkCfg} (hst : c.client.streamable = true) (x : Exchange D) (s : Link D) (p : PostFor) (body : Bytes) :
    (x.reads c s p body).session = s.ht.session ∧ (x.reads c s p body).version = currentVersion ∧ (x.reads c s p body).verb = .post ∧
    (x.reads c s p body).body = body := by
  unfold Exchange.reads LinkCfg.posted
  simp only [hst, if_true]
  exact ⟨trivial, trivial, rfl, trivial⟩

theorem within_request {h : Option TokenInfo → Handlers D} {f : Option TokenInfo → Request D → HandlerOutcome D} (hh : ∀ tok, (h tok).request = some (f tok))
    (s : Hs D) (before : List (HsOp D)) (sid : Bytes) (y : Sess D) (req : HttpReq) (tok : Option TokenInfo) {q : Request D} (hq : PlainReq q)
    (hb : req.body = serRequest q) :
    (withinSession h s before sid y req tok).reply = some ⟨200, serResponse (replyFor q (f tok q)), sid, []⟩ ∧
    (withinSession h s before sid y req tok).handled = [(q, tok)] := by
  unfold withinSession
  simp only
  rw [hb, route_request (h tok) (f tok) (hh tok) hq]
  exact ⟨rfl, rfl⟩

/-- An exchange of a request that is served within a session. -/
theorem exchange_within (c : LinkCfg) (s : Link D) (x : Exchange D) {st : Bool} {q : Request D} {n : Nat} {tok : Option TokenInfo}
    {before : List (HsOp D)} {sid : Bytes} {y : Sess D} (hio : s.ht.io = .running) (hq : PlainReq q) (hkey : keyText q.id ≠ [])
    (hk : s.ht.posts[x.post]? = some (.queued (.request (keyText q.id) st) (serRequest q))) (hn : AMap.get s.ht.tab.pending (keyText q.id) = some n)
    (hsays : PlainAnswer (x.says tok q)) (hst : c.client.streamable = true)
    (hserved : x.served c s (.request (keyText q.id) st) (serRequest q) =
      withinSession (fun tok => ⟨some (x.says tok), x.notes, x.errors⟩) s.hs before sid y (x.reads c s (.request (keyText q.id) st) (serRequest q)) tok) :
    let s' := s.run c (x.ops s.flights.length)
    (n, .resp (replyFor q (x.says tok q))) ∈ s'.ht.tab.outcomes ∧ s'.handled = s.handled ++ [(x.post, q, x.says tok q)] ∧
    s'.ht.session = (if sid = [] then s.ht.session else sid) ∧ s'.ht.io = .running := by
  intro s'
  obtain ⟨h1, h2⟩ := within_request (h := fun tok => ⟨some (x.says tok), x.notes, x.errors⟩) (f := x.says) (fun _ => rfl) s.hs before sid y
    (x.reads c s (.request (keyText q.id) st) (serRequest q)) tok hq (session_reads hst x s _ _).2.2.2
  rw [← hserved] at h1 h2
  have hc := replyFor_classified hq.1 hsays.out
  obtain ⟨h3, h4, -, -, -, h5⟩ := exchange_client c s x hio hk hkey (l := [(x.post, q, x.says tok q)])
    (.inr ⟨x.post, q, x.says tok q, List.mem_singleton.2 rfl, rfl, hq.1, hsays, rfl⟩) h1
  have h6 := (exchange_eq c s x hio hk h1).2.2.1
  rw [h2] at h6
  refine ⟨?_, h6, h3, h4⟩
  have hne : serResponse (replyFor q (x.says tok q)) ≠ [] := by
    intro e; rw [e] at hc; revert hc; decide
  have := h5 hne n hn (by rw [answer_read hq.1 hsays, replyFor_id]) hc
  rw [this, answer_read hq.1 hsays]
  exact PTab.complete_outcome hn

/-- **C92 (partial).** While the session of the client lives at the server, with the version the client names, the exchange of a waiting request
that passes the checks of the server hands it to the request handler, and the request completes with the response owed. Missing: the network
delivers, and the caller's ids and what travels as above. -/
theorem C92_delivered_partial (c : LinkCfg) (ha : PlainReasons c.auth) (ops : List (LinkOp D)) (hops : ∀ op ∈ ops, PlainLinkOp op) (x : Exchange D)
    (hsays : ∀ tok q, PlainAnswer (x.says tok q)) :
    let s := (Link.init : Link D).run c ops
    OwnIds s.did → ∀ (key body : Bytes) (st : Bool) (n : Nat) (tok : Option TokenInfo) (o : Nat) (y : Sess D), s.ht.io = .running →
      s.ht.posts[x.post]? = some (.queued (.request key st) body) → AMap.get s.ht.tab.pending key = some n →
      c.client.endpointPath ≠ [] → AtEndpoint c.loopback c.server c.auth x.now (x.reads c s (.request key st) body) tok →
      s.ht.session ≠ [] → s.hs.lookup s.ht.session = some o → s.hs.objs[o]? = some y → y.version = lit "2025-11-25" →
      let s' := s.run c (x.ops s.flights.length)
      ∃ q r, GivenAs s.did q ∧ keyText q.id = key ∧ s'.handled = s.handled ++ [(x.post, q, x.says tok q)] ∧ OwedResponse q (x.says tok q) r ∧
        (n, .resp r) ∈ s'.ht.tab.outcomes ∧ s'.ht.session = s.ht.session := by
  intro s ho key body st n tok o y hio hk hn hend hat hsess hlook hy hv s'
  have h := linkInv_run c ha ops hops ho
  obtain ⟨q, h1, rfl, h2, h3, rfl⟩ := h.posts _ _ _ hk
  have hst : c.client.streamable = true := by
    unfold HtOpts.streamable
    cases hp : c.client.endpointPath with
    | nil => exact absurd hp hend
    | cons => rfl
  obtain ⟨r1, r2, r3, r4⟩ := session_reads hst x s (.request (keyText q.id) st) (serRequest q)
  have hserved : x.served c s (.request (keyText q.id) st) (serRequest q) =
      withinSession (fun tok => ⟨some (x.says tok), x.notes, x.errors⟩) s.hs [.find s.ht.session] s.ht.session y (x.reads c s (.request (keyText q.id) st) (serRequest q)) tok := by
    unfold Exchange.served
    rw [endpoint_serve hat (by rw [r3]; intro e; cases e)]
    unfold handleEndpoint
    rw [if_neg (by rw [r3]; intro e; cases e), if_neg (by rw [r3]; simp)]
    have hop : opening (D := D) (x.reads c s (.request (keyText q.id) st) (serRequest q)) = none := by
      unfold opening
      split
      · rw [if_neg (fun hh => hsess (r1 ▸ hh.2))]
      · rfl
    rw [hop, r1, hlook]
    simp only [hy]
    rw [r2, hv]
    exact if_neg (by decide)
  obtain ⟨h4, h5, h6, -⟩ := exchange_within c s x hio h1 h2 hk hn (hsays tok q) hst hserved
  refine ⟨q, _, h3, rfl, h5, replyFor_owed q _, h4, ?_⟩
  show s'.ht.session = _
  rw [h6, if_neg hsess]

/-- **C92 (partial).** The exchange of an initialize request by a client without a session opens one: the request is answered, the client has the
session the server drew, and the server has it with the version the caller asked for. Missing: as above. -/
theorem C92_opens_partial (c : LinkCfg) (ha : PlainReasons c.auth) (ops : List (LinkOp D)) (hops : ∀ op ∈ ops, PlainLinkOp op) (x : Exchange D)
    (hsays : ∀ tok q, PlainAnswer (x.says tok q)) (hdrawn : x.drawn ≠ []) :
    let s := (Link.init : Link D).run c ops
    OwnIds s.did → ∀ (key body : Bytes) (st : Bool) (n : Nat) (tok : Option TokenInfo) (q : Request D), s.ht.io = .running →
      s.ht.posts[x.post]? = some (.queued (.request key st) body) → AMap.get s.ht.tab.pending key = some n →
      c.client.endpointPath ≠ [] → AtEndpoint c.loopback c.server c.auth x.now (x.reads c s (.request key st) body) tok →
      s.ht.session = [] → Opens D body q →
      let s' := s.run c (x.ops s.flights.length)
      s'.ht.session = x.drawn ∧ s'.hs.lookup x.drawn = some s.hs.objs.length ∧
      (∀ v, AsksFor q v → ∃ y, s'.hs.objs[s.hs.objs.length]? = some y ∧ y.version = v) ∧
      ∃ r, s'.handled = s.handled ++ [(x.post, q, x.says tok q)] ∧ OwedResponse q (x.says tok q) r ∧ (n, .resp r) ∈ s'.ht.tab.outcomes := by
  intro s ho key body st n tok q hio hk hn hend hat hsess hop s'
  have h := linkInv_run c ha ops hops ho
  obtain ⟨q', h1, rfl, h2, h3, rfl⟩ := h.posts _ _ _ hk
  have hqq : q' = q := by
    have := C04_request_roundtrip_wire q' h1.1.ok h1.2.1.noQuote h1.2.2.1 h1.2.2.2
    rw [hop.1] at this
    exact (Option.some.inj this).symm
  subst hqq
  have hst : c.client.streamable = true := by
    unfold HtOpts.streamable
    cases hp : c.client.endpointPath with
    | nil => exact absurd hp hend
    | cons => rfl
  obtain ⟨r1, r2, r3, r4⟩ := session_reads hst x s (.request (keyText q'.id) st) (serRequest q')
  have hserved : x.served c s (.request (keyText q'.id) st) (serRequest q') =
      withinSession (fun tok => ⟨some (x.says tok), x.notes, x.errors⟩) s.hs [.create x.drawn (requestedVersion q'), .find x.drawn] x.drawn
        (Sess.fresh (requestedVersion q')) (x.reads c s (.request (keyText q'.id) st) (serRequest q')) tok := by
    unfold Exchange.served
    rw [endpoint_serve hat (by rw [r3]; intro e; cases e)]
    unfold handleEndpoint
    rw [if_neg (by rw [r3]; intro e; cases e), if_neg (by rw [r3]; simp)]
    have ho : opening (D := D) (x.reads c s (.request (keyText q'.id) st) (serRequest q')) = some q' := by
      unfold opening
      rw [r4, hop.1]
      exact if_pos ⟨hop.2, r1.trans hsess⟩
    rw [ho]
  obtain ⟨h4, h5, h6, -⟩ := exchange_within c s x hio h1 h2 hk hn (hsays tok q') hst hserved
  obtain ⟨-, g1, g2, -⟩ := C82_opens c.loopback c.server c.auth x.now (fun tok => (⟨some (x.says tok), x.notes, x.errors⟩ : Handlers D)) s.hs x.drawn
    (x.reads c s (.request (keyText q'.id) st) (serRequest q')) tok hat r3 (r1.trans hsess) q' (by rw [r4]; exact hop)
  have hrep := (within_request (h := fun tok => ⟨some (x.says tok), x.notes, x.errors⟩) (f := x.says) (fun _ => rfl) s.hs
    [.create x.drawn (requestedVersion q'), .find x.drawn] x.drawn (Sess.fresh (requestedVersion q'))
    (x.reads c s (.request (keyText q'.id) st) (serRequest q')) tok h1 r4).1
  rw [← hserved] at hrep
  have hhs : s'.hs = _ := (exchange_eq c s x hio hk hrep).2.1
  refine ⟨?_, ?_, ?_, _, h5, replyFor_owed q' _, h4⟩
  · show s'.ht.session = _
    rw [h6, if_neg hdrawn]
  · show s'.hs.lookup _ = _
    rw [hhs]; exact g1
  · show ∀ v, AsksFor q' v → ∃ y, s'.hs.objs[_]? = some y ∧ _
    rw [hhs]; exact g2

/-- What the exchange of a request comes to when the server refuses it. -/
theorem exchange_refused (c : LinkCfg) (s : Link D) (x : Exchange D) {key body : Bytes} {st : Bool} {n status : Nat} {m : Bytes} (hio : s.ht.io = .running)
    (hk : s.ht.posts[x.post]? = some (.queued (.request key st) body)) (hkey : key ≠ []) (hn : AMap.get s.ht.tab.pending key = some n)
    (hserved : x.served c s (.request key st) body = .just status m) (hm : QuietBody D m) :
    let s' := s.run c (x.ops s.flights.length)
    (∃ r, LocalError key r ∧ (n, .resp r) ∈ s'.ht.tab.outcomes) ∧ s'.handled = s.handled ∧ s'.ht.session = s.ht.session ∧ s'.hs = s.hs ∧
    s'.ht.io = .running ∧ s'.ht.posts = s.ht.posts.set x.post .over := by
  intro s'
  have hrep : (x.served c s (.request key st) body).reply = some ⟨status, m, [], []⟩ := by rw [hserved]; rfl
  obtain ⟨h1, h2, -, h3, h4, -⟩ := exchange_client c s x hio hk hkey (l := []) (.inl hm) hrep
  obtain ⟨-, h5, h6, -⟩ := exchange_eq c s x hio hk hrep
  rw [hserved] at h5 h6
  obtain ⟨text, h7, h8⟩ := h4 hm
  refine ⟨⟨⟨.str key, none, some (mkErrorObj Code.internalError text none)⟩, ⟨rfl, rfl, text, ?_, rfl⟩, ?_⟩, ?_, h1, h5, h2, h3⟩
  · simp only [List.mem_cons, List.not_mem_nil, or_false] at h7
    rcases h7 with h7 | h7 <;> simp [h7]
  · show _ ∈ s'.ht.tab.outcomes
    rw [h8]; exact PTab.complete_outcome hn
  · show s'.handled = _
    rw [h6]; exact List.append_nil _

/-- **C92**, the other way about: when the server no longer has the session of the client, every request sent to the endpoint fails with an error of
the client, whatever it is, and the client keeps the session: an initialize request fails as well, so nothing but `Close` gets the client out
of this. -/
theorem C92_lost_counterexample (c : LinkCfg) (ha : PlainReasons c.auth) (ops : List (LinkOp D)) (hops : ∀ op ∈ ops, PlainLinkOp op) (x : Exchange D) :
    let s := (Link.init : Link D).run c ops
    OwnIds s.did → ∀ (key body : Bytes) (st : Bool) (n : Nat) (tok : Option TokenInfo), s.ht.io = .running →
      s.ht.posts[x.post]? = some (.queued (.request key st) body) → AMap.get s.ht.tab.pending key = some n →
      c.client.endpointPath ≠ [] → AtEndpoint c.loopback c.server c.auth x.now (x.reads c s (.request key st) body) tok →
      s.ht.session ≠ [] → s.hs.lookup s.ht.session = none →
      let s' := s.run c (x.ops s.flights.length)
      (∃ r, LocalError key r ∧ (n, .resp r) ∈ s'.ht.tab.outcomes) ∧ s'.handled = s.handled ∧
      s'.ht.session = s.ht.session ∧ s'.hs.lookup s'.ht.session = none := by
  intro s ho key body st n tok hio hk hn hend hat hsess hlook s'
  have h := linkInv_run c ha ops hops ho
  obtain ⟨q, h1, h0, h2, h3, h4⟩ := h.posts _ _ _ hk
  have hst : c.client.streamable = true := by
    unfold HtOpts.streamable
    cases hp : c.client.endpointPath with
    | nil => exact absurd hp hend
    | cons => rfl
  obtain ⟨r1, r2, r3, r4⟩ := session_reads hst x s (.request key st) body
  have hserved : x.served c s (.request key st) body = .just 400 (lit "{\"error\":\"Missing or invalid session\"}") :=
    C82_needs_session c.loopback c.server c.auth x.now _ s.hs x.drawn _ tok hat r3 (by rw [r1]; exact hlook) (.inl (by rw [r1]; exact hsess))
  obtain ⟨g1, g2, g3, g4, -⟩ := exchange_refused c s x hio hk h2 hn hserved (quietE _ (lit "Missing or invalid session") (by decide) (by decide))
  refine ⟨g1, g2, g3, ?_⟩
  show s'.hs.lookup s'.ht.session = none
  rw [show s'.hs = s.hs from g4, show s'.ht.session = s.ht.session from g3]
  exact hlook

/-- **C92**, the other way about: the client names the version `2025-11-25` in every request, whatever version the session was opened with; in a
session opened with another version every request fails with an error of the client. -/
theorem C92_version_counterexample (c : LinkCfg) (ha : PlainReasons c.auth) (ops : List (LinkOp D)) (hops : ∀ op ∈ ops, PlainLinkOp op) (x : Exchange D) :
    let s := (Link.init : Link D).run c ops
    OwnIds s.did → ∀ (key body : Bytes) (st : Bool) (n : Nat) (tok : Option TokenInfo) (o : Nat) (y : Sess D), s.ht.io = .running →
      s.ht.posts[x.post]? = some (.queued (.request key st) body) → AMap.get s.ht.tab.pending key = some n →
      c.client.endpointPath ≠ [] → AtEndpoint c.loopback c.server c.auth x.now (x.reads c s (.request key st) body) tok →
      s.ht.session ≠ [] → s.hs.lookup s.ht.session = some o → s.hs.objs[o]? = some y → y.version ≠ lit "2025-11-25" →
      let s' := s.run c (x.ops s.flights.length)
      (∃ r, LocalError key r ∧ (n, .resp r) ∈ s'.ht.tab.outcomes) ∧ s'.handled = s.handled ∧ s'.ht.session = s.ht.session ∧ s'.hs = s.hs := by
  intro s ho key body st n tok o y hio hk hn hend hat hsess hlook hy hv s'
  have h := linkInv_run c ha ops hops ho
  obtain ⟨q, h1, h0, h2, h3, h4⟩ := h.posts _ _ _ hk
  have hst : c.client.streamable = true := by
    unfold HtOpts.streamable
    cases hp : c.client.endpointPath with
    | nil => exact absurd hp hend
    | cons => rfl
  obtain ⟨r1, r2, r3, r4⟩ := session_reads hst x s (.request key st) body
  have hacc : versionAccepted y.version (x.reads c s (.request key st) body).version = false := by
    rw [r2]
    unfold versionAccepted
    rw [if_neg (by decide), if_neg (fun e => hv e.symm), show decide (y.version = currentVersion) = false from decide_eq_false hv]
    rfl
  have hserved : x.served c s (.request key st) body = .just 400 (lit "{\"error\":\"Unsupported protocol version\"}") :=
    (C82_within c.loopback c.server c.auth x.now _ s.hs x.drawn _ tok hat r3 (by rw [r1]; exact hsess) o y (by rw [r1]; exact hlook) hy).2 hacc
  obtain ⟨g1, g2, g3, g4, -⟩ := exchange_refused c s x hio hk h2 hn hserved (quietE _ (lit "Unsupported protocol version") (by decide) (by decide))
  exact ⟨g1, g2, g3, g4⟩

/-! ### The hypotheses are met -/

def demoCfg : LinkCfg :=
  ⟨⟨lit "/mcp", lit "/rpc", lit "/notify", true, true⟩, lit "localhost", lit "/mcp", ⟨lit "127.0.0.1", lit "/rpc", lit "/notify", lit "/mcp", []⟩,
    AuthCfg.init, fun a => a == lit "127.0.0.1"⟩

/-- The server answers everything with its method. -/
def demoSays : Option TokenInfo → Request Empty → HandlerOutcome Empty := fun _ q => .resp ⟨.null, some (.str q.method), none⟩

def demoClient : HtHandlers Empty := ⟨none, true, true⟩

theorem demoSays_plain : ∀ tok q, PlainAnswer (demoSays tok q) := by
  intro tok q
  refine ⟨fun v hv => ?_, fun v hv => (by cases hv), fun h => (by cases h), .inl (by simp)⟩
  cases hv
  exact ⟨trivial, fun h => (by cases h)⟩

/-- A client that initializes with some version, and then asks to list the tools. -/
def demoOps (version : Bytes) : List (LinkOp Empty) :=
  [.start, .send ⟨.null, lit "initialize", some (.obj [(lit "protocolVersion", .str version)])⟩, .file 0, .begin 0,
    .serve 0 0 [] demoSays true true (lit "s1"), .arrive demoClient 0, .send ⟨.int 7, lit "tools/list", none⟩, .file 1]

theorem demo_plain (version : Bytes) : ∀ op ∈ demoOps version, PlainLinkOp op := by
  intro op hop
  simp only [demoOps, List.mem_cons, List.not_mem_nil, or_false] at hop
  rcases hop with rfl | rfl | rfl | rfl | rfl | rfl | rfl | rfl
  · trivial
  · refine ⟨trivial, (plain_dec (by decide) : PlainText (lit "initialize")), (by decide : lit "initialize" ≠ []), ?_⟩
    intro v hv
    cases hv
    simp [JVal.Wire, WireFields, PlainText, lit]
  · trivial
  · trivial
  · exact demoSays_plain
  · trivial
  · exact ⟨(by decide : Int64OK 7), plain_dec (by decide), by decide, fun v hv => (by cases hv)⟩
  · trivial

/-- Such a client: the hypotheses of `C92_answers_partial`, `C92_once_partial` and `C92_delivered_partial`; both requests are handled and answered. -/
example : let s := (Link.init : Link Empty).run demoCfg (demoOps (lit "2025-11-25"))
    let x : Exchange Empty := ⟨1, demoClient, 0, [], demoSays, true, true, []⟩
    PlainReasons demoCfg.auth ∧ (∀ op ∈ demoOps (lit "2025-11-25"), PlainLinkOp op) ∧ OwnIds s.did ∧ s.ht.io = .running ∧
    s.ht.posts[1]? = some (.queued (.request (lit "7") false) (serRequest (⟨.int 7, lit "tools/list", none⟩ : Request Empty))) ∧
    AMap.get s.ht.tab.pending (lit "7") = some 1 ∧ s.ht.session = lit "s1" ∧ s.hs.lookup s.ht.session = some 0 ∧
    (s.hs.objs[0]?.map (·.version)) = some (lit "2025-11-25") ∧
    AtEndpoint demoCfg.loopback demoCfg.server demoCfg.auth x.now (x.reads demoCfg s (.request (lit "7") false) (serRequest (⟨.int 7, lit "tools/list", none⟩ : Request Empty))) none ∧
    (s.run demoCfg (x.ops s.flights.length)).handled.length = 2 ∧ (s.run demoCfg (x.ops s.flights.length)).ht.tab.outcomes.map (·.1) = [0, 1] := by
  refine ⟨fun v token m hv => (by cases hv), demo_plain _, ⟨by decide +kernel, by decide +kernel, by decide +kernel⟩, by decide +kernel, by decide +kernel, by decide +kernel,
    by decide +kernel, by decide +kernel, by decide +kernel, ⟨by decide, by decide +kernel, ⟨by decide +kernel, by decide +kernel⟩, by decide +kernel, .inl ⟨rfl, rfl⟩⟩,
    by decide +kernel, by decide +kernel⟩

/-- A client about to initialize: the hypotheses of `C92_opens_partial`. -/
example : let s := (Link.init : Link Empty).run demoCfg ((demoOps (lit "2025-11-25")).take 3)
    s.ht.io = .running ∧ s.ht.session = [] ∧ AMap.get s.ht.tab.pending (lit "http-req-1") = some 0 ∧
    ∃ body, s.ht.posts[0]? = some (.queued (.request (lit "http-req-1") true) body) ∧
      Opens Empty body ⟨.str (lit "http-req-1"), lit "initialize", some (.obj [(lit "protocolVersion", .str (lit "2025-11-25"))])⟩ := by
  refine ⟨by decide +kernel, by decide +kernel, by decide +kernel,
    serRequest (⟨.str (lit "http-req-1"), lit "initialize", some (.obj [(lit "protocolVersion", .str (lit "2025-11-25"))])⟩ : Request Empty), by decide +kernel, ?_, rfl⟩
  exact C04_request_roundtrip_wire _ (IdPlain.ok (plain_dec (by decide) : PlainText (lit "http-req-1"))) (plain_dec (by decide)).noQuote (by decide) (fun v hv => by cases hv; simp [JVal.Wire, WireFields, PlainText, lit])

/-- Asking for an older version: the hypotheses of `C92_version_counterexample`; and a session removed by the server: those of
`C92_lost_counterexample`. -/
example : let s := (Link.init : Link Empty).run demoCfg (demoOps (lit "2025-06-18"))
    let t := (Link.init : Link Empty).run demoCfg (demoOps (lit "2025-11-25") ++ [.world (.remove (lit "s1"))])
    OwnIds s.did ∧ s.ht.session = lit "s1" ∧ s.hs.lookup s.ht.session = some 0 ∧ (s.hs.objs[0]?.map (·.version)) = some (lit "2025-06-18") ∧
    AMap.get s.ht.tab.pending (lit "7") = some 1 ∧
    OwnIds t.did ∧ t.ht.session = lit "s1" ∧ t.hs.lookup t.ht.session = none ∧ AMap.get t.ht.tab.pending (lit "7") = some 1 := by
  exact ⟨⟨by decide +kernel, by decide +kernel, by decide +kernel⟩, by decide +kernel, by decide +kernel, by decide +kernel, by decide +kernel,
    ⟨by decide +kernel, by decide +kernel, by decide +kernel⟩, by decide +kernel, by decide +kernel, by decide +kernel⟩

end Verif
