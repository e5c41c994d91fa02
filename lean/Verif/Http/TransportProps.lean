import Verif.Http.Transport
import Verif.Rpc.Props

/-!
C46: the requests of the HTTP client transport complete once, with their own response, when their exchange is over or the transport closed.
C84: what a transport that runs does with what it is given, and that a transport cannot be started again.
-/

set_option linter.unusedSectionVars false

namespace Verif

open Http

variable {D : Type} [DblFmt D]

/-! ### Specification -/

/-- The error of a request made while the transport is not connected. -/
def refusedSend (id : RpcId) : SOut D := .resp ⟨id, none, some (mkErrorObj (-32603) (lit "Transport not connected") none)⟩

/-- How a request may end without having been filed: overwritten, or refused. -/
def UnfiledEnd (out : SOut D) : Prop := out = .broken ∨ ∃ id, out = refusedSend id

/-- A response bearing the id of the request. -/
def OwnEnd (out : SOut D) (key : Bytes) : Prop := ∃ r, out = .resp r ∧ keyText r.id = key

/-- The body of an exchange is a request of the server. -/
def AsksClient (D : Type) [DblFmt D] (body : Bytes) : Prop := classify body = .request ∧ ∃ r, deRequest (D := D) body = some r

/-- The body of the exchange of `key` answers another request that is waiting. -/
def AnswersOther (s : Ht D) (key body : Bytes) : Prop :=
  classify body = .response ∧ keyText (deResponse (D := D) body).id ≠ key ∧ keyText (deResponse (D := D) body).id ≠ [] ∧
    (AMap.get s.tab.pending (keyText (deResponse (D := D) body).id)).isSome

/-- `Start` is not called after `Close`. -/
def StartedOnce (ops : List (HtOp D)) : Prop := ∀ a b, ops = a ++ HtOp.start :: b → HtOp.close ∉ a

/-! ### Steps and the table of promises -/

abbrev HtInv (s : Ht D) : Prop := s.tab.Inv OwnEnd UnfiledEnd

theorem ht_run_append (o : HtOpts) (s : Ht D) (a b : List (HtOp D)) : s.run o (a ++ b) = (s.run o a).run o b := List.foldl_append

theorem ht_run_concat (o : HtOpts) (s : Ht D) (a : List (HtOp D)) (op : HtOp D) : s.run o (a ++ [op]) = (s.run o a).step o op := ht_run_append o s a [op]

theorem localError_own (key text : Bytes) : OwnEnd (localError key text : SOut D) key := ⟨_, rfl, rfl⟩

theorem fail_inv {s : Ht D} (h : HtInv s) (key text : Bytes) : HtInv (s.fail key text) := PTab.inv_complete h key (.inr (localError_own _ _))

theorem deliver_inv {s : Ht D} (h : HtInv s) (r : Response D) (fb : Bytes) : HtInv (s.deliver r fb).1 := by
  unfold Ht.deliver
  split
  · exact PTab.inv_complete h _ (.inr ⟨r, rfl, rfl⟩)
  · split
    · exact fail_inv h _ _
    · exact h

/-- The effects of a routing are nothing, one response, one notification or one report. -/
theorem route_effects (h : Handlers D) (json : Bytes) :
    ((∃ r, (route h json).effects = [.resolved r] ∧ (route h json).reply = none ∧ classify json = .response ∧ r = deResponse json)) ∨
    (∀ r, RouteEffect.resolved r ∉ (route h json).effects) ∧ classify json ≠ .response := by
  by_cases hc : classify json = .response
  · left
    rw [C14_response_silent h json hc]
    exact ⟨_, rfl, rfl, hc, rfl⟩
  · right
    refine ⟨fun r hr => ?_, hc⟩
    unfold classify at hc
    unfold route at hr
    split at hr
    · rename_i h1; exact hc (if_pos h1)
    · have hn : ∀ r, RouteEffect.resolved r ∉ (routeNotification h json).effects := by
        intro r hr
        unfold routeNotification at hr
        split at hr <;> (simp only at hr; split at hr <;> simp at hr)
      split at hr
      · split at hr
        · split at hr
          · cases hr
          · exact hn _ hr
        · exact hn _ hr
      · exact hn _ hr

theorem deliverAll_none (s : Ht D) (l : List (RouteEffect D)) (fb : Bytes) (h : ∀ r, RouteEffect.resolved r ∉ l) : s.deliverAll l fb = (s, false) := by
  unfold Ht.deliverAll
  suffices ∀ p : Ht D × Bool, l.foldl (fun p e => match e with | .resolved r => p.1.deliver r fb | _ => p) p = p from this _
  induction l with
  | nil => intro p; rfl
  | cons e l ih =>
    intro p
    rw [List.foldl_cons, ih (fun r hr => h r (List.mem_cons_of_mem _ hr))]
    cases e with
    | resolved r => exact absurd (List.mem_cons_self ..) (h r)
    | notified n => rfl
    | reported => rfl

theorem deliverAll_one (s : Ht D) (r : Response D) (fb : Bytes) : s.deliverAll [.resolved r] fb = s.deliver r fb := rfl

/-- What `handleIncomingJson` does to the table of promises. -/
theorem incoming_tab (h : HtHandlers D) (s : Ht D) (json fb : Bytes) :
    (s.incoming h json fb).tab =
      if classify json = .response then (s.deliver (deResponse json) fb).1.tab
      else if (route h.wrap json).reply.isSome then s.tab
      else if fb = [] then s.tab else (s.fail fb (lit "Invalid/empty HTTP response")).tab := by
  unfold Ht.incoming
  simp only
  rcases route_effects h.wrap json with ⟨r, h1, h2, h3, rfl⟩ | ⟨h1, h2⟩
  · rw [if_pos h3, h1, h2, deliverAll_one]
    simp only
    split
    · rename_i hd
      -- not delivered although there is a fallback: impossible
      exfalso
      simp only [Ht.deliver] at hd
      split at hd
      · simp at hd
      · split at hd
        · simp at hd
        · rename_i hf
          simp only [ne_eq, Decidable.not_not] at hf
          simp [hf] at hd
    · simp only [Ht.deliver, Ht.fail]
      split
      · rfl
      · split <;> rfl
  · rw [if_neg h2, deliverAll_none _ _ _ h1]
    cases (route h.wrap json).reply with
    | some b => rfl
    | none =>
      simp only [Bool.not_false, Bool.true_and, Option.isSome_none, Bool.false_eq_true, if_false]
      by_cases hf : fb = []
      · rw [if_pos hf, hf]; rfl
      · rw [if_neg hf, if_pos (by simpa using hf)]; rfl

theorem incoming_inv {s : Ht D} (hi : HtInv s) (h : HtHandlers D) (json fb : Bytes) : HtInv (s.incoming h json fb) := by
  unfold HtInv
  rw [incoming_tab]
  split
  · exact deliver_inv hi _ _
  · split
    · exact hi
    · split
      · exact hi
      · exact fail_inv hi _ _

theorem capture_tab (s : Ht D) (sid : Bytes) : (s.capture sid).tab = s.tab := by unfold Ht.capture; split <;> rfl
theorem startSse_tab (o : HtOpts) (s : Ht D) : (s.startSse o).tab = s.tab := by unfold Ht.startSse; split <;> rfl

theorem completed_inv {s : Ht D} (hi : HtInv s) (o : HtOpts) (h : HtHandlers D) (p : PostFor) (body sid : Bytes) : HtInv (s.completed o h p body sid) := by
  cases p with
  | request key starts =>
    unfold Ht.completed
    simp only
    have h2 : HtInv (if starts && !sid.isEmpty then (s.capture sid).startSse o else s.capture sid) := by
      unfold HtInv
      split
      · rw [startSse_tab, capture_tab]; exact hi
      · rw [capture_tab]; exact hi
    split
    · exact incoming_inv h2 _ _ _
    · exact fail_inv h2 _ _
  | note => show HtInv (s.capture sid); unfold HtInv; rw [capture_tab]; exact hi
  | answer => show HtInv (s.capture sid); unfold HtInv; rw [capture_tab]; exact hi

theorem htStep_inv {s : Ht D} (hi : HtInv s) (o : HtOpts) (op : HtOp D) : HtInv (s.step o op) := by
  cases op with
  | opened v => simp only [Ht.step, Ht.opened]; split <;> exact hi
  | giveUp r => simp only [Ht.step, Ht.giveUp]; split <;> exact hi
  | start => simp only [Ht.step, Ht.start]; split <;> exact hi
  | send r =>
    simp only [Ht.step, Ht.send]
    split
    · exact hi
    · exact PTab.inv_immediate hi (.inr ⟨r.id, rfl⟩)
  | file t =>
    simp only [Ht.step, Ht.file]
    split
    · exact PTab.inv_insert hi _ (.inl rfl)
    · exact hi
  | note n => simp only [Ht.step, Ht.note]; split <;> exact hi
  | begin k => simp only [Ht.step, Ht.begin]; split <;> exact hi
  | finish h k body sid =>
    simp only [Ht.step, Ht.finish]
    split
    · exact completed_inv (s := { s with posts := s.posts.set k .over }) hi _ _ _ _ _
    · exact hi
  | failEarly h k =>
    simp only [Ht.step, Ht.failEarly]
    split
    · exact completed_inv (s := { s with posts := s.posts.set k .over }) hi _ _ _ _ _
    · exact hi
  | event h json =>
    simp only [Ht.step, Ht.event]
    split
    · exact incoming_inv hi _ _ _
    · exact hi
  | close =>
    simp only [Ht.step, Ht.close]
    split
    · exact hi
    · exact PTab.inv_closeAll hi (fun k => .inr (localError_own _ _))

theorem htRun_inv (o : HtOpts) (ops : List (HtOp D)) (s : Ht D) (hi : HtInv s) : HtInv (s.run o ops) := by
  induction ops generalizing s with
  | nil => exact hi
  | cons op ops ih => exact ih _ (htStep_inv hi o op)

theorem ht_inv (o : HtOpts) (ops : List (HtOp D)) : HtInv ((Ht.init : Ht D).run o ops) := htRun_inv o ops _ PTab.inv_init

/-- **C46.** After every history, each request completes at most once: with a response bearing its own id, refused because the transport was
not connected, or with `broken_promise` when a later request had the same id; and it has completed or is still waiting. -/
theorem C46_once (o : HtOpts) (ops : List (HtOp D)) :
    let t := ((Ht.init : Ht D).run o ops).tab
    (t.outcomes.map (·.1)).Nodup ∧
    (∀ n out, (n, out) ∈ t.outcomes → out = .broken ∨ (∃ id, out = refusedSend id) ∨ ∃ k r, (n, k) ∈ t.sent ∧ out = .resp r ∧ keyText r.id = k) ∧
    (∀ n, n < t.nextFut → (∃ k, (k, n) ∈ t.pending) ∨ n ∈ t.outcomes.map (·.1)) := by
  intro t
  have hi : t.Inv OwnEnd UnfiledEnd := ht_inv o ops
  refine ⟨hi.once, fun n out hout => ?_, fun n hn => hi.accounted hn⟩
  rcases hi.fits n out hout with (h1 | h1) | ⟨k, h1, r, h2, h3⟩
  · exact .inl h1
  · exact .inr (.inl h1)
  · exact .inr (.inr ⟨k, r, h1, h2, h3⟩)

/-! ### The end of an exchange -/

theorem nodup_map_fst_eq {α β : Type} {l : List (α × β)} (hn : (l.map (·.1)).Nodup) {a : α} {b c : β} (hb : (a, b) ∈ l) (hc : (a, c) ∈ l) : b = c := by
  induction l with
  | nil => cases hb
  | cons x l ih =>
    rw [List.map_cons, List.nodup_cons] at hn
    rcases List.mem_cons.1 hb with rfl | h1
    · rcases List.mem_cons.1 hc with h2 | h2
      · exact (Prod.mk.inj h2).2.symm
      · exact absurd (List.mem_map.2 ⟨_, h2, rfl⟩) hn.1
    · rcases List.mem_cons.1 hc with rfl | h2
      · exact absurd (List.mem_map.2 ⟨_, h1, rfl⟩) hn.1
      · exact ih hn.2 h1 h2

/-- Requests are never filed under the empty key. -/
theorem withId_key (s : Ht D) (r : Request D) : keyText (s.withId r).1.id ≠ [] := by
  unfold Ht.withId
  split
  · simp [keyText, lit]
  · assumption

def KeyedPosts (s : Ht D) : Prop :=
  (∀ k starts b, PostStage.queued (.request k starts) b ∈ s.posts → k ≠ []) ∧ (∀ k starts, PostStage.sent (.request k starts) ∈ s.posts → k ≠ [])

theorem keyed_set {l : List PostStage} {i : Nat} {x : PostStage}
    (h : (∀ k starts b, PostStage.queued (.request k starts) b ∈ l → k ≠ []) ∧ (∀ k starts, PostStage.sent (.request k starts) ∈ l → k ≠ []))
    (hx : (∀ k starts b, x = .queued (.request k starts) b → k ≠ []) ∧ (∀ k starts, x = .sent (.request k starts) → k ≠ [])) :
    (∀ k starts b, PostStage.queued (.request k starts) b ∈ l.set i x → k ≠ []) ∧ (∀ k starts, PostStage.sent (.request k starts) ∈ l.set i x → k ≠ []) := by
  refine ⟨fun k st b hm => ?_, fun k st hm => ?_⟩
  · rcases List.mem_or_eq_of_mem_set hm with h1 | h1
    · exact h.1 k st b h1
    · exact hx.1 k st b h1.symm
  · rcases List.mem_or_eq_of_mem_set hm with h1 | h1
    · exact h.2 k st h1
    · exact hx.2 k st h1.symm

theorem keyed_append {l : List PostStage} {x : PostStage}
    (h : (∀ k starts b, PostStage.queued (.request k starts) b ∈ l → k ≠ []) ∧ (∀ k starts, PostStage.sent (.request k starts) ∈ l → k ≠ []))
    (hx : (∀ k starts b, x = .queued (.request k starts) b → k ≠ []) ∧ (∀ k starts, x = .sent (.request k starts) → k ≠ [])) :
    (∀ k starts b, PostStage.queued (.request k starts) b ∈ l ++ [x] → k ≠ []) ∧ (∀ k starts, PostStage.sent (.request k starts) ∈ l ++ [x] → k ≠ []) := by
  refine ⟨fun k st b hm => ?_, fun k st hm => ?_⟩
  · rcases List.mem_append.1 hm with h1 | h1
    · exact h.1 k st b h1
    · exact hx.1 k st b (List.mem_singleton.1 h1).symm
  · rcases List.mem_append.1 hm with h1 | h1
    · exact h.2 k st h1
    · exact hx.2 k st (List.mem_singleton.1 h1).symm

theorem deliver_posts (s : Ht D) (r : Response D) (fb : Bytes) : (s.deliver r fb).1.posts = s.posts := by
  unfold Ht.deliver
  split
  · rfl
  · split <;> rfl

theorem incoming_posts (h : HtHandlers D) (s : Ht D) (json fb : Bytes) :
    (s.incoming h json fb).posts = s.posts ∨ ∃ b, (s.incoming h json fb).posts = s.posts ++ [.queued .answer b] := by
  unfold Ht.incoming
  simp only
  have hd : ∀ s1 : Ht D, (s1.deliverAll (route h.wrap json).effects fb).1.posts = s1.posts := by
    intro s1
    rcases route_effects h.wrap json with ⟨r, h1, -⟩ | ⟨h1, -⟩
    · rw [h1, deliverAll_one, deliver_posts]
    · rw [deliverAll_none _ _ _ h1]
  split
  · rename_i b _
    exact .inr ⟨b, by simp only [hd]⟩
  · left
    split
    · exact hd _
    · exact hd _

theorem completed_posts (o : HtOpts) (h : HtHandlers D) (s : Ht D) (p : PostFor) (body sid : Bytes) :
    (s.completed o h p body sid).posts = s.posts ∨ ∃ b, (s.completed o h p body sid).posts = s.posts ++ [.queued .answer b] := by
  have hc : (s.capture sid).posts = s.posts := by unfold Ht.capture; split <;> rfl
  cases p with
  | request key starts =>
    unfold Ht.completed
    simp only
    have h2 : (if starts && !sid.isEmpty then (s.capture sid).startSse o else s.capture sid).posts = s.posts := by
      split
      · unfold Ht.startSse; split <;> exact hc
      · exact hc
    split
    · have := incoming_posts h (if starts && !sid.isEmpty then (s.capture sid).startSse o else s.capture sid) body key
      rwa [h2] at this
    · exact .inl h2
  | note => exact .inl hc
  | answer => exact .inl hc

theorem keyed_step (o : HtOpts) (s : Ht D) (op : HtOp D) (h : KeyedPosts s) : KeyedPosts (s.step o op) := by
  have over : ∀ k, KeyedPosts ({ s with posts := s.posts.set k .over } : Ht D) :=
    fun k => keyed_set h ⟨fun _ _ _ e => (by cases e), fun _ _ e => (by cases e)⟩
  have done : ∀ (s1 : Ht D) p b sid hd, KeyedPosts s1 → KeyedPosts (s1.completed o hd p b sid) := by
    intro s1 p b sid hd h1
    unfold KeyedPosts
    rcases completed_posts o hd s1 p b sid with e | ⟨x, e⟩
    · rw [e]; exact h1
    · rw [e]; exact keyed_append h1 ⟨fun _ _ _ e => (by cases e), fun _ _ e => (by cases e)⟩
  cases op with
  | opened v => simp only [Ht.step, Ht.opened]; split <;> exact h
  | giveUp r => simp only [Ht.step, Ht.giveUp]; split <;> exact h
  | start => simp only [Ht.step, Ht.start]; split <;> exact h
  | send r => simp only [Ht.step, Ht.send]; split <;> exact h
  | file t =>
    simp only [Ht.step, Ht.file]
    split
    · refine keyed_append h ⟨fun k st b e => ?_, fun _ _ e => (by cases e)⟩
      cases e
      exact withId_key _ _
    · exact h
  | note n =>
    simp only [Ht.step, Ht.note]
    split
    · exact keyed_append h ⟨fun _ _ _ e => (by cases e), fun _ _ e => (by cases e)⟩
    · exact h
  | begin k =>
    simp only [Ht.step, Ht.begin]
    split
    · rename_i p body _ hq
      refine keyed_set h ⟨fun _ _ _ e => (by cases e), fun k st e => ?_⟩
      cases e
      exact h.1 _ _ _ (List.mem_of_getElem? hq)
    · exact h
  | finish hd k body sid =>
    simp only [Ht.step, Ht.finish]
    split
    · exact done _ _ _ _ _ (over k)
    · exact h
  | failEarly hd k =>
    simp only [Ht.step, Ht.failEarly]
    split
    · exact done _ _ _ _ _ (over k)
    · exact h
  | event hd json =>
    simp only [Ht.step, Ht.event]
    split
    · unfold KeyedPosts
      rcases incoming_posts hd s json [] with e | ⟨x, e⟩
      · rw [e]; exact h
      · rw [e]; exact keyed_append h ⟨fun _ _ _ e => (by cases e), fun _ _ e => (by cases e)⟩
    · exact h
  | close => simp only [Ht.step, Ht.close]; split <;> exact h

theorem keyed_run (o : HtOpts) (ops : List (HtOp D)) (s : Ht D) (h : KeyedPosts s) : KeyedPosts (s.run o ops) := by
  induction ops generalizing s with
  | nil => exact h
  | cons op ops ih => exact ih _ (keyed_step o s op h)

theorem keyed_init (o : HtOpts) (ops : List (HtOp D)) : KeyedPosts ((Ht.init : Ht D).run o ops) :=
  keyed_run o ops _ ⟨fun _ _ _ h => (by cases h), fun _ _ h => (by cases h)⟩

/-- A routing replies exactly if the text is a request. -/
theorem wrap_replies (h : HtHandlers D) (json : Bytes) : (route h.wrap json).reply.isSome = true ↔ AsksClient D json := by
  constructor
  · intro hr
    obtain ⟨h1, -, h3⟩ := C14_reply_iff_handled h.wrap json
    refine ⟨h3 hr, ?_⟩
    cases hd : deRequest (D := D) json with
    | some r => exact ⟨r, rfl⟩
    | none =>
      exfalso
      have hn : (routeNotification h.wrap json).reply = none := by unfold routeNotification; split <;> rfl
      unfold route at hr
      split at hr
      · cases hr
      · simp only [hd] at hr
        split at hr <;> simp [hn] at hr
  · rintro ⟨hc, r, hd⟩
    obtain ⟨resp, h1, -⟩ := C14_request_answered h.wrap _ rfl json r hc hd
    rw [h1]; rfl

theorem del_self_none (m : List (Bytes × Nat)) (k : Bytes) : AMap.get (AMap.del m k) k = none := by
  exact AMap.get_del_self m k

theorem complete_self_none (t : PTab (SOut D)) (k : Bytes) (out : SOut D) : AMap.get (t.complete k out).pending k = none := by
  unfold PTab.complete
  split
  · exact del_self_none _ _
  · assumption

theorem complete_nextFut (t : PTab (SOut D)) (k : Bytes) (out : SOut D) : (t.complete k out).nextFut = t.nextFut := by
  unfold PTab.complete; split <;> rfl

/-- `handleIncomingJson` makes no future and files nothing. -/
theorem incoming_keeps (h : HtHandlers D) (s : Ht D) (json fb : Bytes) :
    (s.incoming h json fb).tab.nextFut = s.tab.nextFut ∧ (s.incoming h json fb).tab.sent = s.tab.sent := by
  rw [incoming_tab]
  split
  · unfold Ht.deliver
    split
    · exact ⟨complete_nextFut _ _ _, PTab.complete_sent _ _⟩
    · split
      · exact ⟨complete_nextFut _ _ _, PTab.complete_sent _ _⟩
      · exact ⟨rfl, rfl⟩
  · split
    · exact ⟨rfl, rfl⟩
    · split
      · exact ⟨rfl, rfl⟩
      · exact ⟨complete_nextFut _ _ _, PTab.complete_sent _ _⟩

/-- What `handleIncomingJson` does to a request waiting under the key it falls back to. -/
theorem incoming_pending (h : HtHandlers D) (s : Ht D) (json key : Bytes) (hk : key ≠ []) (n : Nat) (hp : AMap.get s.tab.pending key = some n) :
    (AsksClient D json ∨ AnswersOther s key json → AMap.get (s.incoming h json key).tab.pending key = some n) ∧
    (¬ (AsksClient D json ∨ AnswersOther s key json) → AMap.get (s.incoming h json key).tab.pending key = none) := by
  rw [incoming_tab]
  by_cases hc : classify json = .response
  · rw [if_pos hc]
    have hna : ¬ AsksClient D json := fun h' => by have := h'.1; rw [hc] at this; cases this
    unfold Ht.deliver
    by_cases h1 : keyText (deResponse (D := D) json).id ≠ [] ∧ (AMap.get s.tab.pending (keyText (deResponse (D := D) json).id)).isSome
    · rw [if_pos h1]
      simp only
      by_cases h2 : keyText (deResponse (D := D) json).id = key
      · refine ⟨?_, fun _ => by rw [h2]; exact complete_self_none _ _ _⟩
        rintro (h' | h')
        · exact absurd h' hna
        · exact absurd h2 h'.2.1
      · exact ⟨fun _ => by rw [PTab.complete_other (Ne.symm h2), hp], fun hn => absurd (.inr ⟨hc, h2, h1.1, h1.2⟩) hn⟩
    · rw [if_neg h1, if_pos hk]
      refine ⟨?_, fun _ => complete_self_none _ _ _⟩
      rintro (h' | h')
      · exact absurd h' hna
      · exact absurd ⟨h'.2.2.1, h'.2.2.2⟩ h1
  · rw [if_neg hc]
    by_cases hr : (route h.wrap json).reply.isSome = true
    · rw [if_pos hr]
      exact ⟨fun _ => hp, fun hn => absurd (.inl ((wrap_replies h json).1 hr)) hn⟩
    · rw [if_neg hr, if_neg hk]
      refine ⟨?_, fun _ => complete_self_none _ _ _⟩
      rintro (h' | h')
      · exact absurd ((wrap_replies h json).2 h') hr
      · exact absurd h'.1 hc

/-- In a table of promises, a future that is filed under a key and no longer waits there is complete. -/
theorem complete_of_gone {t : PTab (SOut D)} (hi : t.Inv OwnEnd UnfiledEnd) {n : Nat} {key : Bytes} (hs : (n, key) ∈ t.sent)
    (hg : AMap.get t.pending key = none) : n ∈ t.outcomes.map (·.1) := by
  rcases hi.accounted (hi.sentBound _ hs) with ⟨k', hk'⟩ | hm
  · exfalso
    have h3 : k' = key := nodup_map_fst_eq hi.sentFun (hi.pend k' n hk') hs
    rw [h3] at hk'
    rw [AMap.mem_get hi.keys hk'] at hg
    cases hg
  · exact hm

/-- The table an exchange ends with. -/
theorem finish_tab (o : HtOpts) (s : Ht D) (h : HtHandlers D) (k : Nat) (key body sid : Bytes) (starts : Bool)
    (hio : s.io = .running) (hk : s.posts[k]? = some (.sent (.request key starts))) :
    ∃ s2 : Ht D, s2.tab = s.tab ∧ s.step o (.finish h k body sid) =
      if body ≠ [] then s2.incoming h body key else s2.fail key (lit "Invalid/empty HTTP response") := by
  simp only [Ht.step, Ht.finish, hio, hk, Ht.completed]
  refine ⟨_, ?_, rfl⟩
  split
  · rw [startSse_tab, capture_tab]
  · rw [capture_tab]

/-- **C46**, exactly: when the exchange of a waiting request ends, however it ends, the request completes then, unless the body is a request
of the server or answers another request that is waiting; in these cases it does not. -/
theorem C46_exchange (o : HtOpts) (ops : List (HtOp D)) (h : HtHandlers D) (k : Nat) (key body sid : Bytes) (starts : Bool) (n : Nat) :
    let s := (Ht.init : Ht D).run o ops
    s.io = .running → s.posts[k]? = some (.sent (.request key starts)) → AMap.get s.tab.pending key = some n →
    (n ∈ ((s.step o (.finish h k body sid)).tab.outcomes.map (·.1)) ↔ ¬ (AsksClient D body ∨ AnswersOther s key body)) := by
  intro s hio hk hp
  have hkey : key ≠ [] := (keyed_init o ops).2 key starts (List.mem_of_getElem? hk)
  have hi : s.tab.Inv OwnEnd UnfiledEnd := ht_inv o ops
  have hinv : (s.step o (.finish h k body sid)).tab.Inv OwnEnd UnfiledEnd := htStep_inv (ht_inv o ops) o _
  have h0 := hi.pend key n (AMap.get_some_mem hp)
  obtain ⟨s2, ht, hst⟩ := finish_tab o s h k key body sid starts hio hk
  by_cases hb : body = []
  · subst hb
    have hbad : ¬ (AsksClient D [] ∨ AnswersOther s key []) := by
      rintro (⟨h1, -⟩ | ⟨h1, -⟩) <;> (revert h1; decide)
    rw [if_neg (by simp)] at hst
    refine ⟨fun _ => hbad, fun _ => complete_of_gone hinv (key := key) ?_ ?_⟩
    · rw [hst]
      show (n, key) ∈ (s2.tab.complete key _).sent
      rw [PTab.complete_sent, ht]
      exact h0
    · rw [hst]; exact complete_self_none _ _ _
  · rw [if_pos hb] at hst
    obtain ⟨h1, h2⟩ := incoming_pending h s2 body key hkey n (by rw [ht]; exact hp)
    have hsame : AnswersOther s2 key body ↔ AnswersOther s key body := by unfold AnswersOther; rw [ht]
    rw [hsame, ← hst] at h1 h2
    constructor
    · intro hm hbad
      exact hinv.pending_open (AMap.get_some_mem (h1 hbad)) hm
    · intro hok
      refine complete_of_gone hinv (key := key) ?_ (h2 hok)
      rw [hst, (incoming_keeps h s2 body key).2, ht]
      exact h0

/-- **C46.** The response to a request, when it arrives as the body of its exchange, is what the request completes with. -/
theorem C46_answered (o : HtOpts) (ops : List (HtOp D)) (h : HtHandlers D) (k : Nat) (key body sid : Bytes) (starts : Bool) (n : Nat) :
    let s := (Ht.init : Ht D).run o ops
    s.io = .running → s.posts[k]? = some (.sent (.request key starts)) → AMap.get s.tab.pending key = some n →
    classify body = .response → keyText (deResponse (D := D) body).id = key →
    (n, .resp (deResponse body)) ∈ (s.step o (.finish h k body sid)).tab.outcomes := by
  intro s hio hk hp hc hid
  have hkey : key ≠ [] := (keyed_init o ops).2 key starts (List.mem_of_getElem? hk)
  obtain ⟨s2, ht, hst⟩ := finish_tab o s h k key body sid starts hio hk
  have hb : body ≠ [] := by rintro rfl; revert hc; decide
  rw [if_pos hb] at hst
  rw [hst, incoming_tab, if_pos hc]
  unfold Ht.deliver
  rw [if_pos (by rw [hid, ht, hp]; exact ⟨hkey, rfl⟩)]
  simp only
  rw [hid, ht]
  exact PTab.complete_outcome hp

/-! ### Requests whose exchange ended without them -/

/-- Something that may complete a request waiting under `key` whose exchange is over: closing, its response, or a request with its id. -/
def MayEnd (key : Bytes) : HtOp D → Prop
  | .close => True
  | .send r => keyText r.id = key ∨ keyText r.id = []
  | .finish _ _ body _ => classify body = .response ∧ keyText (deResponse (D := D) body).id = key
  | .event _ json => classify json = .response ∧ keyText (deResponse (D := D) json).id = key
  | _ => False

structure Stranded (s : Ht D) (key : Bytes) (n : Nat) : Prop where
  pending : AMap.get s.tab.pending key = some n
  queued : ∀ st b, PostStage.queued (.request key st) b ∉ s.posts
  sent : ∀ st, PostStage.sent (.request key st) ∉ s.posts
  tickets : ∀ r, some r ∈ s.tickets → keyText r.id ≠ key ∧ keyText r.id ≠ []

theorem complete_other_get (t : PTab (SOut D)) {k key : Bytes} (h : key ≠ k) (out : SOut D) {n : Nat} (hp : AMap.get t.pending key = some n) :
    AMap.get (t.complete k out).pending key = some n := by rw [PTab.complete_other h, hp]

theorem incoming_stranded {s : Ht D} {key fb : Bytes} {n : Nat} (h : HtHandlers D) (json : Bytes) (hp : AMap.get s.tab.pending key = some n)
    (hfb : fb ≠ [] → fb ≠ key) (hno : ¬ (classify json = .response ∧ keyText (deResponse (D := D) json).id = key)) :
    AMap.get (s.incoming h json fb).tab.pending key = some n := by
  rw [incoming_tab]
  split
  · rename_i hc
    have hid : key ≠ keyText (deResponse (D := D) json).id := fun e => hno ⟨hc, e.symm⟩
    unfold Ht.deliver
    split
    · exact complete_other_get _ hid _ hp
    · split
      · rename_i hf
        exact complete_other_get _ (Ne.symm (hfb hf)) _ hp
      · exact hp
  · split
    · exact hp
    · split
      · exact hp
      · rename_i hf
        exact complete_other_get _ (Ne.symm (hfb hf)) _ hp

theorem incoming_tickets (h : HtHandlers D) (s : Ht D) (json fb : Bytes) : (s.incoming h json fb).tickets = s.tickets := by
  unfold Ht.incoming
  simp only
  have hd : ∀ s1 : Ht D, (s1.deliverAll (route h.wrap json).effects fb).1.tickets = s1.tickets := by
    intro s1
    rcases route_effects h.wrap json with ⟨r, h1, -⟩ | ⟨h1, -⟩
    · rw [h1, deliverAll_one]
      unfold Ht.deliver
      split
      · rfl
      · split <;> rfl
    · rw [deliverAll_none _ _ _ h1]
  split
  · simp only [hd]
  · split
    · exact hd _
    · exact hd _

theorem completed_tickets (o : HtOpts) (h : HtHandlers D) (s : Ht D) (p : PostFor) (body sid : Bytes) : (s.completed o h p body sid).tickets = s.tickets := by
  have hc : (s.capture sid).tickets = s.tickets := by unfold Ht.capture; split <;> rfl
  cases p with
  | request key starts =>
    unfold Ht.completed
    simp only
    have h2 : (if starts && !sid.isEmpty then (s.capture sid).startSse o else s.capture sid).tickets = s.tickets := by
      split
      · unfold Ht.startSse; split <;> exact hc
      · exact hc
    split
    · rw [incoming_tickets, h2]
    · exact h2
  | note => exact hc
  | answer => exact hc

theorem completed_stranded {s : Ht D} {key : Bytes} {n : Nat} (o : HtOpts) (h : HtHandlers D) (p : PostFor) (body sid : Bytes)
    (hp : AMap.get s.tab.pending key = some n) (hne : ∀ st, p ≠ .request key st)
    (hno : ¬ (classify body = .response ∧ keyText (deResponse (D := D) body).id = key)) :
    AMap.get (s.completed o h p body sid).tab.pending key = some n := by
  cases p with
  | request k2 starts =>
    have hk2 : k2 ≠ key := fun e => hne starts (by rw [e])
    unfold Ht.completed
    simp only
    have h2 : (if starts && !sid.isEmpty then (s.capture sid).startSse o else s.capture sid).tab = s.tab := by
      split
      · rw [startSse_tab, capture_tab]
      · rw [capture_tab]
    split
    · exact incoming_stranded h body (by rw [h2]; exact hp) (fun _ => hk2) hno
    · exact complete_other_get _ (Ne.symm hk2) _ (by rw [h2]; exact hp)
  | note => show AMap.get (s.capture sid).tab.pending key = _; rw [capture_tab]; exact hp
  | answer => show AMap.get (s.capture sid).tab.pending key = _; rw [capture_tab]; exact hp

theorem stranded_step (o : HtOpts) {s : Ht D} {key : Bytes} {n : Nat} (h : Stranded s key n) (op : HtOp D) (hop : ¬ MayEnd key op) :
    Stranded (s.step o op) key n := by
  have notIn : ∀ {st : Bool} {b : Bytes} {l : List PostStage} {x : PostStage}, (∀ st b, PostStage.queued (.request key st) b ∉ l) →
      x ≠ .queued (.request key st) b → PostStage.queued (.request key st) b ∉ l ++ [x] := by
    intro st b l x h1 h2 hm
    rcases List.mem_append.1 hm with h3 | h3
    · exact h1 _ _ h3
    · exact h2 (List.mem_singleton.1 h3).symm
  have notIn' : ∀ {st : Bool} {l : List PostStage} {x : PostStage}, (∀ st, PostStage.sent (.request key st) ∉ l) →
      x ≠ .sent (.request key st) → PostStage.sent (.request key st) ∉ l ++ [x] := by
    intro st l x h1 h2 hm
    rcases List.mem_append.1 hm with h3 | h3
    · exact h1 _ h3
    · exact h2 (List.mem_singleton.1 h3).symm
  have done : ∀ (hd : HtHandlers D) (k : Nat) (p : PostFor) (body sid : Bytes), (∀ st, p ≠ .request key st) →
      ¬ (classify body = .response ∧ keyText (deResponse (D := D) body).id = key) →
      Stranded (({ s with posts := s.posts.set k .over } : Ht D).completed o hd p body sid) key n := by
    intro hd k p body sid hne hno
    have hq : ∀ st b, PostStage.queued (.request key st) b ∉ s.posts.set k .over := by
      intro st b hm
      rcases List.mem_or_eq_of_mem_set hm with h1 | h1
      · exact h.queued _ _ h1
      · cases h1
    have hs : ∀ st, PostStage.sent (.request key st) ∉ s.posts.set k .over := by
      intro st hm
      rcases List.mem_or_eq_of_mem_set hm with h1 | h1
      · exact h.sent _ h1
      · cases h1
    refine ⟨completed_stranded o hd p body sid h.pending hne hno, ?_, ?_, by rw [completed_tickets]; exact h.tickets⟩
    · intro st b
      rcases completed_posts o hd ({ s with posts := s.posts.set k .over } : Ht D) p body sid with e | ⟨x, e⟩
      · rw [e]; exact hq st b
      · rw [e]; exact notIn hq (by intro e; cases e)
    · intro st
      rcases completed_posts o hd ({ s with posts := s.posts.set k .over } : Ht D) p body sid with e | ⟨x, e⟩
      · rw [e]; exact hs st
      · rw [e]; exact notIn' hs (by intro e; cases e)
  cases op with
  | opened v => simp only [Ht.step, Ht.opened]; split <;> exact ⟨h.pending, h.queued, h.sent, h.tickets⟩
  | giveUp r => simp only [Ht.step, Ht.giveUp]; split <;> exact ⟨h.pending, h.queued, h.sent, h.tickets⟩
  | close => exact absurd trivial hop
  | start => simp only [Ht.step, Ht.start]; split <;> exact ⟨h.pending, h.queued, h.sent, h.tickets⟩
  | send r =>
    simp only [Ht.step, Ht.send]
    split
    · refine ⟨h.pending, h.queued, h.sent, fun r' hr => ?_⟩
      rcases List.mem_append.1 hr with h1 | h1
      · exact h.tickets r' h1
      · simp only [List.mem_singleton, Option.some.injEq] at h1
        subst h1
        exact ⟨fun e => hop (.inl e), fun e => hop (.inr e)⟩
    · exact ⟨h.pending, h.queued, h.sent, h.tickets⟩
  | file t =>
    simp only [Ht.step, Ht.file]
    split
    · rename_i r hr
      obtain ⟨h1, h2⟩ := h.tickets r (List.mem_of_getElem? hr)
      have hw : s.withId r = (r, s.counter) := by unfold Ht.withId; rw [if_neg h2]
      simp only [hw]
      refine ⟨?_, fun st b => notIn h.queued ?_, fun st => notIn' h.sent (by intro e; cases e), fun r' hr' => ?_⟩
      · show AMap.get (AMap.put s.tab.pending _ _) key = _
        rw [AMap.get_put_ne _ _ (Ne.symm h1)]
        exact h.pending
      · intro e
        cases e
        exact h1 rfl
      · rcases List.mem_or_eq_of_mem_set hr' with h3 | h3
        · exact h.tickets r' h3
        · cases h3
    · exact ⟨h.pending, h.queued, h.sent, h.tickets⟩
  | note m =>
    simp only [Ht.step, Ht.note]
    split
    · exact ⟨h.pending, fun st b => notIn h.queued (by intro e; cases e), fun st => notIn' h.sent (by intro e; cases e), h.tickets⟩
    · exact h
  | begin k =>
    simp only [Ht.step, Ht.begin]
    split
    · rename_i p body _ hq
      refine ⟨h.pending, fun st b hm => ?_, fun st hm => ?_, h.tickets⟩
      · rcases List.mem_or_eq_of_mem_set hm with h1 | h1
        · exact h.queued _ _ h1
        · cases h1
      · rcases List.mem_or_eq_of_mem_set hm with h1 | h1
        · exact h.sent _ h1
        · cases h1
          exact h.queued _ _ (List.mem_of_getElem? hq)
    · exact h
  | finish hd k body sid =>
    simp only [Ht.step, Ht.finish]
    split
    · rename_i p _ hq
      exact done hd k p body sid (fun st e => h.sent st (by rw [← e]; exact List.mem_of_getElem? hq)) hop
    · exact h
  | failEarly hd k =>
    simp only [Ht.step, Ht.failEarly]
    split
    · rename_i p b _ hq
      exact done hd k p [] [] (fun st e => h.queued st b (by rw [← e]; exact List.mem_of_getElem? hq)) (by rintro ⟨h1, -⟩; revert h1; decide)
    · exact h
  | event hd json =>
    simp only [Ht.step, Ht.event]
    split
    · refine ⟨incoming_stranded hd json h.pending (fun e => absurd rfl e) hop, ?_, ?_, by rw [incoming_tickets]; exact h.tickets⟩
      · intro st b
        rcases incoming_posts hd s json [] with e | ⟨x, e⟩
        · rw [e]; exact h.queued st b
        · rw [e]; exact notIn h.queued (by intro e; cases e)
      · intro st
        rcases incoming_posts hd s json [] with e | ⟨x, e⟩
        · rw [e]; exact h.sent st
        · rw [e]; exact notIn' h.sent (by intro e; cases e)
    · exact h

theorem stranded_run (o : HtOpts) (ops : List (HtOp D)) {s : Ht D} {key : Bytes} {n : Nat} (h : Stranded s key n) (hops : ∀ op ∈ ops, ¬ MayEnd key op) :
    Stranded (s.run o ops) key n := by
  induction ops generalizing s with
  | nil => exact h
  | cons op ops ih => exact ih (stranded_step o h op (hops op (List.mem_cons_self ..))) (fun x hx => hops x (List.mem_cons_of_mem _ hx))

/-- **C46.** A request whose exchange has ended without completing it (no POST of it is queued or under way) waits until the transport is
closed, a response to it arrives otherwise, or another request is made with its id (or without one). There is no timeout. -/
theorem C46_waits (o : HtOpts) (ops more : List (HtOp D)) (key : Bytes) (n : Nat) :
    let s := (Ht.init : Ht D).run o ops
    Stranded s key n → (∀ op ∈ more, ¬ MayEnd key op) → n ∉ (s.run o more).tab.outcomes.map (·.1) := by
  intro s hs hm
  have h1 := stranded_run o more hs hm
  have h2 : HtInv (s.run o more) := htRun_inv o more _ (ht_inv o ops)
  exact h2.pending_open (AMap.get_some_mem h1.pending)

/-- Two requests of the examples, and a plain transport. -/
def callOne : Request Empty := ⟨.int 1, lit "a", none⟩
def callTwo : Request Empty := ⟨.int 2, lit "b", none⟩
def plainHt : HtOpts := ⟨[], lit "/mcp/rpc", lit "/mcp/notify", true, true⟩
def streamHt : HtOpts := ⟨lit "/mcp", [], [], true, true⟩
def noHandlers : HtHandlers Empty := ⟨none, false, false⟩
def bothSent : List (HtOp Empty) := [.start, .send callOne, .send callTwo, .file 0, .file 1, .begin 0, .begin 1]

/-- **C46 does not hold** when the server answers with the response to another request that waits: the exchange of request 1 brought the
response to 2, and 1 is left waiting. -/
theorem C46_foreign_counterexample (more : List (HtOp Empty)) (hm : ∀ op ∈ more, ¬ MayEnd (lit "1") op) :
    let s := (Ht.init : Ht Empty).run plainHt (bothSent ++ [.finish noHandlers 0 (lit "{\"jsonrpc\":\"2.0\",\"id\":2,\"result\":5}") []] ++ more)
    0 < s.tab.nextFut ∧ 0 ∉ s.tab.outcomes.map (·.1) := by
  intro s
  have hs : Stranded ((Ht.init : Ht Empty).run plainHt (bothSent ++ [.finish noHandlers 0 (lit "{\"jsonrpc\":\"2.0\",\"id\":2,\"result\":5}") []])) (lit "1") 0 := by
    refine ⟨by decide +kernel, ?_, ?_, ?_⟩
    · have hp : ((Ht.init : Ht Empty).run plainHt (bothSent ++ [.finish noHandlers 0 (lit "{\"jsonrpc\":\"2.0\",\"id\":2,\"result\":5}") []])).posts =
          [.over, .sent (.request (lit "2") false)] := by decide +kernel
      rw [hp]
      intro st b hq
      simp at hq
    · have hp : ((Ht.init : Ht Empty).run plainHt (bothSent ++ [.finish noHandlers 0 (lit "{\"jsonrpc\":\"2.0\",\"id\":2,\"result\":5}") []])).posts =
          [.over, .sent (.request (lit "2") false)] := by decide +kernel
      rw [hp]
      intro st hq
      simp [lit] at hq
    · have hp : ((Ht.init : Ht Empty).run plainHt (bothSent ++ [.finish noHandlers 0 (lit "{\"jsonrpc\":\"2.0\",\"id\":2,\"result\":5}") []])).tickets.all
          (·.isNone) = true := by decide +kernel
      intro r hr
      have := List.all_eq_true.1 hp _ hr
      cases this
  have h1 := C46_waits plainHt _ more _ _ hs hm
  have h2 := stranded_run plainHt more hs hm
  rw [← ht_run_append] at h1 h2
  refine ⟨?_, h1⟩
  have hi : HtInv s := ht_inv plainHt _
  exact hi.sentBound _ (hi.pend _ _ (AMap.get_some_mem h2.pending))

/-- The hypotheses of `C46_exchange` and `C46_answered` are met by a request under way and its response. -/
example : let s := (Ht.init : Ht Empty).run plainHt bothSent
    s.io = .running ∧ s.posts[0]? = some (.sent (.request (lit "1") false)) ∧ AMap.get s.tab.pending (lit "1") = some 0 ∧
    classify (lit "{\"jsonrpc\":\"2.0\",\"id\":1,\"result\":5}") = .response ∧
    keyText (deResponse (D := Empty) (lit "{\"jsonrpc\":\"2.0\",\"id\":1,\"result\":5}")).id = lit "1" :=
  ⟨rfl, by decide +kernel, by decide +kernel, by decide +kernel, by decide +kernel⟩

/-- **C46 does not hold** when the body is a request of the server either: it is handled and answered, and the request that was
sent is left waiting. -/
theorem C46_request_counterexample (h : HtHandlers Empty) :
    let s := (Ht.init : Ht Empty).run plainHt bothSent
    0 ∉ (s.step plainHt (.finish h 0 (lit "{\"jsonrpc\":\"2.0\",\"id\":9,\"method\":\"ping\"}") [])).tab.outcomes.map (·.1) := by
  intro s hm
  have := (C46_exchange plainHt bothSent h 0 (lit "1") (lit "{\"jsonrpc\":\"2.0\",\"id\":9,\"method\":\"ping\"}") [] false 0 rfl
    (by decide +kernel) (by decide +kernel)).1 hm
  exact this (.inl ⟨by decide +kernel, ⟨.int 9, lit "ping", none⟩, by decide +kernel⟩)

/-! ### Closing -/

/-- While `Start` is not called after a `Close`, the io thread runs as long as the transport is connected. -/
theorem started_running (o : HtOpts) (ops : List (HtOp D)) (h : StartedOnce ops) :
    let s := (Ht.init : Ht D).run o ops
    (s.connected = true → s.io = .running) ∧ (HtOp.close ∉ ops → s.io ≠ .stopped) ∧ s.hung = false := by
  have key : ∀ (l : List (HtOp D)), StartedOnce l.reverse →
      let s := (Ht.init : Ht D).run o l.reverse
      (s.connected = true → s.io = .running) ∧ (HtOp.close ∉ l.reverse → s.io ≠ .stopped) ∧ s.hung = false := by
    intro l
    induction l with
    | nil => intro _; exact ⟨fun h => (by cases h), fun _ h => (by cases h), rfl⟩
    | cons op l ih =>
      intro hl
      rw [List.reverse_cons] at hl ⊢
      have hpre : StartedOnce l.reverse := fun a b e => hl a (b ++ [op]) (by rw [e]; simp)
      obtain ⟨h1, h2, h3⟩ := ih hpre
      simp only [ht_run_concat]
      generalize (Ht.init : Ht D).run o l.reverse = s at h1 h2 h3
      have same : ∀ s' : Ht D, s'.connected = s.connected → s'.io = s.io → s'.hung = s.hung →
          (s'.connected = true → s'.io = .running) ∧ (HtOp.close ∉ l.reverse ++ [op] → s'.io ≠ .stopped) ∧ s'.hung = false := by
        intro s' e1 e2 e3
        rw [e1, e2, e3]
        exact ⟨h1, fun hc => h2 (fun hm => hc (List.mem_append_left _ hm)), h3⟩
      have inc : ∀ (hd : HtHandlers D) (s1 : Ht D) json fb, (s1.incoming hd json fb).connected = s1.connected ∧ (s1.incoming hd json fb).io = s1.io ∧
          (s1.incoming hd json fb).hung = s1.hung := by
        intro hd s1 json fb
        have hdl : ∀ s1 : Ht D, (s1.deliverAll (route hd.wrap json).effects fb).1.connected = s1.connected ∧
            (s1.deliverAll (route hd.wrap json).effects fb).1.io = s1.io ∧ (s1.deliverAll (route hd.wrap json).effects fb).1.hung = s1.hung := by
          intro s1
          rcases route_effects hd.wrap json with ⟨r, h1, -⟩ | ⟨h1, -⟩
          · rw [h1, deliverAll_one]
            unfold Ht.deliver
            split
            · exact ⟨rfl, rfl, rfl⟩
            · split <;> exact ⟨rfl, rfl, rfl⟩
          · rw [deliverAll_none _ _ _ h1]; exact ⟨rfl, rfl, rfl⟩
        unfold Ht.incoming
        simp only
        split
        · exact hdl _
        · split <;> exact hdl _
      have comp : ∀ (hd : HtHandlers D) (s1 : Ht D) p body sid, (s1.completed o hd p body sid).connected = s1.connected ∧
          (s1.completed o hd p body sid).io = s1.io ∧ (s1.completed o hd p body sid).hung = s1.hung := by
        intro hd s1 p body sid
        have hc : (s1.capture sid).connected = s1.connected ∧ (s1.capture sid).io = s1.io ∧ (s1.capture sid).hung = s1.hung := by
          unfold Ht.capture; split <;> exact ⟨rfl, rfl, rfl⟩
        cases p with
        | request key starts =>
          unfold Ht.completed
          simp only
          have h2 : (if starts && !sid.isEmpty then (s1.capture sid).startSse o else s1.capture sid).connected = s1.connected ∧
              (if starts && !sid.isEmpty then (s1.capture sid).startSse o else s1.capture sid).io = s1.io ∧
              (if starts && !sid.isEmpty then (s1.capture sid).startSse o else s1.capture sid).hung = s1.hung := by
            split
            · unfold Ht.startSse; split <;> exact hc
            · exact hc
          split
          · have h3 := inc hd (if starts && !sid.isEmpty then (s1.capture sid).startSse o else s1.capture sid) body key
            exact ⟨h3.1.trans h2.1, h3.2.1.trans h2.2.1, h3.2.2.trans h2.2.2⟩
          · exact h2
        | note => exact hc
        | answer => exact hc
      cases op with
      | opened v => simp only [Ht.step, Ht.opened]; split <;> exact same _ rfl rfl rfl
      | giveUp r => simp only [Ht.step, Ht.giveUp]; split <;> exact same _ rfl rfl rfl
      | start =>
        have hnc : HtOp.close ∉ l.reverse := hl l.reverse [] rfl
        have hns := h2 hnc
        simp only [Ht.step, Ht.start]
        split
        · exact ⟨fun _ => rfl, fun _ h => (by cases h), h3⟩
        · rename_i hr
          exact ⟨fun _ => hr, fun _ h => (by rw [hr] at h; cases h), h3⟩
        · rename_i hr
          exact absurd hr hns
      | send r => simp only [Ht.step, Ht.send]; split <;> exact same _ rfl rfl rfl
      | file t => simp only [Ht.step, Ht.file]; split <;> exact same _ rfl rfl rfl
      | note n => simp only [Ht.step, Ht.note]; split <;> exact same _ rfl rfl rfl
      | begin k => simp only [Ht.step, Ht.begin]; split <;> exact same _ rfl rfl rfl
      | finish hd k body sid =>
        simp only [Ht.step, Ht.finish]
        split
        · obtain ⟨e1, e2, e3⟩ := comp hd ({ s with posts := s.posts.set k .over } : Ht D) (by assumption) body sid
          exact same _ e1 e2 e3
        · exact same _ rfl rfl rfl
      | failEarly hd k =>
        simp only [Ht.step, Ht.failEarly]
        split
        · obtain ⟨e1, e2, e3⟩ := comp hd ({ s with posts := s.posts.set k .over } : Ht D) (by assumption) [] []
          exact same _ e1 e2 e3
        · exact same _ rfl rfl rfl
      | event hd json =>
        simp only [Ht.step, Ht.event]
        split
        · obtain ⟨e1, e2, e3⟩ := inc hd s json []
          exact same _ e1 e2 e3
        · exact same _ rfl rfl rfl
      | close =>
        have hn : ¬ ((s.connected && o.streamable && o.enableDeleteOnClose && decide (s.io ≠ .running)) = true) := by
          simp only [Bool.and_eq_true, decide_eq_true_eq, ne_eq]
          rintro ⟨⟨⟨hc, -⟩, -⟩, hr⟩
          exact hr (h1 hc)
        simp only [Ht.step, Ht.close]
        rw [if_neg hn]
        exact ⟨fun h => (by cases h), fun hc => absurd (by simp) hc, h3⟩
  have := key ops.reverse (by rw [List.reverse_reverse]; exact h)
  rwa [List.reverse_reverse] at this

/-- **C46 (partial).** `Close` of a transport that was not started again after a `Close` returns, and every request filed before it is
complete then. Missing: requests that have passed the check of the connection and are filed later (below). -/
theorem C46_close_partial (o : HtOpts) (ops : List (HtOp D)) (h : StartedOnce ops) :
    let s := ((Ht.init : Ht D).run o ops).step o .close
    s.hung = false ∧ s.connected = false ∧ s.tab.nextFut = ((Ht.init : Ht D).run o ops).tab.nextFut ∧
    ∀ n, n < s.tab.nextFut → n ∈ s.tab.outcomes.map (·.1) := by
  obtain ⟨h1, h2, h3⟩ := started_running o ops h
  have hi : HtInv (((Ht.init : Ht D).run o ops).step o .close) := htStep_inv (ht_inv o ops) o _
  generalize (Ht.init : Ht D).run o ops = s at h1 h2 h3 hi
  have hn : ¬ ((s.connected && o.streamable && o.enableDeleteOnClose && decide (s.io ≠ .running)) = true) := by
    simp only [Bool.and_eq_true, decide_eq_true_eq, ne_eq]
    rintro ⟨⟨⟨hc, -⟩, -⟩, hr⟩
    exact hr (h1 hc)
  have hp : (s.step o .close).tab.pending = [] := by
    simp only [Ht.step, Ht.close]
    rw [if_neg hn]
    rfl
  refine ⟨?_, ?_, ?_, fun n hlt => ?_⟩
  · simp only [Ht.step, Ht.close]; rw [if_neg hn]; exact h3
  · simp only [Ht.step, Ht.close]; rw [if_neg hn]
  · simp only [Ht.step, Ht.close]; rw [if_neg hn]; rfl
  · rcases hi.accounted hlt with ⟨k, hk⟩ | hm
    · rw [hp] at hk; cases hk
    · exact hm

example : StartedOnce (bothSent ++ [.close]) := by
  intro a b e
  have ha : a = [] := by
    cases a with
    | nil => rfl
    | cons x a =>
      simp only [bothSent, List.cons_append, List.nil_append, List.cons.injEq] at e
      exfalso
      have hm : HtOp.start ∈ a ++ HtOp.start :: b := by simp
      rw [← e.2] at hm
      simp at hm
  rw [ha]
  simp

/-! ### A transport that is stopped -/

/-- The ways a request can end without a response of the server. -/
def EndedHere (out : SOut D) : Prop := out = .broken ∨ (∃ id, out = refusedSend id) ∨ ∃ key, out = localError key (lit "Transport closed")

structure Dead (s : Ht D) (wire : List Sent) (old : List (Nat × SOut D)) : Prop where
  io : s.io = .stopped
  sse : s.sse = false
  sent : ∀ p, PostStage.sent p ∉ s.posts
  wire : s.wire = wire
  ends : ∃ l, s.tab.outcomes = old ++ l ∧ ∀ x ∈ l, EndedHere x.2

theorem dead_step (o : HtOpts) {s : Ht D} {w : List Sent} {old : List (Nat × SOut D)} (h : Dead s w old) (op : HtOp D) : Dead (s.step o op) w old := by
  have notIn : ∀ {p : PostFor} {x : PostStage}, x ≠ .sent p → PostStage.sent p ∉ s.posts ++ [x] := by
    intro p x h2 hm
    rcases List.mem_append.1 hm with h3 | h3
    · exact h.sent _ h3
    · exact h2 (List.mem_singleton.1 h3).symm
  obtain ⟨l, hl, hx⟩ := h.ends
  have more : ∀ out : List (Nat × SOut D), (∀ x ∈ out, EndedHere x.2) → ∃ l', s.tab.outcomes ++ out = old ++ l' ∧ ∀ x ∈ l', EndedHere x.2 := by
    intro out ho
    refine ⟨l ++ out, by rw [hl, List.append_assoc], fun x hm => ?_⟩
    rcases List.mem_append.1 hm with h1 | h1
    · exact hx x h1
    · exact ho x h1
  cases op with
  | opened v => simp only [Ht.step, Ht.opened, h.sse]; exact h
  | giveUp r => simp only [Ht.step, Ht.giveUp, h.sse]; exact h
  | start => simp only [Ht.step, Ht.start, h.io]; exact ⟨rfl, h.sse, h.sent, h.wire, h.ends⟩
  | send r =>
    simp only [Ht.step, Ht.send]
    split
    · exact ⟨h.io, h.sse, h.sent, h.wire, h.ends⟩
    · exact ⟨h.io, h.sse, h.sent, h.wire, more [_] (fun x hx => (by simp only [List.mem_singleton] at hx; subst hx; exact .inr (.inl ⟨_, rfl⟩)))⟩
  | file t =>
    simp only [Ht.step, Ht.file]
    split
    · refine ⟨h.io, h.sse, fun p => notIn (by intro e; cases e), h.wire, ?_⟩
      show ∃ l, (PTab.insert _ _ _).outcomes = _ ∧ _
      unfold PTab.insert
      simp only
      split
      · exact more [_] (fun x hx => (by simp only [List.mem_singleton] at hx; subst hx; exact .inl rfl))
      · exact h.ends
    · exact h
  | note n =>
    simp only [Ht.step, Ht.note]
    split
    · exact ⟨h.io, h.sse, fun p => notIn (by intro e; cases e), h.wire, h.ends⟩
    · exact h
  | begin k => simp only [Ht.step, Ht.begin, h.io]; exact h
  | finish hd k body sid => simp only [Ht.step, Ht.finish, h.io]; exact h
  | failEarly hd k => simp only [Ht.step, Ht.failEarly, h.io]; exact h
  | event hd json => simp only [Ht.step, Ht.event, h.sse]; exact h
  | close =>
    simp only [Ht.step, Ht.close]
    split
    · exact ⟨h.io, h.sse, h.sent, h.wire, h.ends⟩
    · rename_i hn
      have hw : (s.connected && o.streamable && o.enableDeleteOnClose && !s.session.isEmpty) = false := by
        have : (s.connected && o.streamable && o.enableDeleteOnClose) = false := by
          cases hb : s.connected && o.streamable && o.enableDeleteOnClose with
          | false => rfl
          | true => rw [hb, h.io] at hn; exact absurd rfl hn
        rw [this]; rfl
      refine ⟨rfl, rfl, h.sent, ?_, ?_⟩
      · rw [hw]; simp only [Bool.false_eq_true, if_false, List.append_nil]; exact h.wire
      · refine more _ (fun x hm => ?_)
        obtain ⟨p, _, rfl⟩ := List.mem_map.1 hm
        exact .inr (.inr ⟨p.1, rfl⟩)

theorem dead_run (o : HtOpts) (ops : List (HtOp D)) {s : Ht D} {w : List Sent} {old : List (Nat × SOut D)} (h : Dead s w old) : Dead (s.run o ops) w old := by
  induction ops generalizing s with
  | nil => exact h
  | cons op ops ih => exact ih (dead_step o h op)

/-- **C84 does not hold.** A transport that was started, closed and started again is connected and accepts requests, but sends nothing,
whatever happens: each request waits for the next `Close`. (`Close` stops the io context, and nothing restarts it.) -/
theorem C84_restart_counterexample (o : HtOpts) (more : List (HtOp D)) :
    let again : List (HtOp D) := [.start, .close, .start]
    ((Ht.init : Ht D).run o again).connected = true ∧
    ((Ht.init : Ht D).run o (again ++ more)).wire = [] ∧
    ∀ x ∈ ((Ht.init : Ht D).run o (again ++ more)).tab.outcomes, EndedHere x.2 := by
  intro again
  have h0 : (Ht.init : Ht D).run o again = { (Ht.init : Ht D) with connected := true, io := .stopped, sseEnabled := false } := by
    simp only [again, Ht.run, List.foldl, Ht.step, Ht.start, Ht.init, Ht.close, PTab.closeAll, PTab.init]
    simp
  have hd : Dead ((Ht.init : Ht D).run o again) [] [] := by
    rw [h0]
    exact ⟨rfl, rfl, fun p hm => (by cases hm), rfl, [], rfl, fun x hx => (by cases hx)⟩
  have h1 := dead_run o more hd
  rw [← ht_run_append] at h1
  refine ⟨by rw [h0], h1.wire, ?_⟩
  obtain ⟨l, hl, hx⟩ := h1.ends
  rw [hl]
  exact hx

/-- **C84 does not hold** of closing again either: with sessions and DELETE on close, the `Close` of a transport started again waits for an
io thread that does not run, for ever. -/
theorem C84_hang_counterexample (o : HtOpts) (hs : o.streamable = true) (hd : o.enableDeleteOnClose = true) :
    ((Ht.init : Ht D).run o [.start, .close, .start, .close]).hung = true := by
  simp only [Ht.run, List.foldl, Ht.step, Ht.start, Ht.init, Ht.close, hs, hd]
  simp

structure LeftOver (s : Ht D) (key : Bytes) (n : Nat) : Prop where
  io : s.io = .stopped
  sse : s.sse = false
  pending : AMap.get s.tab.pending key = some n
  tickets : ∀ r, some r ∈ s.tickets → keyText r.id ≠ key ∧ keyText r.id ≠ []

theorem leftOver_step (o : HtOpts) {s : Ht D} {key : Bytes} {n : Nat} (h : LeftOver s key n) (op : HtOp D) (hop : ¬ MayEnd key op) : LeftOver (s.step o op) key n := by
  cases op with
  | opened v => simp only [Ht.step, Ht.opened, h.sse]; exact h
  | giveUp r => simp only [Ht.step, Ht.giveUp, h.sse]; exact h
  | start => simp only [Ht.step, Ht.start, h.io]; exact ⟨rfl, h.sse, h.pending, h.tickets⟩
  | send r =>
    simp only [Ht.step, Ht.send]
    split
    · refine ⟨h.io, h.sse, h.pending, fun r' hr => ?_⟩
      rcases List.mem_append.1 hr with h1 | h1
      · exact h.tickets r' h1
      · simp only [List.mem_singleton, Option.some.injEq] at h1
        subst h1
        exact ⟨fun e => hop (.inl e), fun e => hop (.inr e)⟩
    · exact ⟨h.io, h.sse, h.pending, h.tickets⟩
  | file t =>
    simp only [Ht.step, Ht.file]
    split
    · rename_i r hr
      obtain ⟨h1, h2⟩ := h.tickets r (List.mem_of_getElem? hr)
      have hw : s.withId r = (r, s.counter) := by unfold Ht.withId; rw [if_neg h2]
      simp only [hw]
      refine ⟨h.io, h.sse, ?_, fun r' hr' => ?_⟩
      · show AMap.get (AMap.put s.tab.pending _ _) key = _
        rw [AMap.get_put_ne _ _ (Ne.symm h1)]
        exact h.pending
      · rcases List.mem_or_eq_of_mem_set hr' with h3 | h3
        · exact h.tickets r' h3
        · cases h3
    · exact h
  | note m => simp only [Ht.step, Ht.note]; split <;> exact ⟨h.io, h.sse, h.pending, h.tickets⟩
  | begin k => simp only [Ht.step, Ht.begin, h.io]; exact h
  | finish hd k body sid => simp only [Ht.step, Ht.finish, h.io]; exact h
  | failEarly hd k => simp only [Ht.step, Ht.failEarly, h.io]; exact h
  | event hd json => simp only [Ht.step, Ht.event, h.sse]; exact h
  | close => exact absurd trivial hop

theorem leftOver_run (o : HtOpts) (ops : List (HtOp D)) {s : Ht D} {key : Bytes} {n : Nat} (h : LeftOver s key n) (hops : ∀ op ∈ ops, ¬ MayEnd key op) :
    LeftOver (s.run o ops) key n := by
  induction ops generalizing s with
  | nil => exact h
  | cons op ops ih => exact ih (leftOver_step o h op (hops op (List.mem_cons_self ..))) (fun x hx => hops x (List.mem_cons_of_mem _ hx))

/-- **C46 does not hold** of a request that passed the check of the connection before `Close` and is filed after it: without another
`Close` or a request with its id it never completes. -/
theorem C46_race_counterexample (o : HtOpts) (r : Request D) (hk : keyText r.id ≠ []) (more : List (HtOp D))
    (hm : ∀ op ∈ more, ¬ MayEnd (keyText r.id) op) :
    let s := (Ht.init : Ht D).run o ([.start, .send r, .close, .file 0] ++ more)
    0 < s.tab.nextFut ∧ 0 ∉ s.tab.outcomes.map (·.1) := by
  intro s
  have hs : LeftOver ((Ht.init : Ht D).run o [.start, .send r, .close, .file 0]) (keyText r.id) 0 := by
    have h1 : (Ht.init : Ht D).run o [.start, .send r, .close] =
        { (Ht.init : Ht D) with io := .stopped, sseEnabled := false, tickets := [some r] } := by
      simp only [Ht.run, List.foldl, Ht.step, Ht.start, Ht.init, Ht.send, Ht.close, PTab.closeAll, PTab.init]
      simp
    have h2 : (Ht.init : Ht D).run o [.start, .send r, .close, .file 0] = ((Ht.init : Ht D).run o [.start, .send r, .close]).step o (.file 0) := rfl
    rw [h2, h1]
    have hw : ({ (Ht.init : Ht D) with io := .stopped, sseEnabled := false, tickets := [some r] } : Ht D).withId r = (r, 0) := by
      unfold Ht.withId; rw [if_neg hk]; rfl
    simp only [Ht.step, Ht.file, List.getElem?_cons_zero, hw]
    refine ⟨rfl, rfl, ?_, fun r' hr => ?_⟩
    · show AMap.get (AMap.put _ _ _) _ = _
      rw [AMap.get_put_self]
      rfl
    · simp at hr
  have h1 := leftOver_run o more hs hm
  rw [← ht_run_append] at h1
  have hi : HtInv s := ht_inv o _
  exact ⟨hi.sentBound _ (hi.pend _ _ (AMap.get_some_mem h1.pending)), hi.pending_open (AMap.get_some_mem h1.pending)⟩

/-- **C84 (partial).** As long as `Start` is not called after a `Close`, a message handed to a connected transport is sent when its turn
comes, once, to the path for its kind, and with the session id of the server. Missing: a transport started again. -/
theorem C84_sends_partial (o : HtOpts) (ops : List (HtOp D)) (h : StartedOnce ops) (k : Nat) (p : PostFor) (body : Bytes) :
    let s := (Ht.init : Ht D).run o ops
    let s' := s.step o (.begin k)
    s.connected = true → s.posts[k]? = some (.queued p body) →
    s'.wire = s.wire ++ [⟨false, o.pathFor p, if o.streamable then s.session else [], body⟩] ∧ s'.posts[k]? = some (.sent p) ∧
    ∀ b, s'.step o (.begin k) = s' ∧ s'.posts[k]? ≠ some (.queued p b) := by
  intro s s' hc hq
  have hio := (started_running o ops h).1 hc
  have hs' : s' = { s with posts := s.posts.set k (.sent p), wire := s.wire ++ [⟨false, o.pathFor p, if o.streamable then s.session else [], body⟩] } := by
    show s.step o (.begin k) = _
    simp only [Ht.step, Ht.begin]
    rw [hio, hq]
  have hlt : k < s.posts.length := by
    obtain ⟨hlt, -⟩ := List.getElem?_eq_some_iff.1 hq
    exact hlt
  have hp : s'.posts[k]? = some (.sent p) := by rw [hs']; simp [hlt]
  refine ⟨by rw [hs'], hp, fun b => ⟨?_, by rw [hp]; intro e; cases e⟩⟩
  simp only [Ht.step, Ht.begin]
  rw [hp]
  split
  · rename_i e; cases e
  · rfl

example : let ops : List (HtOp Empty) := [.start, .send callOne, .file 0]
    StartedOnce ops ∧ ((Ht.init : Ht Empty).run streamHt ops).connected = true ∧
    ((Ht.init : Ht Empty).run streamHt ops).posts[0]? = some (.queued (.request (lit "1") false) (serRequest callOne)) := by
  refine ⟨?_, rfl, by decide +kernel⟩
  intro a b e hc
  have hm : HtOp.close ∈ a ++ HtOp.start :: b := List.mem_append_left _ hc
  rw [← e] at hm
  simp at hm

/-- The hypotheses of `C46_race_counterexample` are met, by a continuation too. -/
example : keyText callOne.id ≠ [] ∧ ∀ op ∈ ([.start, .send callTwo, .file 1, .begin 0] : List (HtOp Empty)), ¬ MayEnd (keyText callOne.id) op := by
  refine ⟨by decide, ?_⟩
  intro op hm
  simp only [List.mem_cons, List.not_mem_nil, or_false] at hm
  rcases hm with rfl | rfl | rfl | rfl
  · exact id
  · simp only [MayEnd]; decide
  · exact id
  · exact id

end Verif
