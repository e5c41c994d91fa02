import Verif.Reach.StreamProps
import Verif.Reach.AnswerProps

/-!
C136, continued: the request of a call whose session stays open is handled by the client that listens, whatever else happens.
-/

namespace Verif.Reach

open Verif.Await Verif.Client Verif.Server
open Verif.Http (Hs HsOp LinkOp LinkCfg HtHandlers Sess SendStage clientReplies)

variable {D H : Type} [DblFmt D]

/-! ### Specification -/

/-- Each event that was written without a failure reaches the client later, whatever its handlers are then. -/
def Heeds (c : LinkCfg) (w : World D H) (f : Nat → Op D H) : Prop :=
  ∀ u j k ev, (states c w f u).link.hs.events[j]? = some (k, ev, true) → ∃ v env n e, u ≤ v ∧ f v = .heed j env n e

/-- From time `T` on no event that is written to a stream of session object `o` fails to be written. -/
def Writes (c : LinkCfg) (w : World D H) (f : Nat → Op D H) (o T : Nat) : Prop :=
  ∀ u j k ev ok, (states c w f T).link.hs.events.length ≤ j → (states c w f u).link.hs.events[j]? = some (k, ev, ok) → (states c w f u).link.hs.streams[k]? = some o → ok = true

/-- From time `T` on the client lives and is connected, and every stream of session object `o` is one of its own. -/
def Listens (c : LinkCfg) (w : World D H) (f : Nat → Op D H) (o T : Nat) : Prop :=
  ∀ u, T ≤ u → (states c w f u).dead = false ∧ (states c w f u).link.ht.sse = true ∧ (states c w f u).link.ht.connected = true ∧
    ∀ k, (states c w f u).link.hs.streams[k]? = some o → k ∈ (states c w f u).link.mine

/-! ### The events that were taken -/

theorem link_taken (c : LinkCfg) (l : Http.Link D) {op : LinkOp D} (h : isEvent op = false) : (l.step c op).taken = l.taken := by
  cases op with
  | event hd j => cases h
  | begin k => simp only [Http.Link.step, Http.Link.begin]; split <;> rfl
  | serve i now a g n e d => simp only [Http.Link.step, Http.Link.serve]; split <;> rfl
  | arrive hd i => simp only [Http.Link.step, Http.Link.arrive, Http.Link.ended]; split <;> (try split) <;> rfl
  | lose hd i => simp only [Http.Link.step, Http.Link.lose, Http.Link.ended]; split <;> (try split) <;> rfl
  | listen now a g n e d => simp only [Http.Link.step, Http.Link.listen]; split <;> rfl
  | _ => rfl

theorem event_taken (c : LinkCfg) (l : Http.Link D) (hd : HtHandlers D) {i j : Nat} (h : i ∈ (l.step c (.event hd j)).taken) : i ∈ l.taken ∨ i = j := by
  simp only [Http.Link.step, Http.Link.event] at h
  split at h
  · split at h
    · rcases List.mem_append.1 h with h | h
      · exact .inl h
      · exact .inr (List.mem_singleton.1 h)
    · exact .inl h
  · exact .inl h

theorem taken_step (c : LinkCfg) (w : World D H) (op : Op D H) {i : Nat} (h : i ∈ (w.step c op).link.taken) :
    i ∈ w.link.taken ∨ ∃ env n e payload, op = .heed i env n e ∧ w.dead = false ∧ heard w.link i = some payload := by
  cases op with
  | go i => simp only [World.step, World.go] at h; split at h <;> (try split at h) <;> exact .inl h
  | deliver n => simp only [World.step, World.deliver] at h; split at h <;> (try split at h) <;> exact .inl h
  | wire op =>
    simp only [World.step] at h
    split at h
    · exact .inl h
    · rename_i hn
      have hev : isEvent op = false := by cases he : isEvent op <;> simp [he] at hn ⊢
      dsimp only at h
      rw [link_taken c _ hev] at h
      exact .inl h
  | own op => cases op <;> simp only [World.step] at h <;> (try split at h) <;> exact .inl h
  | heed j env n e =>
    simp only [World.step] at h
    split at h
    · exact .inl h
    · rename_i hd
      have hd : w.dead = false := by cases hx : w.dead <;> simp [hx] at hd ⊢
      unfold World.heed at h
      cases hp : heard w.link j with
      | none => rw [hp] at h; exact .inl h
      | some payload =>
        rw [hp] at h
        dsimp only at h
        have fin : i ∈ w.link.taken ∨ i = j → i ∈ w.link.taken ∨ ∃ env' n' e' payload, (Op.heed j env n e : Op D H) = .heed i env' n' e' ∧ w.dead = false ∧ heard w.link i = some payload := by
          rintro (h | rfl)
          · exact .inl h
          · exact .inr ⟨env, n, e, payload, rfl, hd, hp⟩
        split at h
        · exact fin (event_taken c _ _ h)
        · split at h
          · exact fin (event_taken c _ _ h)
          · exact .inl h
          · exact .inl h
  | _ => exact .inl h

theorem taken_from (c : LinkCfg) (s0 : SSelf D) (cli : Cli D H) (f : Nat → Op D H) {j : Nat} (t : Nat) (h : j ∈ (states c (World.init s0 cli) f t).link.taken) :
    ∃ v env n e payload, v < t ∧ f v = .heed j env n e ∧ (states c (World.init s0 cli) f v).dead = false ∧ heard (states c (World.init s0 cli) f v).link j = some payload := by
  induction t with
  | zero => cases h
  | succ t ih =>
    rcases taken_step c _ _ h with h | ⟨env, n, e, payload, h1, h2, h3⟩
    · obtain ⟨v, env, n, e, payload, h1, h2⟩ := ih h
      exact ⟨v, env, n, e, payload, by omega, h2⟩
    · exact ⟨t, env, n, e, payload, by omega, h1, h2, h3⟩

theorem heard_get {l : Http.Link D} {j : Nat} {payload : Bytes} (h : heard l j = some payload) : ∃ k i ok, l.hs.events[j]? = some (k, (i, payload), ok) := by
  unfold heard at h
  split at h
  · rename_i k i p ok he
    split at h
    · cases h; exact ⟨k, i, ok, he⟩
    · cases h
  · cases h

theorem asked_request {n e : Bool} {q : Request D} (h : InMemory.PlainReq q) : asked n e (serRequest q) = some q := by
  unfold asked
  rw [route_request _ _ rfl h]
  rfl

/-- What is answered is kept. -/
theorem heed_replied (c : LinkCfg) (w : World D H) {j : Nat} {env : CliEnv D H} {n e : Bool} {q : Request D} {r : Response D} (hd : w.dead = false) (hq : InMemory.PlainReq q)
    (hh : heard w.link j = some (serRequest q)) (ha : (onRequest env w.cli q).1 = .answer r) :
    (w.step c (.heed j env n e)).link.replied = w.link.replied ++ [(q, .resp r)] ∧ (w.step c (.heed j env n e)).cli = (onRequest env w.cli q).2 ∧
      (w.step c (.heed j env n e)).link.ht.posts = w.link.ht.posts ++ [.queued .answer (serResponse (replyFor q (.resp r)))] := by
  have hs : w.step c (.heed j env n e) = { w with cli := (onRequest env w.cli q).2, link := w.link.step c (.event ⟨some (fun _ => .resp r), n, e⟩ j) } := by
    show (if w.dead then w else w.heed c j env n e) = _
    rw [if_neg (by simp [hd])]
    unfold World.heed
    rw [hh]
    dsimp only
    rw [asked_request hq]
    dsimp only
    rw [ha]
  rw [hs]
  have hh' := hh
  unfold heard at hh'
  show (w.link.event c _ j).replied = _ ∧ _ ∧ (w.link.event c _ j).ht.posts = _
  unfold Http.Link.event
  split at hh'
  · rename_i k i p ok he
    split at hh'
    · rename_i hc
      cases hh'
      rw [he]
      dsimp only
      rw [if_pos hc]
      refine ⟨?_, rfl, ?_⟩
      · show _ ++ clientReplies _ _ = _
        unfold clientReplies
        rw [route_request (HtHandlers.wrap ⟨some (fun _ => .resp r), n, e⟩ : Handlers D) _ rfl hq]
        rfl
      · obtain ⟨t, hn, nn, he⟩ := event_way c (s := w.link.ht) (hd := ⟨some (fun _ => .resp r), n, e⟩) (g := fun _ => .resp r) rfl hq hc.2.2.1 hc.2.2.2
        show (w.link.ht.step c.client _).posts = _
        rw [he]
    · cases hh'
  · cases hh'

/-- An event on a stream of the client is heard, and not before it is there. -/
theorem heard_at (c : LinkCfg) (s0 : SSelf D) (cli : Cli D H) (f : Nat → Op D H) {T U o j k i : Nat} {ok : Bool} {payload : Bytes} (hh : Heeds c (World.init s0 cli) f)
    (hwr : Writes c (World.init s0 cli) f o T) (hl : Listens c (World.init s0 cli) f o T) (hTU : T ≤ U) (hnew : (states c (World.init s0 cli) f T).link.hs.events.length ≤ j) (hj : (states c (World.init s0 cli) f U).link.hs.events[j]? = some (k, (i, payload), ok))
    (hst : (states c (World.init s0 cli) f U).link.hs.streams[k]? = some o) :
    ∃ v env n e, T ≤ v ∧ f v = .heed j env n e ∧ (states c (World.init s0 cli) f v).dead = false ∧ heard (states c (World.init s0 cli) f v).link j = some payload := by
  have hok : ok = true := hwr U j k _ ok hnew hj hst
  subst hok
  obtain ⟨v, env, n, e, hv, hfv⟩ := hh U j k _ hj
  obtain ⟨more, hm⟩ := hs_between c s0 cli f hv
  have hjv : (states c (World.init s0 cli) f v).link.hs.events[j]? = some (k, (i, payload), true) := by
    obtain ⟨rest, hrest⟩ := events_grow_run (states c (World.init s0 cli) f U).link.hs more
    rw [hm, ← hrest]; exact getElem?_append_of_some hj
  have hstv : (states c (World.init s0 cli) f v).link.hs.streams[k]? = some o := by rw [hm]; exact streams_run more _ hst
  obtain ⟨h1, h2, h3, h4⟩ := hl v (by omega)
  by_cases htk : j ∈ (states c (World.init s0 cli) f v).link.taken
  · obtain ⟨v', env', n', e', payload', g1, g2, g3, g4⟩ := taken_from c s0 cli f v htk
    obtain ⟨k2, i2, ok2, g5⟩ := heard_get g4
    have hTv : T ≤ v' := by
      rcases Nat.le_total T v' with h | h
      · exact h
      · obtain ⟨more', hm'⟩ := hs_between c s0 cli f h
        have := (events_grow_run (states c (World.init s0 cli) f v').link.hs more').length_le
        rw [← hm'] at this
        have := (List.getElem?_eq_some_iff.1 g5).1
        omega
    obtain ⟨more', hm'⟩ := hs_between c s0 cli f (Nat.le_of_lt g1)
    obtain ⟨rest, hrest⟩ := events_grow_run (states c (World.init s0 cli) f v').link.hs more'
    rw [hm', ← hrest, getElem?_append_of_some g5] at hjv
    cases hjv
    exact ⟨v', env', n', e', hTv, g2, g3, g4⟩
  · refine ⟨v, env, n, e, by omega, hfv, h1, ?_⟩
    unfold heard
    rw [hjv]
    exact if_pos ⟨h4 k hstv, htk, h2, h3⟩

/-- C136 (partial), the way to the handler: when a send has found a session, and the session stays open, one of its streams keeps writing without a failure and the client that has its streams looks at what comes,
then the client handles the request: at some time after that its handler is given a request with the method, the parameters and, if it was given one, the id of the call, and the answer the handler gives is
the one the transport is given to post. Whatever else is sent and handled before and in between. Missing: a handler that ends the client's process or that waits for ever, which is what `hans` excludes; the
way of the answer back, see `C136_returned_partial`. -/
theorem C136_heeded_partial (c : LinkCfg) (s0 : SSelf D) (cli : Cli D H) (f : Nat → Op D H) {T k o : Nat} {t : Nat × Request D} (hplain : InMemory.PlainReq t.2)
    (hf : Streams f t.1 k) (hh : Heeds c (World.init s0 cli) f) (hwr : Writes c (World.init s0 cli) f o T) (hl : Listens c (World.init s0 cli) f o T) (hfound : (states c (World.init s0 cli) f T).link.hs.sends[t.1]? = some (.found o (.request t.2)))
    (hk : (states c (World.init s0 cli) f T).link.hs.streams[k]? = some o) (hrun : ∀ u, T ≤ u → (states c (World.init s0 cli) f u).link.hs.running = true)
    (hopen : ∀ u x, T ≤ u → (states c (World.init s0 cli) f u).link.hs.objs[o]? = some x → x.closed = false)
    (hans : ∀ v j env n e q, T ≤ v → f v = .heed j env n e → heard (states c (World.init s0 cli) f v).link j = some (serRequest q) → SentAs t.2 q →
      ∃ r, (onRequest env (states c (World.init s0 cli) f v).cli q).1 = .answer r) :
    ∃ v j env n e q r, T ≤ v ∧ f v = .heed j env n e ∧ SentAs t.2 q ∧ heard (states c (World.init s0 cli) f v).link j = some (serRequest q) ∧
      (onRequest env (states c (World.init s0 cli) f v).cli q).1 = .answer r ∧
      (states c (World.init s0 cli) f (v + 1)).cli = (onRequest env (states c (World.init s0 cli) f v).cli q).2 ∧
      (states c (World.init s0 cli) f (v + 1)).link.replied = (states c (World.init s0 cli) f v).link.replied ++ [(q, .resp r)] ∧
      (states c (World.init s0 cli) f (v + 1)).link.ht.posts = (states c (World.init s0 cli) f v).link.ht.posts ++ [.queued .answer (serResponse (replyFor q (.resp r)))] := by
  obtain ⟨U, hU⟩ := C136_streamed_partial c s0 cli f hf hfound hk hrun hopen
  obtain ⟨j, k', i, ok, q, hj, hq, hev, hst⟩ := hU (U + T) (by omega)
  obtain ⟨v, env, n, e, hTv, h1, h2, h3⟩ := heard_at c s0 cli f hh hwr hl (by omega) hj hev hst
  obtain ⟨r, hr⟩ := hans v j env n e q hTv h1 h3 hq.1
  obtain ⟨h4, h5, h6⟩ := heed_replied c (states c (World.init s0 cli) f v) (n := n) (e := e) h2 (hq.2 hplain) h3 hr
  refine ⟨v, j, env, n, e, q, r, hTv, h1, hq.1, h3, hr, ?_, ?_, ?_⟩
  · simp only [states, h1]; exact h5
  · simp only [states, h1]; exact h4
  · simp only [states, h1]; exact h6

end Verif.Reach
