import Verif.Stdio.ServeLemmas
import Verif.Rpc.Props

/-!
C94: a handler can put a request to the other side and gets the answer. False of the stdio transport, in every execution.
C95: a cancellation that arrives while a call runs reaches its handler. False of the stdio transport, in every execution.
C96: requests read by the stdio transport are answered once each, in the order in which they came, and the reader is never stuck
for good while the connection lasts.
-/

namespace Verif.Serve

open Verif.Stdio Verif.Cancel

variable {D : Type} [DblFmt D]

/-- `event` is `route` with a request handler installed. -/
theorem event_route (hs : Handlers D) (f : Request D → HandlerOutcome D) (hf : hs.request = some f) (m : Bytes) :
    (∀ r, event m = .response r → route hs m = ⟨none, [.resolved r], []⟩) ∧
    (∀ q, event m = .request q → route hs m = ⟨some (serResponse (replyFor q (f q))), [], [q]⟩) ∧
    (∀ n, event m = .note n → route hs m = ⟨none, if hs.notification then [.notified n] else [], []⟩) ∧
    (event (D := D) m = .unknown → route hs m = ⟨none, if hs.error then [.reported] else [], []⟩) := by
  have tn : ∀ n, tailEvent m = .note n → routeNotification hs m = ⟨none, if hs.notification then [.notified n] else [], []⟩ := by
    intro n h
    unfold tailEvent at h
    unfold routeNotification
    split at h
    · cases h; rename_i e; rw [e]
    · cases h
  have tu : tailEvent (D := D) m = .unknown → routeNotification hs m = ⟨none, if hs.error then [.reported] else [], []⟩ := by
    intro h
    unfold tailEvent at h
    unfold routeNotification
    split at h
    · cases h
    · rename_i e; rw [e]
  have tr : (∀ r, tailEvent (D := D) m ≠ .response r) ∧ (∀ q, tailEvent (D := D) m ≠ .request q) := by
    unfold tailEvent
    split <;> simp
  unfold event route
  split
  · refine ⟨fun r h => by cases h; rfl, ?_, ?_, ?_⟩ <;> simp
  · split
    · split
      · rename_i q e
        rw [hf]
        refine ⟨by simp, ?_, by simp, by simp⟩
        intro q' h
        cases h; rw [e]
      · rename_i e
        rw [e]
        exact ⟨fun r h => absurd h (tr.1 r), fun q h => absurd h (tr.2 q), tn, tu⟩
    · exact ⟨fun r h => absurd h (tr.1 r), fun q h => absurd h (tr.2 q), tn, tu⟩

/-! ### Waiting handlers -/

theorem run_app (h : Request D → Prog D) (s : S D) (a b : List (Op D)) : s.run h (a ++ b) = (s.run h a).run h b := by
  simp [S.run]

/-- A handler that waits stands at a request it sent. -/
def Waits (s : S D) : Prop := ∀ b n, s.busy = some b → b.wait = some n → ∃ q k, b.prog = .ask q k

theorem waits_step (h : Request D → Prog D) {s : S D} (w : Waits s) (op : Op D) : Waits (s.step h op) := by
  cases op with
  | read =>
    show Waits (s.read h)
    unfold S.read
    split
    · split
      · rename_i m rest hb hi
        simp only
        split
        · exact w
        · intro b n hb' hw
          cases hb'; cases hw
        · unfold S.notify
          split <;> exact w
        · exact w
      · exact w
    · exact w
  | work =>
    show Waits s.work
    unfold S.work
    split
    · exact w
    · rename_i b hb
      split
      · intro b' n hb'; cases hb'
      · rename_i k hp
        intro b' n hb' hw
        cases hb'
        obtain ⟨q, k', e⟩ := w b n hb hw
        rw [hp] at e; cases e
      · rename_i q k hp hw
        intro b' n hb' hw'
        cases hb'
        exact ⟨q, k, hp⟩
      · split
        · exact w
        · intro b' n hb' hw'
          cases hb'; cases hw'
  | file n now =>
    show Waits (s.file n now)
    unfold S.file
    split <;> exact w
  | _ => exact w

theorem waits_run (h : Request D → Prog D) (ops : List (Op D)) : ∀ {s : S D}, Waits s → Waits (s.run h ops) := by
  induction ops with
  | nil => intro s w; exact w
  | cons op ops ih => intro s w; exact ih (waits_step h w op)

theorem waits_init : Waits (S.init : S D) := by intro b n hb; cases hb

theorem grow_step (h : Request D → Prog D) (s : S D) (op : Op D) : s.pend.outcomes <+: (s.step h op).pend.outcomes := by
  cases op with
  | read =>
    show _ <+: (s.read h).pend.outcomes
    unfold S.read
    split
    · split
      · simp only
        split
        · exact outcomes_mono _ _
        · exact List.prefix_rfl
        · unfold S.notify
          split <;> exact List.prefix_rfl
        · exact List.prefix_rfl
      · exact List.prefix_rfl
    · exact List.prefix_rfl
  | work =>
    show _ <+: s.work.pend.outcomes
    unfold S.work
    split
    · exact List.prefix_rfl
    · split
      · exact List.prefix_rfl
      · exact List.prefix_rfl
      · exact outcomes_mono s.pend (.sendCheck _)
      · split <;> exact List.prefix_rfl
  | check q => exact outcomes_mono s.pend (.sendCheck _)
  | file n now =>
    show _ <+: (s.file n now).pend.outcomes
    unfold S.file
    split
    · exact outcomes_mono s.pend (.sendInsert n now)
    · exact List.prefix_rfl
  | arrive m => exact List.prefix_rfl
  | sweep now => exact outcomes_mono s.pend (.sweep now)
  | disconnect => exact outcomes_mono s.pend .disconnect
  | close => exact outcomes_mono s.pend .close
  | setTimeout t => exact outcomes_mono s.pend (.setTimeout t)

theorem grow_run (h : Request D → Prog D) (ops : List (Op D)) : ∀ (s : S D), s.pend.outcomes <+: (s.run h ops).pend.outcomes := by
  induction ops with
  | nil => intro s; exact List.prefix_rfl
  | cons op ops ih => intro s; exact (grow_step h s op).trans (ih _)

omit [DblFmt D] in
theorem get_none_prefix {l l' : List (Nat × Outcome D)} {n : Nat} (hp : l <+: l') (h : AMap.get l' n = none) : AMap.get l n = none := by
  rw [AMap.get_none_iff] at h ⊢
  obtain ⟨t, rfl⟩ := hp
  intro hm
  apply h
  unfold AMap.keys at *
  rw [List.map_append]
  exact List.mem_append_left _ hm

/-- A step while the handler waits for a future that stays incomplete. -/
theorem blocked_step (h : Request D → Prog D) {s : S D} {b : Busy D} {n : Nat} {q : Request D} {k : Outcome D → Prog D}
    (hb : s.busy = some b) (hp : b.prog = .ask q k) (hw : b.wait = some n) (hn : AMap.get s.pend.outcomes n = none) (op : Op D) :
    (s.step h op).busy = some b ∧ (s.step h op).taken = s.taken ∧ (s.step h op).replies = s.replies ∧
      (s.step h op).cancel = s.cancel ∧ (s.step h op).heard = s.heard := by
  cases op with
  | read =>
    have : s.read h = s := by
      unfold S.read
      split
      · split
        · rename_i hb' _; rw [hb] at hb'; cases hb'
        · rfl
      · rfl
    simp only [S.step, this]
    exact ⟨hb, trivial, trivial, trivial, trivial⟩
  | work =>
    have : s.work = s := by
      unfold S.work
      rw [hb]
      simp only [hp, hw, hn]
    simp only [S.step, this]
    exact ⟨hb, trivial, trivial, trivial, trivial⟩
  | file n now =>
    simp only [S.step, S.file]
    split <;> exact ⟨hb, rfl, rfl, rfl, rfl⟩
  | _ => exact ⟨hb, rfl, rfl, rfl, rfl⟩

theorem blocked_run (h : Request D → Prog D) {b : Busy D} {n : Nat} {q : Request D} {k : Outcome D → Prog D}
    (hp : b.prog = .ask q k) (hw : b.wait = some n) (more : List (Op D)) : ∀ (s : S D), s.busy = some b →
    AMap.get (s.run h more).pend.outcomes n = none →
    (s.run h more).busy = some b ∧ (s.run h more).taken = s.taken ∧ (s.run h more).replies = s.replies ∧
      (s.run h more).cancel = s.cancel ∧ (s.run h more).heard = s.heard := by
  induction more with
  | nil => intro s hb _; exact ⟨hb, rfl, rfl, rfl, rfl⟩
  | cons op more ih =>
    intro s hb hn
    have hn0 := get_none_prefix (grow_run h (op :: more) s) hn
    obtain ⟨a1, a2, a3, a4, a5⟩ := blocked_step h hb hp hw hn0 op
    obtain ⟨b1, b2, b3, b4, b5⟩ := ih (s.step h op) a1 hn
    exact ⟨b1, b2.trans a2, b3.trans a3, b4.trans a4, b5.trans a5⟩

/-! ### Getting on -/

/-- Steps that need nothing from the other side: handlers go on, requests are filed, time passes. -/
def Own : Op D → Prop
  | .work => True
  | .file _ _ => True
  | .sweep _ => True
  | .read => True
  | _ => False

theorem arrivals_own {l : List (Op D)} (h : ∀ op ∈ l, Own op) : arrivals l = [] := by
  unfold arrivals
  rw [List.filterMap_eq_nil_iff]
  intro op hop
  cases op with
  | arrive m => exact absurd (h _ hop) id
  | _ => rfl

/-- A future the handler waits for completes when its time has come. -/
theorem completes (h : Request D → Prog D) {ops : List (Op D)} {s : S D} (g : Good h ops s) (hc : s.pend.connected = true) {n : Nat}
    (hn : n < s.pend.nextFut) : ∃ more, (∀ op ∈ more, Own op) ∧ AMap.get (s.run h more).pend.outcomes n ≠ none ∧
      (s.run h more).pend.connected = true ∧ (s.run h more).busy = s.busy ∧ (s.run h more).inbox = s.inbox ∧
      (s.run h more).taken = s.taken ∧ (s.run h more).replies = s.replies := by
  have fire : ∀ {ops : List (Op D)} {s : S D} {k : Bytes} {dl : Nat}, Good h ops s → s.pend.connected = true →
      (n, k, dl) ∈ s.pend.sent → AMap.get (s.step h (.sweep dl)).pend.outcomes n ≠ none ∧
      (s.step h (.sweep dl)).pend.connected = true := by
    intro ops s k dl g hc hs
    obtain ⟨pops, e⟩ := g.pend
    have := C13_timeouts_fire pops dl n k dl (by rw [← e]; exact hc) (by rw [← e]; exact hs) (Nat.le_refl _)
    rw [run_append, ← e] at this
    obtain ⟨o, ho⟩ := this
    refine ⟨?_, ?_⟩
    · rw [Ne, AMap.get_none_iff]
      exact fun hx => hx (List.mem_map.2 ⟨_, ho, rfl⟩)
    · show (s.pend.sweep dl).connected = true
      unfold P.sweep
      rw [if_pos hc, (sweepList_fields dl _ s.pend).2.2.2]
      exact hc
  have hm : n ∈ s.pend.all := g.inv.conserve.mem_iff.2 (List.mem_range.2 hn)
  unfold P.all at hm
  simp only [List.mem_append, List.mem_map] at hm
  rcases hm with (⟨x, hx, rfl⟩ | ⟨x, hx, rfl⟩) | ⟨x, hx, rfl⟩
  · -- not filed yet
    obtain ⟨q, hq⟩ := g.called x.1 x.2 hx
    have hwt : s.pend.waiting x.1 = some x.2 := AMap.mem_get g.inv.checkedKeys hx
    have e1 : s.step h (.file x.1 0) = { s with
        pend := s.pend.sendInsert x.1 0
        out := s.out ++ [serRequest (stamped q (chooseKey x.2 s.pend.counter).1)] } := by
      show s.file x.1 0 = _
      unfold S.file
      rw [hwt, hq]
    have hc1 : (s.step h (.file x.1 0)).pend.connected = true := by
      rw [e1]
      show (s.pend.sendInsert x.1 0).connected = true
      unfold P.sendInsert
      rw [hwt]; exact hc
    have hs1 : (x.1, (chooseKey x.2 s.pend.counter).1, 0 + s.pend.timeout) ∈ (s.step h (.file x.1 0)).pend.sent := by
      rw [e1]
      show _ ∈ (s.pend.sendInsert x.1 0).sent
      unfold P.sendInsert
      rw [hwt]
      simp
    obtain ⟨f1, f2⟩ := fire (good_step h g (.file x.1 0)) hc1 hs1
    refine ⟨[.file x.1 0, .sweep (0 + s.pend.timeout)], by simp [Own], f1, f2, ?_, ?_, ?_, ?_⟩ <;>
      simp only [S.run, List.foldl_cons, List.foldl_nil, e1] <;> rfl
  · obtain ⟨dl, hs, -⟩ := g.inv.pend x.1 x.2 hx
    obtain ⟨f1, f2⟩ := fire g hc hs
    exact ⟨[.sweep dl], by simp [Own], f1, f2, rfl, rfl, rfl, rfl⟩
  · refine ⟨[], by simp, ?_, hc, rfl, rfl, rfl, rfl⟩
    rw [Ne, AMap.get_none_iff]
    exact fun hx' => hx' (List.mem_map.2 ⟨_, hx, rfl⟩)

/-- A handler comes to its end, if need be by the time limits of its requests. -/
theorem finishes (h : Request D → Prog D) : ∀ (p : Prog D) {ops : List (Op D)} {s : S D} {b : Busy D}, Good h ops s → Waits s →
    s.pend.connected = true → s.busy = some b → b.prog = p →
    ∃ more o, (∀ op ∈ more, Own op) ∧ (s.run h more).busy = none ∧ (s.run h more).pend.connected = true ∧
      (s.run h more).inbox = s.inbox ∧ (s.run h more).taken = s.taken ∧ (s.run h more).replies = s.replies ++ [(b.req, o)] := by
  intro p
  induction p with
  | done o =>
    intro ops s b g w hc hb hp
    refine ⟨[.work], o, by simp [Own], ?_⟩
    have : s.step h .work = { s with
        busy := none
        out := s.out ++ [serResponse (replyFor b.req o)]
        replies := s.replies ++ [(b.req, o)]
        cancel := s.cancel.step (D := D) (.finish b.call) } := by
      show s.work = _
      unfold S.work
      rw [hb]
      simp only [hp]
    simp only [S.run, List.foldl_cons, List.foldl_nil, this]
    exact ⟨trivial, hc, trivial, trivial, trivial⟩
  | look k ih =>
    intro ops s b g w hc hb hp
    have e : s.step h .work = { s with
        busy := some { b with prog := k ((s.cancel.stopRequested b.call).getD false) }
        seen := s.seen ++ [(b.call, (s.cancel.stopRequested b.call).getD false)] } := by
      show s.work = _
      unfold S.work
      rw [hb]
      simp only [hp]
    obtain ⟨more, o, h1, h2⟩ := ih _ (good_step h g .work) (waits_step h w .work) (by rw [e]; exact hc) (by rw [e]) rfl
    refine ⟨.work :: more, o, by simpa [Own] using h1, ?_⟩
    have hr : s.run h (.work :: more) = (s.step h .work).run h more := rfl
    rw [hr]
    rw [e] at h2 ⊢
    exact h2
  | ask q k ih =>
    -- once the future is complete the handler goes on
    have goOn : ∀ {ops : List (Op D)} {s : S D} {b : Busy D} {n : Nat}, Good h ops s → Waits s → s.pend.connected = true →
        s.busy = some b → b.prog = .ask q k → b.wait = some n → AMap.get s.pend.outcomes n ≠ none →
        ∃ more o, (∀ op ∈ more, Own op) ∧ (s.run h more).busy = none ∧ (s.run h more).pend.connected = true ∧
          (s.run h more).inbox = s.inbox ∧ (s.run h more).taken = s.taken ∧ (s.run h more).replies = s.replies ++ [(b.req, o)] := by
      intro ops s b n g w hc hb hp hw hn
      obtain ⟨x, hx⟩ := Option.ne_none_iff_exists'.1 hn
      have e : s.step h .work = { s with busy := some { b with prog := k x, wait := none }, heard := s.heard ++ [(n, x)] } := by
        show s.work = _
        unfold S.work
        rw [hb]
        simp only [hp, hw, hx]
      obtain ⟨more, o, h1, h2⟩ := ih x (good_step h g .work) (waits_step h w .work) (by rw [e]; exact hc) (by rw [e]) rfl
      refine ⟨.work :: more, o, by simpa [Own] using h1, ?_⟩
      have hr : s.run h (.work :: more) = (s.step h .work).run h more := rfl
      rw [hr]
      rw [e] at h2 ⊢
      exact h2
    have waiting : ∀ {ops : List (Op D)} {s : S D} {b : Busy D} {n : Nat}, Good h ops s → Waits s → s.pend.connected = true →
        s.busy = some b → b.prog = .ask q k → b.wait = some n →
        ∃ more o, (∀ op ∈ more, Own op) ∧ (s.run h more).busy = none ∧ (s.run h more).pend.connected = true ∧
          (s.run h more).inbox = s.inbox ∧ (s.run h more).taken = s.taken ∧ (s.run h more).replies = s.replies ++ [(b.req, o)] := by
      intro ops s b n g w hc hb hp hw
      obtain ⟨m1, h1, h2, h3, h4, h5, h6, h7⟩ := completes h g hc (g.wait b n hb hw).1
      obtain ⟨m2, o, k1, k2, k3, k4, k5, k6⟩ := goOn (good_from h m1 g) (waits_run h m1 w) h3 (h4.trans hb) hp hw h2
      refine ⟨m1 ++ m2, o, ?_, ?_⟩
      · intro op hop
        rcases List.mem_append.1 hop with hop | hop
        · exact h1 op hop
        · exact k1 op hop
      · rw [run_app]
        exact ⟨k2, k3, k4.trans h5, k5.trans h6, by rw [k6, h7]⟩
    intro ops s b g w hc hb hp
    cases hw : b.wait with
    | some n => exact waiting g w hc hb hp hw
    | none =>
      have e : s.step h .work = { s.check q with busy := some { b with wait := some s.pend.nextFut } } := by
        show s.work = _
        unfold S.work
        rw [hb]
        simp only [hp, hw]
      have hc1 : (s.step h .work).pend.connected = true := by
        rw [e]
        show (s.pend.sendCheck q.id).connected = true
        unfold P.sendCheck
        rw [if_pos hc]; exact hc
      obtain ⟨more, o, h1, h2⟩ := waiting (b := { b with wait := some s.pend.nextFut }) (good_step h g .work)
        (waits_step h w .work) hc1 (by rw [e]) hp rfl
      refine ⟨.work :: more, o, by simpa [Own] using h1, ?_⟩
      have hr : s.run h (.work :: more) = (s.step h .work).run h more := rfl
      rw [hr]
      rw [e] at h2 ⊢
      exact h2

/-- One message is taken, and its handler, if any, comes to its end. -/
theorem takes (h : Request D → Prog D) {ops : List (Op D)} {s : S D} (g : Good h ops s) (w : Waits s)
    (hc : s.pend.connected = true) (hb : s.busy = none) {m : Bytes} {rest : List Bytes} (hi : s.inbox = m :: rest) :
    ∃ more, (∀ op ∈ more, Own op) ∧ (s.run h more).busy = none ∧ (s.run h more).pend.connected = true ∧
      (s.run h more).inbox = rest := by
  have e : s.step h .read = s.read h := rfl
  have hin : (s.read h).inbox = rest := by
    unfold S.read
    rw [if_pos hc, hb, hi]
    simp only
    split
    · rfl
    · rfl
    · unfold S.notify
      split <;> rfl
    · rfl
  have hcc : (s.read h).pend.connected = true := by
    unfold S.read
    rw [if_pos hc, hb, hi]
    simp only
    split
    · rename_i r _
      show (s.pend.complete _ _).connected = true
      rw [(complete_fields s.pend _ _).2.2.2]; exact hc
    · exact hc
    · unfold S.notify
      split <;> exact hc
    · exact hc
  cases hb' : (s.read h).busy with
  | none => exact ⟨[.read], by simp [Own], hb', hcc, hin⟩
  | some b =>
    obtain ⟨more, o, h1, h2, h3, h4, -⟩ := finishes h b.prog (good_step h g .read) (waits_step h w .read) (by rw [e]; exact hcc)
      (by rw [e]; exact hb') rfl
    refine ⟨.read :: more, by simpa [Own] using h1, h2, h3, ?_⟩
    exact h4.trans hin

theorem drains (h : Request D → Prog D) : ∀ (l : List Bytes) {ops : List (Op D)} {s : S D}, Good h ops s → Waits s →
    s.pend.connected = true → s.busy = none → s.inbox = l →
    ∃ more, (∀ op ∈ more, Own op) ∧ (s.run h more).busy = none ∧ (s.run h more).pend.connected = true ∧
      (s.run h more).inbox = []
  | [], _, s, _, _, hc, hb, hi => ⟨[], by simp, hb, hc, hi⟩
  | m :: rest, _, s, g, w, hc, hb, hi => by
    obtain ⟨m1, h1, h2, h3, h4⟩ := takes h g w hc hb hi
    obtain ⟨m2, k1, k2, k3, k4⟩ := drains h rest (good_from h m1 g) (waits_run h m1 w) h3 h2 h4
    refine ⟨m1 ++ m2, ?_, ?_⟩
    · intro op hop
      rcases List.mem_append.1 hop with hop | hop
      · exact h1 op hop
      · exact k1 op hop
    · rw [run_app]; exact ⟨k2, k3, k4⟩

/-! ### Cancellation -/

/-- Specification: the message is the cancellation of the request with id text `i`. -/
def Cancels (m i : Bytes) : Prop := ∃ p : Option (JVal D), event m = .note ⟨lit "notifications/cancelled", p⟩ ∧ Names p i

structure Marks (s : S D) (hist : List (Cancel.Op D)) : Prop where
  st : s.cancel = after hist
  src : ∀ p, Cancel.Op.cancel p ∈ hist → ∃ m ∈ s.taken, event m = .note ⟨lit "notifications/cancelled", p⟩
  started : startedIds hist = (requestsIn s.taken).map (fun q : Request D => idText q.id)
  busy : ∀ b, s.busy = some b → ∃ h0 pre m, hist = .openSource b.call :: .start b.req.id :: h0 ∧ s.taken = pre ++ [m] ∧
    event m = .request b.req ∧ b.call = (requestsIn (D := D) pre).length ∧
    startedIds h0 = (requestsIn pre).map (fun q : Request D => idText q.id) ∧
    ∀ p, Cancel.Op.cancel p ∈ h0 → ∃ m' ∈ pre, event m' = .note ⟨lit "notifications/cancelled", p⟩
  seen : ∀ c, (c, true) ∈ s.seen → ∃ pre m post q, s.taken = pre ++ m :: post ∧ event (D := D) m = .request q ∧
    c = (requestsIn (D := D) pre).length ∧ ∃ m' ∈ pre, Cancels (D := D) m' (idText q.id)

theorem startedIds_cons (op : Cancel.Op D) (h : List (Cancel.Op D)) (hop : ∀ id, op ≠ .start id) :
    startedIds (op :: h) = startedIds h := by
  cases op with
  | start id => exact absurd rfl (hop id)
  | _ => rfl

theorem marks_step (h : Request D → Prog D) {s : S D} {hist : List (Cancel.Op D)} (k : Marks s hist) (op : Op D) :
    ∃ hist', Marks (s.step h op) hist' := by
  have keep : ∀ t : S D, t.cancel = s.cancel → t.taken = s.taken → t.seen = s.seen →
      (∀ b, t.busy = some b → ∃ b0, s.busy = some b0 ∧ b.call = b0.call ∧ b.req = b0.req) → Marks t hist := by
    intro t h1 h2 h3 h4
    refine ⟨h1.trans k.st, by rw [h2]; exact k.src, by rw [h2]; exact k.started, ?_, by rw [h2, h3]; exact k.seen⟩
    intro b hb
    obtain ⟨b0, e0, e1, e2⟩ := h4 b hb
    rw [h2, e1, e2]
    exact k.busy b0 e0
  have idle : ∀ b, s.busy = some b → ∃ b0, s.busy = some b0 ∧ b.call = b0.call ∧ b.req = b0.req :=
    fun b hb => ⟨b, hb, rfl, rfl⟩
  cases op with
  | read =>
    show ∃ hist', Marks (s.read h) hist'
    unfold S.read
    split
    · split
      · rename_i m rest hb hi
        have hsrc : ∀ p, Cancel.Op.cancel p ∈ hist → ∃ m' ∈ s.taken ++ [m], event m' = .note ⟨lit "notifications/cancelled", p⟩ := by
          intro p hp
          obtain ⟨m', h1, h2⟩ := k.src p hp
          exact ⟨m', List.mem_append_left _ h1, h2⟩
        have hseen : ∀ c, (c, true) ∈ s.seen → ∃ pre x post q, s.taken ++ [m] = pre ++ x :: post ∧ event (D := D) x = .request q ∧
            c = (requestsIn (D := D) pre).length ∧ ∃ m' ∈ pre, Cancels (D := D) m' (idText q.id) := by
          intro c hc
          obtain ⟨pre, x, post, q, e, r⟩ := k.seen c hc
          exact ⟨pre, x, post ++ [m], q, by rw [e]; simp, r⟩
        have nobusy : ∀ b, s.busy = some b → False := by intro b hb'; rw [hb] at hb'; cases hb'
        have plain : (∀ q, event (D := D) m ≠ .request q) → startedIds hist =
            (requestsIn (s.taken ++ [m])).map (fun q : Request D => idText q.id) := by
          intro hq
          rw [requestsIn_snoc]
          cases he : event (D := D) m with
          | request q => exact absurd he (hq q)
          | _ => simp [k.started]
        simp only
        split
        · rename_i r he
          exact ⟨hist, k.st, hsrc, plain (by rw [he]; simp), fun b hb' => (nobusy b hb').elim, hseen⟩
        · rename_i q he
          refine ⟨.openSource s.cancel.calls.length :: .start q.id :: hist, ?_, ?_, ?_, ?_, hseen⟩
          · show (s.cancel.step (D := D) (.start q.id)).step (D := D) (.openSource s.cancel.calls.length) = _
            rw [after_cons, after_cons, ← k.st]
          · intro p hp
            simp only [List.mem_cons] at hp
            rcases hp with hp | hp | hp
            · cases hp
            · cases hp
            · exact hsrc p hp
          · show startedIds (Cancel.Op.start q.id :: hist) = (requestsIn (s.taken ++ [m])).map (fun q : Request D => idText q.id)
            rw [requestsIn_snoc, he]
            show startedIds hist ++ [idText q.id] = _
            rw [k.started]
            simp
          · intro b hb'
            cases hb'
            refine ⟨hist, s.taken, m, rfl, rfl, he, ?_, k.started, k.src⟩
            show s.cancel.calls.length = _
            rw [k.st, ← List.length_map (f := Call.id), ids_after, k.started, List.length_map]
        · rename_i n he
          unfold S.notify
          split
          · rename_i hm
            refine ⟨.cancel n.params :: hist, ?_, ?_, ?_, fun b hb' => (nobusy b hb').elim, hseen⟩
            · show s.cancel.step (.cancel n.params) = _
              rw [after_cons, ← k.st]
            · intro p hp
              simp only [List.mem_cons] at hp
              rcases hp with hp | hp
              · cases hp
                refine ⟨m, by simp, ?_⟩
                rw [he, ← hm]
              · exact hsrc p hp
            · rw [startedIds_cons _ _ (by simp)]
              exact plain (by rw [he]; simp)
          · exact ⟨hist, k.st, hsrc, plain (by rw [he]; simp), fun b hb' => (nobusy b hb').elim, hseen⟩
        · rename_i he
          exact ⟨hist, k.st, hsrc, plain (by rw [he]; simp), fun b hb' => (nobusy b hb').elim, hseen⟩
      · exact ⟨hist, k⟩
    · exact ⟨hist, k⟩
  | work =>
    show ∃ hist', Marks s.work hist'
    unfold S.work
    split
    · exact ⟨hist, k⟩
    · rename_i b hb
      split
      · refine ⟨.finish b.call :: hist, ?_, ?_, ?_, by simp, k.seen⟩
        · show s.cancel.step (D := D) (.finish b.call) = _
          rw [after_cons, ← k.st]
        · intro p hp
          simp only [List.mem_cons] at hp
          rcases hp with hp | hp
          · cases hp
          · exact k.src p hp
        · rw [startedIds_cons _ _ (by simp)]
          exact k.started
      · rename_i kk hp
        obtain ⟨h0, pre, m, e1, e2, e3, e4, e5, e6⟩ := k.busy b hb
        refine ⟨hist, k.st, k.src, k.started, ?_, ?_⟩
        · intro b' hb'
          cases hb'
          exact ⟨h0, pre, m, e1, e2, e3, e4, e5, e6⟩
        · intro c hc
          have hc : (c, true) ∈ s.seen ++ [(b.call, (s.cancel.stopRequested b.call).getD false)] := hc
          simp only [List.mem_append, List.mem_singleton, Prod.mk.injEq] at hc
          rcases hc with hc | ⟨rfl, hf⟩
          · exact k.seen c hc
          · have hst : (after hist).stopRequested b.call = some true := by
              rw [← k.st]
              cases hq : s.cancel.stopRequested b.call with
              | none => rw [hq] at hf; simp at hf
              | some f => rw [hq] at hf; simp at hf; rw [hf]
            obtain ⟨i, p, h1, h2, h3⟩ := C26_stop_only_named hist b.call hst
            refine ⟨pre, m, [], b.req, e2, e3, e4, ?_⟩
            rw [e1] at h1 h2
            simp only [List.mem_cons] at h2
            rcases h2 with h2 | h2 | h2
            · cases h2
            · cases h2
            · obtain ⟨m', hm', he'⟩ := e6 p h2
              refine ⟨m', hm', p, he', ?_⟩
              have : i = idText b.req.id := by
                rw [startedIds_cons _ _ (by simp)] at h1
                have h1 : (startedIds h0 ++ [idText b.req.id])[b.call]? = some i := h1
                have hl : b.call = (startedIds h0).length := by rw [e5, List.length_map, e4]
                rw [hl] at h1
                simp at h1
                exact h1.symm
              rw [← this]; exact h3
      · exact ⟨hist, keep _ rfl rfl rfl (fun b' hb' => by cases hb'; exact ⟨b, hb, rfl, rfl⟩)⟩
      · split
        · exact ⟨hist, k⟩
        · exact ⟨hist, keep _ rfl rfl rfl (fun b' hb' => by cases hb'; exact ⟨b, hb, rfl, rfl⟩)⟩
  | file n now =>
    show ∃ hist', Marks (s.file n now) hist'
    unfold S.file
    split
    · exact ⟨hist, keep _ rfl rfl rfl idle⟩
    · exact ⟨hist, k⟩
  | arrive m => exact ⟨hist, keep _ rfl rfl rfl idle⟩
  | check q => exact ⟨hist, keep _ rfl rfl rfl idle⟩
  | sweep now => exact ⟨hist, keep _ rfl rfl rfl idle⟩
  | disconnect => exact ⟨hist, keep _ rfl rfl rfl idle⟩
  | close => exact ⟨hist, keep _ rfl rfl rfl idle⟩
  | setTimeout t => exact ⟨hist, keep _ rfl rfl rfl idle⟩

theorem marks_run (h : Request D → Prog D) (ops : List (Op D)) : ∃ hist, Marks ((S.init : S D).run h ops) hist := by
  have key : ∀ (ops : List (Op D)) (s : S D), (∃ hist, Marks s hist) → ∃ hist, Marks (s.run h ops) hist := by
    intro ops
    induction ops with
    | nil => intro s k; exact k
    | cons op ops ih => intro s ⟨_, k⟩; exact ih _ (marks_step h k op)
  exact key ops _ ⟨[], rfl, by simp, rfl, by simp [S.init], by simp [S.init]⟩

/-- The position of a request in a list of messages is fixed by the number of requests before it. -/
theorem place_unique {pre pre' post post' : List Bytes} {m m' : Bytes} {q q' : Request D} (e : pre ++ m :: post = pre' ++ m' :: post')
    (hm : event (D := D) m = .request q) (hm' : event (D := D) m' = .request q')
    (hl : (requestsIn (D := D) pre).length = (requestsIn (D := D) pre').length) : pre = pre' ∧ m = m' := by
  have cons : ∀ (l : List Bytes) (x : Bytes) (p : Request D), event (D := D) x = .request p →
      (requestsIn (D := D) (x :: l)).length = (requestsIn (D := D) l).length + 1 := by
    intro l x p hx
    unfold requestsIn
    rw [List.filterMap_cons, hx]
    rfl
  induction pre generalizing pre' with
  | nil =>
    cases pre' with
    | nil =>
      simp only [List.nil_append, List.cons.injEq] at e
      exact ⟨rfl, e.1⟩
    | cons x xs =>
      simp only [List.nil_append, List.cons_append, List.cons.injEq] at e
      rw [← e.1, cons _ _ _ hm] at hl
      simp [requestsIn] at hl
  | cons x xs ih =>
    cases pre' with
    | nil =>
      simp only [List.nil_append, List.cons_append, List.cons.injEq] at e
      rw [e.1, cons _ _ _ hm'] at hl
      simp [requestsIn] at hl
    | cons y ys =>
      simp only [List.cons_append, List.cons.injEq] at e
      obtain ⟨rfl, e2⟩ := e
      have : (requestsIn (D := D) xs).length = (requestsIn (D := D) ys).length := by
        unfold requestsIn at hl ⊢
        rw [List.filterMap_cons, List.filterMap_cons] at hl
        split at hl
        · exact hl
        · simpa using hl
      obtain ⟨r1, r2⟩ := ih e2 this
      exact ⟨by rw [r1], r2⟩

end Verif.Serve

namespace Verif

open Stdio Serve Cancel

variable {D : Type} [DblFmt D]

/-- **C94 is false of the stdio transport.** Whatever the handlers, whatever the other side writes, and however the threads are
scheduled: a handler that sends a request and waits for it is never told a response, but only that it timed out, that the
transport was closed or not connected, or that the promise was broken. -/
theorem C94_never_answered_counterexample (h : Request D → Prog D) (ops : List (Serve.Op D)) (n : Nat) (o : Outcome D)
    (ho : (n, o) ∈ ((S.init : S D).run h ops).heard) (r : Response D) : o ≠ .response r :=
  (good_run h ops).heard n o ho r

/-- C94 is false of the stdio transport: what a request is answered with is what its handler makes of the failure of every request
it sent itself. -/
theorem C94_answers_counterexample (h : Request D → Prog D) (ops : List (Serve.Op D)) (q : Request D) (o : HandlerOutcome D)
    (ho : (q, o) ∈ ((S.init : S D).run h ops).replies) : Leads (h q) (.done o) :=
  (good_run h ops).replied q o ho

/-- C94 is false of the stdio transport: while a handler waits for its request, the reader takes nothing of what the other side
writes, the answer included, and answers nothing. This ends only when the future completes. -/
theorem C94_blocked_counterexample (h : Request D → Prog D) (ops more : List (Serve.Op D)) (b : Busy D) (n : Nat)
    (hb : ((S.init : S D).run h ops).busy = some b) (hw : b.wait = some n)
    (hn : AMap.get ((S.init : S D).run h (ops ++ more)).pend.outcomes n = none) :
    ((S.init : S D).run h (ops ++ more)).busy = some b ∧
    ((S.init : S D).run h (ops ++ more)).taken = ((S.init : S D).run h ops).taken ∧
    ((S.init : S D).run h (ops ++ more)).inbox = ((S.init : S D).run h ops).inbox ++ arrivals more ∧
    ((S.init : S D).run h (ops ++ more)).replies = ((S.init : S D).run h ops).replies := by
  obtain ⟨q, k, hp⟩ := waits_run h ops (waits_init (D := D)) b n hb hw
  have g1 := (good_run h ops).arr
  have g2 := (good_run h (ops ++ more)).arr
  rw [run_app] at hn g2 ⊢
  obtain ⟨a1, a2, a3, -⟩ := blocked_run h hp hw more _ hb hn
  refine ⟨a1, a2, ?_, a3⟩
  rw [a2] at g2
  have : arrivals (ops ++ more) = arrivals ops ++ arrivals more := by simp [arrivals]
  rw [this, ← g1, List.append_assoc] at g2
  exact List.append_cancel_left g2

/-- C94 (partial): a handler that asks is not stuck for good. While connected, the time limits of its requests bring it to its end, and
it is answered; nothing is needed from the other side. Missing: the answer of the other side. -/
theorem C94_timeout_frees_partial (h : Request D → Prog D) (ops : List (Serve.Op D)) (b : Busy D)
    (hb : ((S.init : S D).run h ops).busy = some b) (hc : ((S.init : S D).run h ops).pend.connected = true) :
    ∃ more o, (∀ op ∈ more, Own op) ∧ ((S.init : S D).run h (ops ++ more)).busy = none ∧
      ((S.init : S D).run h (ops ++ more)).replies = ((S.init : S D).run h ops).replies ++ [(b.req, o)] := by
  obtain ⟨more, o, h1, h2, -, -, -, h3⟩ := finishes h b.prog (good_run h ops) (waits_run h ops waits_init) hc hb rfl
  exact ⟨more, o, h1, by rw [run_app]; exact h2, by rw [run_app]; exact h3⟩

/-- C95: what a handler reads from its stop token as a request to stop was written by the other side before the request itself. -/
theorem C95_seen_partial (h : Request D → Prog D) (ops : List (Serve.Op D)) (c : Nat)
    (hs : (c, true) ∈ ((S.init : S D).run h ops).seen) :
    ∃ pre m post q, arrivals ops = pre ++ m :: post ∧ event (D := D) m = .request q ∧ c = (requestsIn (D := D) pre).length ∧
      ∃ m' ∈ pre, Cancels (D := D) m' (idText q.id) := by
  obtain ⟨hist, k⟩ := marks_run h ops
  obtain ⟨pre, m, post, q, e, r⟩ := k.seen c hs
  exact ⟨pre, m, post ++ ((S.init : S D).run h ops).inbox, q, by rw [← (good_run h ops).arr, e]; simp, r⟩

/-- **C95 is false of the stdio transport.** A request that is not cancelled before it is sent: whatever the other side writes after
it, cancellations included, and however the threads are scheduled, its handler never reads its stop token as stopped. -/
theorem C95_unseen_counterexample (h : Request D → Prog D) (ops : List (Serve.Op D)) (pre post : List Bytes) (m : Bytes) (q : Request D)
    (ha : arrivals ops = pre ++ m :: post) (hm : event (D := D) m = .request q)
    (hpre : ∀ m' ∈ pre, ¬ Cancels (D := D) m' (idText q.id)) (f : Bool)
    (hs : ((requestsIn (D := D) pre).length, f) ∈ ((S.init : S D).run h ops).seen) : f = false := by
  cases f with
  | false => rfl
  | true =>
    obtain ⟨pre', m', post', q', e, hm', hl, x, hx, hxc⟩ := C95_seen_partial h ops _ hs
    obtain ⟨rfl, rfl⟩ := place_unique (ha.symm.trans e) hm hm' hl
    rw [hm] at hm'
    cases hm'
    exact absurd hxc (hpre x hx)

/-- **C96.** Requests are answered one at a time and in the order in which they came: what has been answered, followed by the request
being handled, are the requests among the messages taken, and those are a beginning of what the other side wrote. -/
theorem C96_in_order (h : Request D → Prog D) (ops : List (Serve.Op D)) :
    ∃ taken rest, arrivals ops = taken ++ rest ∧
      ((S.init : S D).run h ops).replies.map (·.1) ++ ((((S.init : S D).run h ops).busy).map Busy.req).toList = requestsIn taken :=
  ⟨_, _, (good_run h ops).arr.symm, (good_run h ops).order⟩

/-- **C96.** While the connection lasts the reader is never stuck for good: from every state there is a way on, needing nothing from
the other side, after which every request the other side has written is answered, in order. -/
theorem C96_never_stuck (h : Request D → Prog D) (ops : List (Serve.Op D)) (hc : ((S.init : S D).run h ops).pend.connected = true) :
    ∃ more, (∀ op ∈ more, Own op) ∧
      ((S.init : S D).run h (ops ++ more)).replies.map (·.1) = requestsIn (arrivals ops) := by
  have fin : ∀ more, (∀ op ∈ more, Own op) → ((S.init : S D).run h (ops ++ more)).busy = none →
      ((S.init : S D).run h (ops ++ more)).inbox = [] →
      ((S.init : S D).run h (ops ++ more)).replies.map (·.1) = requestsIn (arrivals ops) := by
    intro more h0 h1 h2
    have g := good_run h (ops ++ more)
    have e1 := g.order
    have e2 := g.arr
    rw [h1] at e1
    rw [h2, List.append_nil] at e2
    have : arrivals (ops ++ more) = arrivals ops ++ arrivals more := by simp [arrivals]
    rw [this, arrivals_own h0, List.append_nil] at e2
    rw [e2] at e1
    simpa using e1
  have w := waits_run h ops (waits_init (D := D))
  cases hb : ((S.init : S D).run h ops).busy with
  | none =>
    obtain ⟨more, h1, h2, -, h3⟩ := drains h _ (good_run h ops) w hc hb rfl
    exact ⟨more, h1, fin more h1 (by rw [run_app]; exact h2) (by rw [run_app]; exact h3)⟩
  | some b =>
    obtain ⟨m1, o, h1, h2, h3, h4, -⟩ := finishes h b.prog (good_run h ops) w hc hb rfl
    obtain ⟨m2, k1, k2, -, k3⟩ := drains h _ (good_from h m1 (good_run h ops)) (waits_run h m1 w) h3 h2 rfl
    refine ⟨m1 ++ m2, ?_, fin _ ?_ (by rw [run_app, run_app]; exact k2) (by rw [run_app, run_app]; exact k3)⟩ <;>
    · intro op hop
      rcases List.mem_append.1 hop with hop | hop
      · exact h1 op hop
      · exact k1 op hop

/-- **C96.** Handlers that send no requests and do not look at their stop tokens: each request is answered with what its handler does. -/
theorem C96_own_answer (f : Request D → HandlerOutcome D) (ops : List (Serve.Op D)) (q : Request D) (o : HandlerOutcome D)
    (ho : (q, o) ∈ ((S.init : S D).run (fun q => .done (f q)) ops).replies) : o = f q := by
  have := (good_run (fun q => .done (f q)) ops).replied q o ho
  have key : ∀ p : Prog D, Leads (.done (f q)) p → p = .done (f q) := by
    intro p hp
    induction hp with
    | refl => rfl
    | ask _ _ ih => cases ih
    | look _ _ ih => cases ih
  have := key _ this
  cases this; rfl

/-! ### Examples -/

/-- A tool that asks the other side and passes the answer on. -/
def relay (_ : Request Empty) : Prog Empty :=
  .ask ⟨.str (lit "s"), lit "sampling/createMessage", none⟩ (fun o => match o with
    | .response r => .done (.resp r)
    | _ => .done (.threw (lit "no answer")))

/-- A call of the tool, and the answer to the question of the tool. -/
def relayCall : Bytes := serRequest (D := Empty) ⟨.int 1, lit "tools/call", none⟩
def relayAnswer : Bytes := serResponse (D := Empty) ⟨.str (lit "s"), some (.int 5), none⟩

/-- The call is read, the question written, the answer arrives, and after 30 seconds the tool is told that there is none. -/
def relayOps : List (Serve.Op Empty) :=
  [.arrive relayCall, .read, .work, .file 0 0, .arrive relayAnswer, .read, .work, .sweep 29999, .work]

example : let s := (S.init : S Empty).run relay (relayOps ++ [.sweep 30000, .work, .work, .read])
    s.heard.map (fun p => (p.1, match p.2 with | .timeout k t => (k, t) | _ => ([], 0))) = [(0, lit "s", 30000)] ∧
    s.replies.map (fun p => (p.1.id, match p.2 with | .threw m => m | _ => [])) = [(.int 1, lit "no answer")] ∧
    s.taken = [relayCall, relayAnswer] ∧ s.out.length = 2 := by decide +kernel

example : let s := (S.init : S Empty).run relay relayOps
    s.busy.map (fun b => (b.req.id, b.wait)) = some (.int 1, some 0) ∧ s.inbox = [relayAnswer] ∧
    AMap.get s.pend.outcomes 0 = none ∧ s.pend.connected = true := by
  refine ⟨by decide +kernel, by decide +kernel, ?_, by decide +kernel⟩
  rw [AMap.get_none_iff]
  decide +kernel

/-- A tool that looks at its stop token twice. -/
def watchful (_ : Request Empty) : Prog Empty := .look (fun a => .look (fun b => .done (.threw (if a || b then lit "stopped" else lit "ran"))))

/-- The cancellation of the call, as this server reads it. -/
def cancelCall : Bytes := serNotification (D := Empty) ⟨lit "notifications/cancelled", some (.obj [(lit "id", .int 1)])⟩

/-- Sent after the call it has no effect on it; sent before the call it has. -/
example : ((S.init : S Empty).run watchful [.arrive relayCall, .read, .work, .arrive cancelCall, .read, .work, .work]).seen =
    [(0, false), (0, false)] ∧
    ((S.init : S Empty).run watchful [.arrive cancelCall, .read, .arrive relayCall, .read, .work]).seen = [(0, true)] := by
  decide +kernel

example : event (D := Empty) relayCall = .request ⟨.int 1, lit "tools/call", none⟩ ∧ Cancels (D := Empty) cancelCall (idText (.int 1)) := by
  refine ⟨by decide +kernel, some (.obj [(lit "id", .int 1)]), by decide +kernel, .int (m := [(lit "id", .int 1)]) (i := 1) (by decide +kernel)⟩

example : requestsIn (D := Empty) (arrivals (relayOps ++ [.arrive relayCall])) =
    [⟨.int 1, lit "tools/call", none⟩, ⟨.int 1, lit "tools/call", none⟩] := by decide +kernel

end Verif
