import Verif.Server.Notify
import Verif.Server.TaskCallProps

/-!
C29 (resource updates follow subscriptions) and C30 (log messages respect the level the client chose).
-/

set_option linter.unusedSectionVars false

namespace Verif

open Server Tasks Resource Validation
open Caps hiding Obj

variable {D H : Type}

/-! ### Specification -/

/-- The params of the request name the URI `u`. -/
def NamesUri (req : Request D) (u : Bytes) : Prop := ∃ m, req.params = some (.obj m) ∧ AMap.get m (lit "uri") = some (.str u)

def Subscribes (req : Request D) (u : Bytes) : Prop := req.method = lit "resources/subscribe" ∧ NamesUri req u

/-- An unsubscribe request that names `u`, or that names nothing (which means everything). -/
def Unsubscribes (req : Request D) (u : Bytes) : Prop := req.method = lit "resources/unsubscribe" ∧ ∀ v, NamesUri req v → v = u

/-- After the requests `h` the client is subscribed to `u`. -/
def Wants (h : List (Request D)) (u : Bytes) : Prop :=
  ∃ pre r post, h = pre ++ r :: post ∧ Subscribes r u ∧ ∀ q ∈ post, ¬ Unsubscribes q u

/-- The request of a step. -/
def reqOf : SrvOp D H → Option (Request D)
  | .request _ r => some r
  | _ => none

/-- The requests received. -/
def received (ops : List (SrvOp D H)) : List (Request D) := ops.filterMap reqOf

/-- The notification that tells of an update of `u`. -/
def updateNote (u : Bytes) : Notification D := ⟨lit "notifications/resources/updated", some (.obj [(lit "uri", .str u)])⟩

/-- The severities of the protocol, least severe first. -/
def scale : List Bytes :=
  [lit "debug", lit "info", lit "notice", lit "warning", lit "error", lit "critical", lit "alert", lit "emergency"]

/-- The text names the severity number `n`, in any letter case. -/
def Severity (t : Bytes) (n : Nat) : Prop := scale[n]? = some (t.map lowerCh)

instance (t : Bytes) (n : Nat) : Decidable (Severity t n) := inferInstanceAs (Decidable (scale[n]? = some (t.map lowerCh)))

/-- The request sets the minimum to severity `n`. -/
def SetsLevel (req : Request D) (n : Nat) : Prop :=
  req.method = lit "logging/setLevel" ∧ ∃ m t, req.params = some (.obj m) ∧ AMap.get m (lit "level") = some (.str t) ∧ Severity t n

/-- After the requests `h` the minimum is `n`: the last one set, or debug. -/
def Minimum (h : List (Request D)) (n : Nat) : Prop :=
  (∃ pre r post, h = pre ++ r :: post ∧ SetsLevel r n ∧ ∀ q ∈ post, ∀ k, ¬ SetsLevel q k) ∨
  (n = 0 ∧ ∀ q ∈ h, ∀ k, ¬ SetsLevel q k)

/-! ### What a dispatch does to the settings -/

/-- Subscriptions and minimum are left alone. -/
structure Kept (s s' : Srv D H) : Prop where
  flag : s'.resourcesSubscribed = s.resourcesSubscribed
  uris : s'.subscribedUris = s.subscribedUris
  min : s'.logMin = s.logMin

theorem kept_self (s : Srv D H) : Kept s s := ⟨rfl, rfl, rfl⟩

theorem dispatch_setLevel (env : Env D H) (s : Srv D H) (req : Request D) (hm : req.method = lit "logging/setLevel") :
    dispatch env s req = setLogLevel s req := by
  unfold dispatch
  rw [hm]
  rw [if_neg (by decide), if_neg (by decide), if_pos rfl]

theorem dispatch_subscribe (env : Env D H) (s : Srv D H) (req : Request D) (hm : req.method = lit "resources/subscribe") :
    dispatch env s req = subscribe s req := by
  unfold dispatch
  rw [hm]
  rw [if_neg (by decide), if_neg (by decide), if_neg (by decide), if_neg (by decide), if_neg (by decide), if_neg (by decide),
    if_neg (by decide), if_neg (by decide), if_neg (by decide), if_neg (by decide), if_neg (by decide), if_neg (by decide), if_pos rfl]

theorem dispatch_unsubscribe (env : Env D H) (s : Srv D H) (req : Request D) (hm : req.method = lit "resources/unsubscribe") :
    dispatch env s req = unsubscribe s req := by
  unfold dispatch
  rw [hm]
  rw [if_neg (by decide), if_neg (by decide), if_neg (by decide), if_neg (by decide), if_neg (by decide), if_neg (by decide),
    if_neg (by decide), if_neg (by decide), if_neg (by decide), if_neg (by decide), if_neg (by decide), if_neg (by decide),
    if_neg (by decide), if_pos rfl]

theorem dispatch_kept (env : Env D H) (s : Srv D H) (req : Request D) (h1 : req.method ≠ lit "logging/setLevel")
    (h2 : req.method ≠ lit "resources/subscribe") (h3 : req.method ≠ lit "resources/unsubscribe") : Kept s (dispatch env s req).2 := by
  unfold dispatch
  refine iteP (P := fun o : Out D × Srv D H => Kept s o.2) (fun hm => ?_) (fun _ => ?_); · exact kept_self _
  refine iteP (P := fun o : Out D × Srv D H => Kept s o.2) (fun hm => ?_) (fun _ => ?_); · exact ⟨rfl, rfl, rfl⟩
  refine iteP (P := fun o : Out D × Srv D H => Kept s o.2) (fun hm => ?_) (fun _ => ?_); · exact absurd hm h1
  refine iteP (P := fun o : Out D × Srv D H => Kept s o.2) (fun hm => ?_) (fun _ => ?_); · exact kept_self _
  refine iteP (P := fun o : Out D × Srv D H => Kept s o.2) (fun hm => ?_) (fun _ => ?_); · exact kept_self _
  refine iteP (P := fun o : Out D × Srv D H => Kept s o.2) (fun hm => ?_) (fun _ => ?_); · exact kept_self _
  refine iteP (P := fun o : Out D × Srv D H => Kept s o.2) (fun hm => ?_) (fun _ => ?_); · exact kept_self _
  refine iteP (P := fun o : Out D × Srv D H => Kept s o.2) (fun hm => ?_) (fun _ => ?_); · exact ⟨rfl, rfl, rfl⟩
  refine iteP (P := fun o : Out D × Srv D H => Kept s o.2) (fun hm => ?_) (fun _ => ?_)
  · rcases toolsCall_cases env s req with h | ⟨_, _, _, _, _, _, _, _, h⟩ | ⟨_, _, _, _, _, _, _, _, _, h⟩
    · show Kept s (toolsCall env s req).2
      rw [h]; exact kept_self _
    · show Kept s (toolsCall env s req).2
      rw [h]; exact ⟨rfl, rfl, rfl⟩
    · show Kept s (toolsCall env s req).2
      rw [h]; exact ⟨rfl, rfl, rfl⟩
  refine iteP (P := fun o : Out D × Srv D H => Kept s o.2) (fun hm => ?_) (fun _ => ?_); · exact kept_self _
  refine iteP (P := fun o : Out D × Srv D H => Kept s o.2) (fun hm => ?_) (fun _ => ?_); · exact kept_self _
  refine iteP (P := fun o : Out D × Srv D H => Kept s o.2) (fun hm => ?_) (fun _ => ?_); · exact kept_self _
  refine iteP (P := fun o : Out D × Srv D H => Kept s o.2) (fun hm => ?_) (fun _ => ?_); · exact absurd hm h2
  refine iteP (P := fun o : Out D × Srv D H => Kept s o.2) (fun hm => ?_) (fun _ => ?_); · exact absurd hm h3
  refine iteP (P := fun o : Out D × Srv D H => Kept s o.2) (fun hm => ?_) (fun _ => ?_); · exact kept_self _
  refine iteP (P := fun o : Out D × Srv D H => Kept s o.2) (fun hm => ?_) (fun _ => ?_); · exact kept_self _
  refine iteP (P := fun o : Out D × Srv D H => Kept s o.2) (fun hm => ?_) (fun _ => ?_); · exact kept_self _
  refine iteP (P := fun o : Out D × Srv D H => Kept s o.2) (fun hm => ?_) (fun _ => ?_); · exact kept_self _
  exact kept_self _

theorem setLogLevel_subs (s : Srv D H) (req : Request D) :
    (setLogLevel s req).2.resourcesSubscribed = s.resourcesSubscribed ∧ (setLogLevel s req).2.subscribedUris = s.subscribedUris := by
  unfold setLogLevel
  repeat' split
  all_goals exact ⟨rfl, rfl⟩

theorem work_kept (env : Env D H) (s : Srv D H) (k : Nat) : Kept s (s.work env k) := by
  unfold Srv.work
  repeat' split
  all_goals exact ⟨rfl, rfl, rfl⟩

theorem step_kept (s : Srv D H) (op : SrvOp D H) (h : reqOf op = none) : Kept s (s.step op) := by
  cases op with
  | request env req => exact absurd h (by simp [reqOf])
  | register c o => exact ⟨rfl, rfl, rfl⟩
  | worker env k => exact work_kept env s k
  | setStrict b => exact ⟨rfl, rfl, rfl⟩
  | setSampling h => exact ⟨rfl, rfl, rfl⟩
  | setCompletion h => exact ⟨rfl, rfl, rfl⟩

theorem received_snoc (ops : List (SrvOp D H)) (op : SrvOp D H) :
    received (ops ++ [op]) = received ops ++ (reqOf op).toList := by
  unfold received
  rw [List.filterMap_append]
  cases h : reqOf op <;> simp [h]

/-! ### C29 -/

theorem namesUri_iff (req : Request D) (u : Bytes) : (req.params.getD .null).strAt (lit "uri") = some u ↔ NamesUri req u := by
  rw [strAt_iff]
  unfold NamesUri
  cases req.params with
  | none => simp
  | some p => simp

theorem wants_snoc (h : List (Request D)) (r : Request D) (u : Bytes) :
    Wants (h ++ [r]) u ↔ Subscribes r u ∨ Wants h u ∧ ¬ Unsubscribes r u := by
  constructor
  · rintro ⟨pre, q, post, he, hs, hp⟩
    rcases List.eq_nil_or_concat post with rfl | ⟨post', x, rfl⟩
    · obtain ⟨_, hx⟩ := List.append_inj' (s₁ := h) (t₁ := [r]) (s₂ := pre) (t₂ := [q]) he rfl
      simp only [List.cons.injEq, and_true] at hx
      subst hx
      exact .inl hs
    · have he' : h ++ [r] = (pre ++ q :: post') ++ [x] := by simpa using he
      obtain ⟨h1, hx⟩ := List.append_inj' he' rfl
      simp only [List.cons.injEq, and_true] at hx
      subst hx
      exact .inr ⟨⟨pre, q, post', h1, hs, fun y hy => hp y (by simp [hy])⟩, hp r (by simp)⟩
  · rintro (hs | ⟨⟨pre, q, post, he, hs, hp⟩, hn⟩)
    · exact ⟨h, r, [], rfl, hs, fun _ hq => absurd hq (by simp)⟩
    · refine ⟨pre, q, post ++ [r], by simp [he], hs, fun y hy => ?_⟩
      rcases List.mem_append.1 hy with hy | hy
      · exact hp y hy
      · simp only [List.mem_singleton] at hy
        subst hy
        exact hn

theorem sub_mem (l : List Bytes) (o : Option Bytes) (u : Bytes) :
    u ∈ (match o with | some v => if l.contains v then l else l ++ [v] | none => l) ↔ u ∈ l ∨ o = some u := by
  cases o with
  | none => simp
  | some v =>
    by_cases hc : v ∈ l
    · simp only [List.contains_iff_mem.2 hc, if_true, Option.some.injEq]
      constructor
      · exact .inl
      · rintro (h | rfl)
        · exact h
        · exact hc
    · have : l.contains v = false := by
        cases h : l.contains v with
        | false => rfl
        | true => exact absurd (List.contains_iff_mem.1 h) hc
      simp only [this, Bool.false_eq_true, if_false, List.mem_append, List.mem_singleton, Option.some.injEq]
      exact or_congr Iff.rfl eq_comm

theorem unsub_mem (l : List Bytes) (o : Option Bytes) (u : Bytes) :
    u ∈ (match o with | some v => l.filter (fun x => decide (x ≠ v)) | none => []) ↔ u ∈ l ∧ ∃ v, o = some v ∧ u ≠ v := by
  cases o with
  | none => simp
  | some v => simp

theorem not_unsubscribes (req : Request D) (u : Bytes) (hm : req.method = lit "resources/unsubscribe") :
    ¬ Unsubscribes req u ↔ ∃ v, (req.params.getD .null).strAt (lit "uri") = some v ∧ u ≠ v := by
  unfold Unsubscribes
  constructor
  · intro h
    apply Decidable.byContradiction
    intro hc
    refine h ⟨hm, fun v hv => ?_⟩
    apply Decidable.byContradiction
    intro hvu
    exact hc ⟨v, (namesUri_iff req v).2 hv, fun e => hvu e.symm⟩
  · rintro ⟨v, hv, hne⟩ ⟨_, h⟩
    exact hne (h v ((namesUri_iff req v).1 hv)).symm

/-- The state knows exactly the subscriptions of the history. -/
structure Follows (s : Srv D H) (h : List (Request D)) : Prop where
  mem : ∀ u, u ∈ s.subscribedUris ↔ Wants h u
  flag : s.subscribedUris ≠ [] → s.resourcesSubscribed = true

theorem follows_kept {s s' : Srv D H} {h : List (Request D)} (hf : Follows s h) (k : Kept s s') : Follows s' h :=
  ⟨fun u => by rw [k.uris]; exact hf.mem u, fun hn => by rw [k.flag]; exact hf.flag (by rw [← k.uris]; exact hn)⟩

theorem follows_request {s : Srv D H} {h : List (Request D)} (hf : Follows s h) (env : Env D H) (req : Request D) :
    Follows (dispatch env s req).2 (h ++ [req]) := by
  by_cases h2 : req.method = lit "resources/subscribe"
  · rw [dispatch_subscribe env s req h2]
    refine ⟨fun u => ?_, fun _ => rfl⟩
    show u ∈ (match (req.params.getD .null).strAt (lit "uri") with
      | some v => if s.subscribedUris.contains v then s.subscribedUris else s.subscribedUris ++ [v] | none => s.subscribedUris) ↔ _
    rw [sub_mem, wants_snoc, hf.mem u, namesUri_iff]
    have hn : ¬ Unsubscribes req u := fun hx => absurd (h2.symm.trans hx.1) (by decide)
    constructor
    · rintro (hw | hu)
      · exact .inr ⟨hw, hn⟩
      · exact .inl ⟨h2, hu⟩
    · rintro (hw | hu)
      · exact .inr hw.2
      · exact .inl hu.1
  · by_cases h3 : req.method = lit "resources/unsubscribe"
    · rw [dispatch_unsubscribe env s req h3]
      refine ⟨fun u => ?_, fun hne => ?_⟩
      · show u ∈ (match (req.params.getD .null).strAt (lit "uri") with
          | some v => s.subscribedUris.filter (fun x => decide (x ≠ v)) | none => []) ↔ _
        rw [unsub_mem, wants_snoc, hf.mem u, not_unsubscribes req u h3]
        constructor
        · exact .inr
        · rintro (hs | h)
          · exact absurd (h3.symm.trans hs.1) (by decide)
          · exact h
      · show (!List.isEmpty _) = true
        change (match (req.params.getD .null).strAt (lit "uri") with
          | some v => s.subscribedUris.filter (fun x => decide (x ≠ v)) | none => []) ≠ [] at hne
        generalize hx : (match (req.params.getD .null).strAt (lit "uri") with
          | some v => s.subscribedUris.filter (fun x => decide (x ≠ v)) | none => []) = x at hne
        cases x with
        | nil => exact absurd rfl hne
        | cons a t => exact congrArg (fun l : List Bytes => !l.isEmpty) hx
    · have hw : ∀ u, Wants (h ++ [req]) u ↔ Wants h u := by
        intro u
        rw [wants_snoc]
        constructor
        · rintro (hs | h)
          · exact absurd hs.1 h2
          · exact h.1
        · exact fun h => .inr ⟨h, fun hx => h3 hx.1⟩
      by_cases h1 : req.method = lit "logging/setLevel"
      · rw [dispatch_setLevel env s req h1]
        obtain ⟨e1, e2⟩ := setLogLevel_subs s req
        exact ⟨fun u => by rw [e2, hw]; exact hf.mem u, fun hn => by rw [e1]; exact hf.flag (by rw [← e2]; exact hn)⟩
      · obtain ⟨a, b⟩ := follows_kept hf (dispatch_kept env s req h1 h2 h3)
        exact ⟨fun u => (a u).trans (hw u).symm, b⟩

theorem follows_run (name : Bytes) (ops : List (SrvOp D H)) : Follows ((Srv.init name : Srv D H).run ops) (received ops) := by
  induction h : ops.reverse generalizing ops with
  | nil =>
    have : ops = [] := by simpa using h
    subst this
    refine ⟨fun u => ⟨fun hm => absurd hm (by simp [Srv.run, Srv.init]), ?_⟩, fun hn => absurd rfl hn⟩
    rintro ⟨pre, r, post, he, _⟩
    exact absurd he (by simp [received])
  | cons op t ih =>
    have ho : ops = t.reverse ++ [op] := by
      have := congrArg List.reverse h
      simpa using this
    subst ho
    have := ih t.reverse (by simp)
    rw [srv_run_append, received_snoc]
    show Follows (Srv.step _ op) _
    cases hop : reqOf op with
    | none =>
      simp only [Option.toList_none, List.append_nil]
      exact follows_kept this (step_kept _ op hop)
    | some r =>
      cases op with
      | request env req =>
        simp only [reqOf, Option.some.injEq] at hop
        subst hop
        exact follows_request this env req
      | _ => exact absurd hop (by simp [reqOf])

/-- **C29.** As long as the client is subscribed to something, an update of a URI is announced exactly when the client is subscribed to
that URI, whatever else it has sent; the announcement names the URI. Missing: a client subscribed to nothing. -/
theorem C29_subscribed_partial (name : Bytes) (ops : List (SrvOp D H)) (u : Bytes) (h : ∃ v, Wants (received ops) v) :
    (((Srv.init name : Srv D H).run ops).notifyUpdated u = some (updateNote u) ↔ Wants (received ops) u) ∧
    (((Srv.init name : Srv D H).run ops).notifyUpdated u = none ↔ ¬ Wants (received ops) u) := by
  obtain ⟨hm, hf⟩ := follows_run (H := H) name ops
  obtain ⟨v, hv⟩ := h
  have hmv := (hm v).2 hv
  have hne : ((Srv.init name : Srv D H).run ops).subscribedUris ≠ [] := fun e => by rw [e] at hmv; exact absurd hmv (by simp)
  have hflag := hf hne
  have hemp : ((Srv.init name : Srv D H).run ops).subscribedUris.isEmpty = false := by
    cases hx : ((Srv.init name : Srv D H).run ops).subscribedUris with
    | nil => exact absurd hx hne
    | cons a t => rfl
  unfold Srv.notifyUpdated shouldSend
  rw [hflag, hemp, ← hm u]
  cases hc : ((Srv.init name : Srv D H).run ops).subscribedUris.contains u with
  | true =>
    have := List.contains_iff_mem.1 hc
    simp [this, updateNote]
  | false =>
    have : u ∉ ((Srv.init name : Srv D H).run ops).subscribedUris := fun hx => by
      rw [List.contains_iff_mem.2 hx] at hc; exact absurd hc (by decide)
    simp [this]

def subReq (method uri : String) : Request Empty := ⟨.int 1, lit method, some (.obj [(lit "uri", .str (lit uri))])⟩

example : Wants [subReq "resources/subscribe" "a", subReq "resources/subscribe" "b", subReq "resources/unsubscribe" "a"] (lit "b") :=
  ⟨[subReq "resources/subscribe" "a"], subReq "resources/subscribe" "b", [subReq "resources/unsubscribe" "a"], rfl,
    ⟨rfl, _, rfl, rfl⟩, fun q hq => by
      simp only [List.mem_singleton] at hq
      subst hq
      rintro ⟨_, hx⟩
      exact absurd (hx (lit "a") ⟨_, rfl, rfl⟩) (by decide)⟩

example : ¬ Wants [subReq "resources/subscribe" "a", subReq "resources/unsubscribe" "a"] (lit "a") := by
  have h : [subReq "resources/subscribe" "a", subReq "resources/unsubscribe" "a"] =
      [subReq "resources/subscribe" "a"] ++ [subReq "resources/unsubscribe" "a"] := rfl
  rw [h, wants_snoc]
  rintro (⟨hx, _⟩ | ⟨_, hx⟩)
  · exact absurd hx (by decide)
  · refine hx ⟨rfl, fun v hv => ?_⟩
    obtain ⟨m, hm, hg⟩ := hv
    simp only [subReq, Option.some.injEq, JVal.obj.injEq] at hm
    subst hm
    exact (JVal.str.inj (Option.some.inj hg)).symm

/-- **C29, false as stated.** A client that is subscribed to nothing (it never subscribed, or it has cancelled every subscription) is
sent every update. -/
theorem C29_unsubscribed_counterexample (name : Bytes) (ops : List (SrvOp D H)) (u : Bytes) (h : ∀ v, ¬ Wants (received ops) v) :
    ((Srv.init name : Srv D H).run ops).notifyUpdated u = some (updateNote u) := by
  obtain ⟨hm, _⟩ := follows_run (H := H) name ops
  have : ((Srv.init name : Srv D H).run ops).subscribedUris = [] := by
    cases hx : ((Srv.init name : Srv D H).run ops).subscribedUris with
    | nil => rfl
    | cons a t => exact absurd ((hm a).1 (by rw [hx]; simp)) (h a)
  unfold Srv.notifyUpdated shouldSend
  rw [this]
  simp [updateNote]

/-- In the history of events, `u` was inserted and not erased since. -/
def Inserted (h : List SubEv) (u : Bytes) : Prop :=
  ∃ pre post, h = pre ++ .inserted u :: post ∧ .erased none ∉ post ∧ .erased (some u) ∉ post

theorem inserted_snoc (h : List SubEv) (e : SubEv) (u : Bytes) :
    Inserted (h ++ [e]) u ↔ e = .inserted u ∨ Inserted h u ∧ e ≠ .erased none ∧ e ≠ .erased (some u) := by
  constructor
  · rintro ⟨pre, post, he, h1, h2⟩
    rcases List.eq_nil_or_concat post with rfl | ⟨post', x, rfl⟩
    · obtain ⟨_, hx⟩ := List.append_inj' (s₁ := h) (t₁ := [e]) (s₂ := pre) (t₂ := [SubEv.inserted u]) he rfl
      simp only [List.cons.injEq, and_true] at hx
      exact .inl hx
    · have he' : h ++ [e] = (pre ++ .inserted u :: post') ++ [x] := by simpa using he
      obtain ⟨h0, hx⟩ := List.append_inj' he' rfl
      simp only [List.cons.injEq, and_true] at hx
      subst hx
      simp only [List.concat_eq_append, List.mem_append, List.mem_singleton, not_or] at h1 h2
      exact .inr ⟨⟨pre, post', h0, h1.1, h2.1⟩, fun e => h1.2 e.symm, fun e => h2.2 e.symm⟩
  · rintro (rfl | ⟨⟨pre, post, he, h1, h2⟩, hn, hs⟩)
    · exact ⟨h, [], rfl, by simp, by simp⟩
    · refine ⟨pre, post ++ [e], by simp [he], ?_, ?_⟩
      · simp only [List.mem_append, List.mem_singleton, not_or]
        exact ⟨h1, fun x => hn x.symm⟩
      · simp only [List.mem_append, List.mem_singleton, not_or]
        exact ⟨h2, fun x => hs x.symm⟩

/-- The set holds what was inserted and not erased, and every update of a subscribed URI so far was announced. -/
structure SubsOk (s : Subs) : Prop where
  mem : ∀ u, u ∈ s.uris ↔ Inserted s.hist u
  sent : ∀ pre u post, s.hist = pre ++ .update u false :: post → ¬ Inserted pre u

theorem update_last {h : List SubEv} {e : SubEv} (he : ∀ u, e = .update u false → ¬ Inserted h u)
    (hs : ∀ pre u post, h = pre ++ .update u false :: post → ¬ Inserted pre u) :
    ∀ pre u post, h ++ [e] = pre ++ .update u false :: post → ¬ Inserted pre u := by
  intro pre u post hx
  rcases List.eq_nil_or_concat post with rfl | ⟨post', x, rfl⟩
  · obtain ⟨h0, hy⟩ := List.append_inj' (s₁ := h) (t₁ := [e]) (s₂ := pre) (t₂ := [SubEv.update u false]) hx rfl
    simp only [List.cons.injEq, and_true] at hy
    subst h0
    exact he u hy
  · have he' : h ++ [e] = (pre ++ .update u false :: post') ++ [x] := by simpa using hx
    obtain ⟨h0, _⟩ := List.append_inj' he' rfl
    exact hs pre u post' h0

theorem subsOk_step (s : Subs) (op : SubOp) (h : SubsOk s) : SubsOk (s.step op) := by
  obtain ⟨hm, hs⟩ := h
  cases op with
  | subscribe o => exact ⟨hm, hs⟩
  | update u => exact ⟨hm, hs⟩
  | unsubscribe o =>
    refine ⟨fun u => ?_, update_last (by simp) hs⟩
    show u ∈ dropUri s.uris o ↔ Inserted (s.hist ++ [.erased o]) u
    rw [inserted_snoc, ← hm u]
    cases o with
    | none => simp [dropUri]
    | some v =>
      simp only [dropUri, List.mem_filter, decide_eq_true_eq, reduceCtorEq, false_or, ne_eq, SubEv.erased.injEq, not_false_eq_true, true_and,
        Option.some.injEq]
      exact and_congr Iff.rfl ⟨fun h e => h e.symm, fun h e => h e.symm⟩
  | go k =>
    cases hk : s.threads[k]? with
    | none =>
      have : s.step (.go k) = s := by simp [Subs.step, hk]
      rw [this]
      exact ⟨hm, hs⟩
    | some st =>
      have : s.step (.go k) = s.advance k st := by simp [Subs.step, hk]
      rw [this]
      cases st with
      | insert o =>
        cases o with
        | none => exact ⟨hm, hs⟩
        | some v =>
          refine ⟨fun u => ?_, update_last (by simp) hs⟩
          show u ∈ addUri s.uris v ↔ Inserted (s.hist ++ [.inserted v]) u
          rw [inserted_snoc, ← hm u]
          have := sub_mem s.uris (some v) u
          unfold addUri
          simp only at this
          rw [this]
          simp [or_comm]
      | look => exact ⟨hm, hs⟩
      | store b => exact ⟨hm, hs⟩
      | check v f =>
        refine ⟨fun u => ?_, update_last (fun u hu hi => ?_) hs⟩
        · show u ∈ s.uris ↔ Inserted (s.hist ++ [.update v (shouldSend f s.uris v)]) u
          rw [inserted_snoc, ← hm u]
          simp
        · simp only [SubEv.update.injEq] at hu
          obtain ⟨rfl, hsend⟩ := hu
          have : s.uris.contains v = true := List.contains_iff_mem.2 ((hm v).2 hi)
          unfold shouldSend at hsend
          rw [this] at hsend
          cases f <;> simp at hsend

theorem subsOk_run (ops : List SubOp) (s : Subs) (h : SubsOk s) : SubsOk (s.run ops) := by
  unfold Subs.run
  induction ops generalizing s with
  | nil => exact h
  | cons o t ih => exact ih _ (subsOk_step s o h)

/-- **C29.** However subscription requests and updates overlap, the update of a URI that is in the set of subscriptions is announced. -/
theorem C29_never_missed (ops : List SubOp) (pre : List SubEv) (u : Bytes) (sent : Bool) (post : List SubEv)
    (h : (Subs.init.run ops).hist = pre ++ .update u sent :: post) (hi : Inserted pre u) : sent = true := by
  have hk : SubsOk (Subs.init.run ops) := by
    exact subsOk_run ops _ ⟨fun u => ⟨fun hm => absurd hm (by simp [Subs.init]), fun ⟨pre, post, he, _⟩ => absurd he (by simp [Subs.init])⟩,
      fun pre u post he => absurd he (by simp [Subs.init])⟩
  cases sent with
  | true => rfl
  | false => exact absurd hi (hk.sent _ _ _ h)

/-- Subscribe to `a` and update it. -/
example : (Subs.init.run [.subscribe (some (lit "a")), .go 0, .update (lit "b"), .update (lit "a"), .go 0, .go 0]).hist =
    [.inserted (lit "a"), .update (lit "b") false, .update (lit "a") true] := by decide +kernel

/-- **C29, false for overlapping requests.** An unsubscribe request that looks at the set before, and stores the flag after, a concurrent
subscribe request leaves the filter switched off: though the client is subscribed to `a` only and no request is under way, every later
update is announced until the next subscription request. -/
theorem C29_flag_race_counterexample : ∃ ops : List SubOp,
    (Subs.init.run ops).threads = [] ∧ (Subs.init.run ops).uris = [lit "a"] ∧ Inserted (Subs.init.run ops).hist (lit "a") ∧
    ∀ u, ((Subs.init.run ops).run [.update u, .go 0]).hist = (Subs.init.run ops).hist ++ [.update u true] := by
  refine ⟨[.unsubscribe none, .go 0, .subscribe (some (lit "a")), .go 1, .go 0], by decide +kernel, by decide +kernel,
    ⟨[.erased none], [], by decide +kernel, by simp, by simp⟩, fun u => rfl⟩

/-! ### C30 -/

theorem lower_upper (c : Char) : lowerCh (upperCh c) = lowerCh c := by
  unfold upperCh
  split
  · rename_i h
    have h1 : c.toNat - 32 < 0xd800 := by have := h.2; simp at this; omega
    have hv : (c.toNat - 32).isValidChar := .inl h1
    have ht : (Char.ofNat (c.toNat - 32)).toNat = c.toNat - 32 := by unfold Char.ofNat; rw [dif_pos hv]; rfl
    unfold lowerCh
    have ha : 'a'.toNat = 97 := rfl
    have hz : 'z'.toNat = 122 := rfl
    have hA : 'A'.toNat = 65 := rfl
    have hZ : 'Z'.toNat = 90 := rfl
    rw [ha, hz] at h
    rw [if_pos (by rw [ht, hA, hZ]; omega), if_neg (by rw [hA, hZ]; omega), ht]
    have : c.toNat - 32 + 32 = c.toNat := by omega
    rw [this]
    exact Char.ofNat_toNat c
  · rfl

theorem upper_lower (c : Char) : upperCh (lowerCh c) = upperCh c := by
  unfold lowerCh
  split
  · rename_i h
    have ha : 'a'.toNat = 97 := rfl
    have hz : 'z'.toNat = 122 := rfl
    have hA : 'A'.toNat = 65 := rfl
    have hZ : 'Z'.toNat = 90 := rfl
    rw [hA, hZ] at h
    have hv : (c.toNat + 32).isValidChar := .inl (by omega)
    have ht : (Char.ofNat (c.toNat + 32)).toNat = c.toNat + 32 := by unfold Char.ofNat; rw [dif_pos hv]; rfl
    unfold upperCh
    rw [if_pos (by rw [ht, ha, hz]; omega), if_neg (by rw [ha, hz]; omega), ht]
    have : c.toNat + 32 - 32 = c.toNat := by omega
    rw [this]
    exact Char.ofNat_toNat c
  · rfl

/-- Upper-case comparison of texts is lower-case comparison. -/
theorem upper_eq_iff (t w : Bytes) : t.map upperCh = w.map upperCh ↔ t.map lowerCh = w.map lowerCh := by
  constructor
  · intro h
    have := congrArg (List.map lowerCh) h
    simpa [List.map_map, Function.comp_def, lower_upper] using this
  · intro h
    have := congrArg (List.map upperCh) h
    simpa [List.map_map, Function.comp_def, upper_lower] using this

theorem levelFromString_lower (t : Bytes) : levelFromString t = levelFromString (t.map lowerCh) := by
  unfold levelFromString
  simp only [List.map_map, Function.comp_def, upper_lower]

/-- The internal level that stands for a minimum severity. -/
def floorLevel : Nat → Level
  | 0 => .debug | 1 => .info | 2 => .info | 3 => .warn | _ => .error

theorem levelNamed_iff (t : Bytes) (n : Nat) (h : Severity t n) : levelNamed t = some (floorLevel n) := by
  unfold Severity scale at h
  unfold levelNamed
  match n, h with
  | 0, h => simp only [List.getElem?_cons_zero, Option.some.injEq] at h; rw [← h]; rfl
  | 1, h => simp at h; rw [← h]; rfl
  | 2, h => simp at h; rw [← h]; rfl
  | 3, h => simp at h; rw [← h]; rfl
  | 4, h => simp at h; rw [← h]; rfl
  | 5, h => simp at h; rw [← h]; rfl
  | 6, h => simp at h; rw [← h]; rfl
  | 7, h => simp at h; rw [← h]; rfl
  | n + 8, h => simp at h

theorem levelNamed_some (t : Bytes) (l : Level) (h : levelNamed t = some l) : ∃ n, Severity t n := by
  unfold levelNamed at h
  simp only at h
  generalize hx : t.map lowerCh = x at h
  unfold Severity
  rw [hx]
  by_cases h1 : x = lit "debug"
  · exact ⟨0, by rw [h1]; rfl⟩
  rw [if_neg h1] at h
  by_cases h2 : x = lit "info" ∨ x = lit "notice"
  · rcases h2 with h2 | h2
    · exact ⟨1, by rw [h2]; rfl⟩
    · exact ⟨2, by rw [h2]; rfl⟩
  rw [if_neg h2] at h
  by_cases h3 : x = lit "warning"
  · exact ⟨3, by rw [h3]; rfl⟩
  rw [if_neg h3] at h
  by_cases h4 : x = lit "error" ∨ x = lit "critical" ∨ x = lit "alert" ∨ x = lit "emergency"
  · rcases h4 with h4 | h4 | h4 | h4
    · exact ⟨4, by rw [h4]; rfl⟩
    · exact ⟨5, by rw [h4]; rfl⟩
    · exact ⟨6, by rw [h4]; rfl⟩
    · exact ⟨7, by rw [h4]; rfl⟩
  rw [if_neg h4] at h
  exact absurd h (by simp)

theorem setLogLevel_sets (s : Srv D H) (req : Request D) (n : Nat) (h : SetsLevel req n) : (setLogLevel s req).2.logMin = floorLevel n := by
  obtain ⟨_, m, t, hp, hg, hs⟩ := h
  unfold setLogLevel
  simp only [hp, hg, levelNamed_iff t n hs]

theorem setLogLevel_keeps (s : Srv D H) (req : Request D) (hm : req.method = lit "logging/setLevel") (h : ∀ n, ¬ SetsLevel req n) :
    (setLogLevel s req).2.logMin = s.logMin := by
  unfold setLogLevel
  split
  · rename_i o hp
    split
    · rename_i t hg
      cases hl : levelNamed t with
      | none => rfl
      | some l =>
        obtain ⟨n, hn⟩ := levelNamed_some t l hl
        exact absurd ⟨hm, o, t, hp, hg, hn⟩ (h n)
    · rfl
  · rfl

theorem minimum_snoc_set (h : List (Request D)) (r : Request D) (n k : Nat) (hk : Minimum (h ++ [r]) n) (hr : SetsLevel r k) : SetsLevel r n := by
  rcases hk with ⟨pre, q, post, he, hs, hp⟩ | ⟨_, hp⟩
  · rcases List.eq_nil_or_concat post with rfl | ⟨post', x, rfl⟩
    · obtain ⟨_, hx⟩ := List.append_inj' (s₁ := h) (t₁ := [r]) (s₂ := pre) (t₂ := [q]) he rfl
      simp only [List.cons.injEq, and_true] at hx
      subst hx
      exact hs
    · have he' : h ++ [r] = (pre ++ q :: post') ++ [x] := by simpa using he
      obtain ⟨_, hx⟩ := List.append_inj' he' rfl
      simp only [List.cons.injEq, and_true] at hx
      subst hx
      exact absurd hr (hp r (by simp) k)
  · exact absurd hr (hp r (by simp) k)

theorem minimum_snoc_other (h : List (Request D)) (r : Request D) (n : Nat) (hk : Minimum (h ++ [r]) n) (hr : ∀ k, ¬ SetsLevel r k) :
    Minimum h n := by
  rcases hk with ⟨pre, q, post, he, hs, hp⟩ | ⟨h0, hp⟩
  · rcases List.eq_nil_or_concat post with rfl | ⟨post', x, rfl⟩
    · obtain ⟨_, hx⟩ := List.append_inj' (s₁ := h) (t₁ := [r]) (s₂ := pre) (t₂ := [q]) he rfl
      simp only [List.cons.injEq, and_true] at hx
      subst hx
      exact absurd hs (hr n)
    · have he' : h ++ [r] = (pre ++ q :: post') ++ [x] := by simpa using he
      obtain ⟨h0, _⟩ := List.append_inj' he' rfl
      exact .inl ⟨pre, q, post', h0, hs, fun y hy => hp y (by simp [hy])⟩
  · exact .inr ⟨h0, fun q hq => hp q (by simp [hq])⟩

/-- The minimum in force is the one the history chose. -/
theorem logMin_run (name : Bytes) (ops : List (SrvOp D H)) (n : Nat) (hn : Minimum (received ops) n) :
    ((Srv.init name : Srv D H).run ops).logMin = floorLevel n := by
  induction h : ops.reverse generalizing ops with
  | nil =>
    have : ops = [] := by simpa using h
    subst this
    rcases hn with ⟨pre, q, post, he, _⟩ | ⟨rfl, _⟩
    · exact absurd he (by simp [received])
    · rfl
  | cons op t ih =>
    have ho : ops = t.reverse ++ [op] := by
      have := congrArg List.reverse h
      simpa using this
    subst ho
    rw [received_snoc] at hn
    rw [srv_run_append]
    show (Srv.step _ op).logMin = _
    cases hop : reqOf op with
    | none =>
      rw [hop] at hn
      simp only [Option.toList_none, List.append_nil] at hn
      rw [(step_kept _ op hop).min]
      exact ih t.reverse hn (by simp)
    | some r =>
      cases op with
      | request env req =>
        simp only [reqOf, Option.some.injEq] at hop
        subst hop
        simp only [reqOf, Option.toList_some] at hn
        show (dispatch env _ req).2.logMin = _
        by_cases hm : req.method = lit "logging/setLevel"
        · rw [dispatch_setLevel env _ req hm]
          by_cases hs : ∃ k, SetsLevel req k
          · obtain ⟨k, hk⟩ := hs
            exact setLogLevel_sets _ req n (minimum_snoc_set _ req n k hn hk)
          · have hs' : ∀ k, ¬ SetsLevel req k := fun k hk => hs ⟨k, hk⟩
            rw [setLogLevel_keeps _ req hm hs']
            exact ih t.reverse (minimum_snoc_other _ req n hn hs') (by simp)
        · have hs' : ∀ k, ¬ SetsLevel req k := fun k hk => hm hk.1
          have hih := ih t.reverse (minimum_snoc_other _ req n hn hs') (by simp)
          rw [← hih]
          by_cases h2 : req.method = lit "resources/subscribe"
          · rw [dispatch_subscribe env _ req h2]; rfl
          · by_cases h3 : req.method = lit "resources/unsubscribe"
            · rw [dispatch_unsubscribe env _ req h3]; rfl
            · exact (dispatch_kept env _ req hm h2 h3).min
      | _ => exact absurd hop (by simp [reqOf])

theorem passes_iff (m n : Nat) (hm : m = 0 ∨ m = 1 ∨ m = 3 ∨ m = 4) (hn : n = 0 ∨ n = 1 ∨ n = 3 ∨ n = 4) :
    passesLevel (floorLevel n) (floorLevel m) = true ↔ n ≤ m := by
  rcases hm with rfl | rfl | rfl | rfl <;> rcases hn with rfl | rfl | rfl | rfl <;> decide

theorem levelFromString_severity (t : Bytes) (m : Nat) (h : Severity t m) (hm : m = 0 ∨ m = 1 ∨ m = 3 ∨ m = 4) :
    levelFromString t = floorLevel m ∧ specLevel (floorLevel m) = t.map lowerCh := by
  rw [levelFromString_lower]
  unfold Severity scale at h
  rcases hm with rfl | rfl | rfl | rfl <;> simp at h <;> rw [← h] <;> exact ⟨by decide +kernel, by decide +kernel⟩

/-- **C30.** If the message's level and the minimum are debug, info, warning or error (in any letter case), the message is sent exactly
when its severity reaches the minimum, with its level in lower case, and with the data given (or else the text). Missing: the other four
severities, for which the claim is false. -/
theorem C30_levels_partial (name : Bytes) (ops : List (SrvOp D H)) (level msg : Bytes) (data : Option (JVal D)) (m n : Nat)
    (hn : Minimum (received ops) n) (hl : Severity level m) (hm4 : m = 0 ∨ m = 1 ∨ m = 3 ∨ m = 4) (hn4 : n = 0 ∨ n = 1 ∨ n = 3 ∨ n = 4) :
    (n ≤ m → ((Srv.init name : Srv D H).run ops).log level msg data = some ⟨lit "notifications/message",
      some (.obj [(lit "level", .str (level.map lowerCh)), (lit "data", data.getD (.str msg))])⟩) ∧
    (m < n → ((Srv.init name : Srv D H).run ops).log level msg data = none) := by
  obtain ⟨h1, h2⟩ := levelFromString_severity level m hl hm4
  unfold Srv.log
  rw [logMin_run name ops n hn, h1, h2]
  have hp := passes_iff m n hm4 hn4
  constructor
  · intro h
    rw [hp.2 h]
    rfl
  · intro h
    have : passesLevel (floorLevel n) (floorLevel m) = false := by
      cases hx : passesLevel (floorLevel n) (floorLevel m) with
      | false => rfl
      | true => exact absurd (hp.1 hx) (by omega)
    rw [this]
    rfl

/-- The levels docs/api/server.md 413 lists for `LogToClient`, their severity on the protocol's scale and the protocol's name for them. -/
def ownLevels : List (Bytes × Nat × Bytes) :=
  [(lit "debug", 0, lit "debug"), (lit "info", 1, lit "info"), (lit "warn", 3, lit "warning"), (lit "warning", 3, lit "warning"),
    (lit "error", 4, lit "error"), (lit "fatal", 5, lit "critical")]

/-- **C30.** A message logged at one of the ownLevels levels (in any letter case) is sent exactly when its severity reaches the minimum,
under the protocol's name of the level; fatal ones are always sent, as critical. Missing: the minima notice, critical, alert and emergency,
for which the claim is false. -/
theorem C30_documented_levels_partial (name : Bytes) (ops : List (SrvOp D H)) (level msg shown : Bytes) (data : Option (JVal D)) (m n : Nat)
    (hn : Minimum (received ops) n) (hl : (level.map lowerCh, m, shown) ∈ ownLevels) (hn4 : n = 0 ∨ n = 1 ∨ n = 3 ∨ n = 4) :
    (n ≤ m → ((Srv.init name : Srv D H).run ops).log level msg data = some ⟨lit "notifications/message",
      some (.obj [(lit "level", .str shown), (lit "data", data.getD (.str msg))])⟩) ∧
    (m < n → ((Srv.init name : Srv D H).run ops).log level msg data = none) := by
  unfold Srv.log
  rw [logMin_run name ops n hn, levelFromString_lower]
  simp only [ownLevels, List.mem_cons, Prod.mk.injEq, List.not_mem_nil, or_false] at hl
  rcases hl with ⟨h1, rfl, rfl⟩ | ⟨h1, rfl, rfl⟩ | ⟨h1, rfl, rfl⟩ | ⟨h1, rfl, rfl⟩ | ⟨h1, rfl, rfl⟩ | ⟨h1, rfl, rfl⟩ <;> rw [h1] <;>
    rcases hn4 with rfl | rfl | rfl | rfl <;> refine ⟨fun h => ?_, fun h => ?_⟩ <;> first | rfl | omega

example : ((lit "FATAL").map lowerCh, 5, lit "critical") ∈ ownLevels := by decide +kernel

def levelReq (level : String) : Request Empty := ⟨.int 1, lit "logging/setLevel", some (.obj [(lit "level", .str (lit level))])⟩

theorem minimum_levelReq (level : String) (n : Nat) (h : Severity (lit level) n) : Minimum [levelReq level] n :=
  .inl ⟨[], levelReq level, [], rfl, ⟨rfl, _, _, rfl, rfl, h⟩, by simp⟩

example : Minimum [levelReq "Warning"] 3 := minimum_levelReq "Warning" 3 (by decide +kernel)
example : Severity (lit "eRRor") 4 := by decide +kernel

/-- **C30, false for the severest messages.** A message logged as critical, alert or emergency (the protocol's own names) is dropped
when the client asked for warnings and worse; so is a notice when it asked for info. -/
theorem C30_dropped_counterexample (name msg : Bytes) (data : Option (JVal Empty)) (env : Env Empty Nat) :
    ∃ ops ops' : List (SrvOp Empty Nat), Minimum (received ops) 3 ∧ Minimum (received ops') 1 ∧
      (∀ level m, 5 ≤ m → Severity level m → ((Srv.init name : Srv Empty Nat).run ops).log level msg data = none) ∧
      (∀ level, Severity level 2 → ((Srv.init name : Srv Empty Nat).run ops').log level msg data = none) := by
  refine ⟨[.request env (levelReq "warning")], [.request env (levelReq "info")], minimum_levelReq "warning" 3 (by decide +kernel),
    minimum_levelReq "info" 1 (by decide +kernel), fun level m h5 h => ?_, fun level h => ?_⟩
  · unfold Srv.log
    rw [logMin_run name [.request env (levelReq "warning")] 3 (minimum_levelReq "warning" 3 (by decide +kernel)), levelFromString_lower]
    unfold Severity scale at h
    match m, h5, h with
    | 5, _, h => simp at h; rw [← h]; rfl
    | 6, _, h => simp at h; rw [← h]; rfl
    | 7, _, h => simp at h; rw [← h]; rfl
    | m + 8, _, h => simp at h
  · unfold Srv.log
    rw [logMin_run name [.request env (levelReq "info")] 1 (minimum_levelReq "info" 1 (by decide +kernel)), levelFromString_lower]
    unfold Severity scale at h
    simp at h
    rw [← h]
    rfl

/-- **C30, false for the severest minima.** A client that asks for emergencies only is still sent errors; one that asks for notices is
still sent infos. -/
theorem C30_passed_counterexample (name msg : Bytes) (data : Option (JVal Empty)) (env : Env Empty Nat) :
    ∃ ops ops' : List (SrvOp Empty Nat), Minimum (received ops) 7 ∧ Minimum (received ops') 2 ∧
      (∀ level, Severity level 4 → ((Srv.init name : Srv Empty Nat).run ops).log level msg data ≠ none) ∧
      (∀ level, Severity level 1 → ((Srv.init name : Srv Empty Nat).run ops').log level msg data ≠ none) := by
  refine ⟨[.request env (levelReq "emergency")], [.request env (levelReq "notice")], minimum_levelReq "emergency" 7 (by decide +kernel),
    minimum_levelReq "notice" 2 (by decide +kernel), fun level h => ?_, fun level h => ?_⟩
  · unfold Srv.log
    rw [logMin_run name [.request env (levelReq "emergency")] 7 (minimum_levelReq "emergency" 7 (by decide +kernel)), levelFromString_lower]
    unfold Severity scale at h
    simp at h
    rw [← h]
    exact fun hx => nomatch hx
  · unfold Srv.log
    rw [logMin_run name [.request env (levelReq "notice")] 2 (minimum_levelReq "notice" 2 (by decide +kernel)), levelFromString_lower]
    unfold Severity scale at h
    simp at h
    rw [← h]
    exact fun hx => nomatch hx

end Verif
