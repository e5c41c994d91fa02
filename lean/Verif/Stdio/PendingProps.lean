import Verif.Stdio.PendingSpec

/-!
C13: stdio requests are answered at most once and never by someone else's response. C57: request deadlines.
-/

namespace Verif
open Stdio

variable {D : Type}

/-- C13. In every history each request future completes at most once. -/
theorem C13_at_most_once (ops : List (POp D)) : (((P.init : P D).run ops).outcomes.map (·.1)).Nodup := by
  have := (inv_run ops inv_init (D := D)).nodup
  unfold P.all at this
  rw [List.nodup_append] at this
  exact this.2.1

/-- C13. A request future that completes with a response got one whose id text is the text of the id of that very request; if the
caller left the id empty or null, it is a generated `req-N`. -/
theorem C13_answer_matches (ops : List (POp D)) (n : Nat) (r : Response D)
    (h : (n, Outcome.response r) ∈ ((P.init : P D).run ops).outcomes) :
    ∃ id, (reqIds ops)[n]? = some id ∧ (idText id ≠ [] → idText r.id = idText id) ∧
      (idText id = [] → ∃ c, idText r.id = lit "req-" ++ natDec c) := by
  obtain ⟨dl, h1⟩ := (inv_run ops inv_init (D := D)).match_ n r h
  exact (linked_run ops).sent n _ dl h1

/-- C13. `Close` completes every request except those whose `SendRequest` is still between its connection test and its insertion. -/
theorem C13_close_completes_partial (pre post : List (POp D)) (n : Nat) (hn : n < (reqIds pre).length)
    (hgap : ∀ id, (n, id) ∉ ((P.init : P D).run pre).checked) :
    Completed ((P.init : P D).run (pre ++ .close :: post)) n := by
  have hi := inv_run pre inv_init (D := D)
  rw [← (linked_run pre).next] at hn
  have hm : n ∈ ((P.init : P D).run pre).all := hi.conserve.mem_iff.2 (List.mem_range.2 hn)
  have hdone : Completed (((P.init : P D).run pre).step .close) n := by
    unfold P.all at hm
    simp only [List.mem_append, List.mem_map] at hm
    rcases hm with (⟨x, hx, rfl⟩ | ⟨x, hx, rfl⟩) | ⟨x, hx, rfl⟩
    · exact absurd hx (hgap x.2)
    · refine ⟨.closed x.1, ?_⟩
      simp only [P.step, P.close, List.mem_append, List.mem_map]
      exact Or.inr ⟨x, hx, rfl⟩
    · refine ⟨x.2, ?_⟩
      simp only [P.step, P.close, List.mem_append]
      exact Or.inl hx
  obtain ⟨o, ho⟩ := hdone
  rw [run_append]
  refine ⟨o, (outcomes_mono_run post _).subset ?_⟩
  exact ho

/-- C13, limit of the claim: a `SendRequest` that races with `Close` is never completed by it, nor by any number of timeout sweeps
or further `Close`-free disconnects. -/
theorem C13_close_race_counterexample (sweeps : List Nat) :
    ¬ Completed ((P.init : P Empty).run
      ([.sendCheck (.int 1), .close, .sendInsert 0 0] ++ sweeps.map POp.sweep)) 0 := by
  rw [run_append]
  have key : ∀ (ts : List Nat) (s : P Empty), s.connected = false → s.outcomes = [] → (s.run (ts.map POp.sweep)).outcomes = [] := by
    intro ts
    induction ts with
    | nil => intro s _ h; exact h
    | cons t ts ih =>
      intro s hc h
      have : s.step (.sweep t) = s := by simp [P.step, P.sweep, hc]
      simp only [List.map_cons, P.run, List.foldl_cons, this]
      exact ih s hc h
  rintro ⟨o, ho⟩
  rw [key sweeps _ (by rfl) (by rfl)] at ho
  cases ho

/-- C13. No request times out before its own deadline: a timeout at time `t` means the request was inserted with a deadline `≤ t`. -/
theorem C13_no_early_timeout (ops : List (POp D)) (n : Nat) (k : Bytes) (t : Nat)
    (h : (n, Outcome.timeout k t) ∈ ((P.init : P D).run ops).outcomes) :
    ∃ dl, (n, k, dl) ∈ ((P.init : P D).run ops).sent ∧ dl ≤ t :=
  (inv_run ops inv_init (D := D)).late n k t h

/-- C13. While connected, a timeout pass completes every pending request whose deadline has passed. -/
theorem C13_timeouts_fire (ops : List (POp D)) (now n : Nat) (k : Bytes) (dl : Nat)
    (hc : ((P.init : P D).run ops).connected = true) (hs : (n, k, dl) ∈ ((P.init : P D).run ops).sent) (hle : dl ≤ now) :
    Completed ((P.init : P D).run (ops ++ [.sweep now])) n := by
  have hi := inv_run ops inv_init (D := D)
  rw [run_append]
  generalize (P.init : P D).run ops = s at *
  have hi' : (s.sweep now).Inv := inv_sweep hi now
  show Completed (s.sweep now) n
  have hn : n ∈ (s.sweep now).all := by
    have hb : n < (s.sweep now).nextFut := by
      have := hi.sentBound _ hs
      simp only [P.sweep, if_pos hc]
      rw [(sweepList_fields now (s.expired now) s).1]
      exact this
    exact hi'.conserve.mem_iff.2 (List.mem_range.2 hb)
  have hsw : s.sweep now = (s.expired now).foldl (fun s k => s.complete k (.timeout k now)) s := by
    simp only [P.sweep, if_pos hc]
  have hf := sweepList_fields now (s.expired now) s
  rw [← hsw] at hf
  unfold P.all at hn
  simp only [List.mem_append, List.mem_map] at hn
  rcases hn with (⟨x, hx, e⟩ | ⟨x, hx, e⟩) | ⟨x, hx, e⟩
  · rw [hf.2.1] at hx
    exact absurd (List.mem_map.2 ⟨x, hx, e⟩) (hi.sentChecked _ hs)
  · -- still pending after the sweep: its deadline entry must have survived
    exfalso
    obtain ⟨dl', h1, h2⟩ := hi'.pend x.1 x.2 (by simpa using hx)
    rw [hf.2.2.1, e] at h1
    -- sent is functional
    have hfun : (x.1, dl') = (k, dl) := by
      have := hi.sentFun
      rw [List.Nodup, List.pairwise_map] at this
      have hu := List.pairwise_iff_getElem.1 this
      obtain ⟨i, hi1, hi2⟩ := List.getElem_of_mem h1
      obtain ⟨j, hj1, hj2⟩ := List.getElem_of_mem hs
      rcases Nat.lt_trichotomy i j with hlt | heq | hgt
      · have := hu i j hi1 hj1 hlt; rw [hi2, hj2] at this; exact absurd rfl this
      · subst heq; rw [hi2] at hj2; simp only [Prod.mk.injEq, true_and] at hj2; exact Prod.ext hj2.1 hj2.2
      · have := hu j i hj1 hi1 hgt; rw [hi2, hj2] at this; exact absurd rfl this
    simp only [Prod.mk.injEq] at hfun
    obtain ⟨hk, hd⟩ := hfun
    rw [hk, hd] at h2
    -- after the sweep no deadline at most `now` is left under an expired key
    have gone : ∀ (ks : List Bytes) (s : P D), k ∈ ks → AMap.get (ks.foldl (fun s k => s.complete k (.timeout k now)) s).deadlines k = none := by
      intro ks
      induction ks with
      | nil => intro s h; cases h
      | cons a ks ih =>
        intro s h
        by_cases hin : k ∈ ks
        · exact ih _ hin
        · have : k = a := by simpa [hin] using h
          subst this
          have keep : ∀ (ks : List Bytes) (s : P D), k ∉ ks → AMap.get s.deadlines k = none →
              AMap.get (ks.foldl (fun s k => s.complete k (.timeout k now)) s).deadlines k = none := by
            intro ks
            induction ks with
            | nil => intro s _ h; exact h
            | cons b ks ih2 =>
              intro s hb h
              simp only [List.mem_cons, not_or] at hb
              exact ih2 _ hb.2 (by rw [complete_deadline hb.1]; exact h)
          refine keep ks _ hin ?_
          show AMap.get (s.complete k (.timeout k now)).deadlines k = none
          unfold P.complete
          split <;> exact AMap.get_del_self _ _
    have hmono : ∀ (ks : List Bytes) (s : P D) (d : Nat), AMap.get (ks.foldl (fun s k => s.complete k (.timeout k now)) s).deadlines k = some d →
        AMap.get s.deadlines k = some d := by
      intro ks
      induction ks with
      | nil => intro s d h; exact h
      | cons b ks ih =>
        intro s d h
        have := ih _ d h
        by_cases hb : k = b
        · subst hb
          have hz : AMap.get (s.complete k (.timeout k now)).deadlines k = none := by
            unfold P.complete
            split <;> exact AMap.get_del_self _ _
          rw [hz] at this; cases this
        · rwa [complete_deadline hb] at this
    have hin : k ∈ s.expired now := by
      rw [hsw] at h2
      have := AMap.get_some_mem (hmono _ _ _ h2)
      simp only [P.expired, List.mem_map, List.mem_filter, decide_eq_true_eq]
      exact ⟨(k, dl), ⟨this, hle⟩, rfl⟩
    rw [hsw, gone _ s hin] at h2
    cases h2
  · exact ⟨x.2, by rw [← e]; exact hx⟩

/-- C13. A response with a null or empty id is ignored: it completes nothing. -/
theorem C13_null_id_ignored (ops : List (POp D)) (r : Response D) (hr : idText r.id = []) :
    ((P.init : P D).run (ops ++ [.response r])).outcomes = ((P.init : P D).run ops).outcomes ∧
      ((P.init : P D).run (ops ++ [.response r])).pending = ((P.init : P D).run ops).pending := by
  have hi := inv_run ops inv_init (D := D)
  rw [run_append]
  generalize (P.init : P D).run ops = s at *
  simp only [P.run, List.foldl_cons, List.foldl_nil, P.step, hr, P.complete]
  have : AMap.get s.pending [] = none := by
    cases h : AMap.get s.pending [] with
    | none => rfl
    | some n => exact absurd rfl (hi.nonempty _ _ (AMap.get_some_mem h))
  rw [this]
  exact ⟨rfl, rfl⟩

/-- C13, limit of the claim: two outstanding requests with the same id text (here the integer 5 and the string "5") share one slot;
the first future is broken and the answer to the first request completes the second. -/
theorem C13_alias_counterexample :
    ((P.init : P Empty).run [.sendCheck (.int 5), .sendInsert 0 0, .sendCheck (.str (lit "5")), .sendInsert 1 0,
      .response ⟨.int 5, some (.int 1), none⟩]).outcomes.map (fun p => (p.1, match p.2 with | .broken => true | _ => false)) =
      [(0, true), (1, false)] := by decide +kernel

/-- C13. Apart from such reuse no future is ever broken: if each request is inserted under a text no pending request uses, every
completion is a response, a timeout, a close or a refusal. -/
theorem C13_no_broken_partial (ops : List (POp D))
    (hdistinct : ∀ pre fut now post id, ops = pre ++ .sendInsert fut now :: post →
      ((P.init : P D).run pre).waiting fut = some id →
      AMap.get ((P.init : P D).run pre).pending (chooseKey id ((P.init : P D).run pre).counter).1 = none) :
    ∀ n, (n, Outcome.broken) ∉ ((P.init : P D).run ops).outcomes := by
  have key : ∀ (post pre : List (POp D)), ops = pre ++ post → (∀ n, (n, Outcome.broken) ∉ ((P.init : P D).run pre).outcomes) →
      ∀ n, (n, Outcome.broken) ∉ ((P.init : P D).run ops).outcomes := by
    intro post
    induction post with
    | nil => intro pre h hp; rw [h, List.append_nil]; exact hp
    | cons op post ih =>
      intro pre h hp
      refine ih (pre ++ [op]) (by rw [h]; simp) ?_
      intro n
      rw [run_append]
      have hco : ∀ (s : P D) k o, o ≠ Outcome.broken → (∀ n, (n, Outcome.broken) ∉ s.outcomes) →
          ∀ n, (n, Outcome.broken) ∉ (s.complete k o).outcomes := by
        intro s k o ho hs n
        unfold P.complete
        split
        · simp only [List.mem_append, List.mem_singleton, Prod.mk.injEq, not_or]
          exact ⟨hs n, fun e => ho e.2.symm⟩
        · exact hs n
      simp only [P.run, List.foldl_cons, List.foldl_nil]
      change (n, Outcome.broken) ∉ (((P.init : P D).run pre).step op).outcomes
      have hx := hdistinct pre
      generalize (P.init : P D).run pre = s at *
      cases op with
      | sendCheck id => simp only [P.step, P.sendCheck]; split <;> simp [hp n]
      | sendInsert fut now =>
        simp only [P.step, P.sendInsert]
        cases hw : s.waiting fut with
        | none => exact hp n
        | some id =>
          simp only [hx fut now post id h hw]
          exact hp n
      | response r => exact hco _ _ _ (by simp) hp n
      | sweep now =>
        simp only [P.step, P.sweep]
        split
        · have : ∀ (ks : List Bytes) (s : P D), (∀ n, (n, Outcome.broken) ∉ s.outcomes) →
              ∀ n, (n, Outcome.broken) ∉ (ks.foldl (fun s k => s.complete k (.timeout k now)) s).outcomes := by
            intro ks
            induction ks with
            | nil => intro s hs; exact hs
            | cons k ks ih => intro s hs; exact ih _ (hco s k _ (by simp) hs)
          exact this _ _ hp n
        · exact hp n
      | disconnect => exact hp n
      | close => simp [P.step, P.close, hp n]
      | setTimeout t => exact hp n
  exact key ops [] rfl (by simp [P.run, P.init])

/-- A history that meets the hypotheses above: two requests, one answered, one timed out. -/
example : (((P.init : P Empty).run [.sendCheck .null, .sendInsert 0 10, .sendCheck (.int 7), .sendInsert 1 20,
    .response ⟨.int 7, some (.int 1), none⟩, .sweep 40000]).outcomes.map
      (fun p => (p.1, match p.2 with | .response r => idText r.id | .timeout k _ => k | _ => []))) =
    [(1, lit "7"), (0, lit "req-1")] := by decide +kernel

/-- C13, limit of the claim: once the connection is lost (end of input, overflow) without `Close`, the timeout thread has ended and
an outstanding request stays incomplete however much time passes. -/
theorem C13_disconnect_hang_counterexample (times : List Nat) :
    ¬ Completed ((P.init : P Empty).run
      ([.sendCheck (.int 1), .sendInsert 0 0, .disconnect] ++ times.map POp.sweep)) 0 := by
  rw [run_append]
  have key : ∀ (ts : List Nat) (s : P Empty), s.connected = false → s.outcomes = [] → (s.run (ts.map POp.sweep)).outcomes = [] := by
    intro ts
    induction ts with
    | nil => intro s _ h; exact h
    | cons t ts ih =>
      intro s hc h
      have : s.step (.sweep t) = s := by simp [P.step, P.sweep, hc]
      simp only [List.map_cons, P.run, List.foldl_cons, this]
      exact ih s hc h
  rintro ⟨o, ho⟩
  rw [key times _ (by rfl) (by rfl)] at ho
  cases ho

/-- C57. Asking for no timeout (`SetRequestTimeoutMs(0)`) makes the next `SendRequest` overflow its deadline, at every time. -/
theorem C57_disable_counterexample (nowNs : Nat) : deadlineNs 0 nowNs = none := by
  unfold deadlineNs
  simp only [if_pos trivial]
  rw [if_neg (by omega)]

/-- C57. With a timeout of 1 ms to 100 years and a clock below 100 years the deadline is exactly now + timeout. -/
theorem C57_deadline_exact_partial (timeoutMs nowNs : Nat) (h0 : timeoutMs ≠ 0) (h1 : timeoutMs ≤ 3155760000000)
    (h2 : nowNs ≤ 3155760000000000000) : deadlineNs timeoutMs nowNs = some (timeoutMs * 1000000 + nowNs) := by
  unfold deadlineNs
  simp only [if_neg h0]
  rw [if_pos (by omega)]

example : deadlineNs 30000 5 = some 30000000005 := by decide

end Verif
