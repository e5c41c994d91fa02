import Verif.Share.Lemmas

/-! Helper lemmas for C133: the answers of the server and the tools it ran. -/

set_option linter.unusedSectionVars false

namespace Verif.Share

open Verif.Await Verif.Client Verif.Server Verif.Shm
open Verif.Whole (asRequest asking snoc_induction lt_of_get RunFor dispatch_runs own_runs)
open Verif.Stdio (idText)

variable {D H : Type} [DblFmt D]

/-- With the step at this place of the execution the server dispatched this request, in the state it was in, with this answer. -/
def DispatchedAt (c : Cfg) (x : Bool) (w : World D H) (ops : List (Op D H)) (p : Nat) (q : Request D) (env : Env D H) (srv : Srv D H) (r : Response D) : Prop :=
  ∃ i, ops[p]? = some (.serve i env) ∧ ((w.run c x (ops.take p)).net.get (!x)).jobs[i]? = some q ∧ (w.run c x (ops.take p)).srv = srv ∧
    (w.run c x (ops.take p)).dead = false ∧ (dispatch env srv q).1 = .answer r

theorem DispatchedAt.more {c : Cfg} {x : Bool} {w : World D H} {ops : List (Op D H)} {p : Nat} {q : Request D} {env : Env D H} {srv : Srv D H} {r : Response D}
    (h : DispatchedAt c x w ops p q env srv r) (op : Op D H) : DispatchedAt c x w (ops ++ [op]) p q env srv r := by
  obtain ⟨i, h1, h2⟩ := h
  have hl := lt_of_get h1
  refine ⟨i, by rw [List.getElem?_append_left hl]; exact h1, ?_⟩
  rw [List.take_append_of_le_length (Nat.le_of_lt hl)]
  exact h2

theorem dispatched_last {c : Cfg} {x : Bool} {w : World D H} {ops : List (Op D H)} {i : Nat} {env : Env D H} {q : Request D} {r : Response D}
    (hj : ((w.run c x ops).net.get (!x)).jobs[i]? = some q) (hd : (w.run c x ops).dead = false) (hr : (dispatch env (w.run c x ops).srv q).1 = .answer r) :
    DispatchedAt c x w (ops ++ [.serve i env]) ops.length q env (w.run c x ops).srv r := by
  have ht : (ops ++ [Op.serve i env]).take ops.length = ops := by simp
  refine ⟨i, by simp, ?_⟩
  rw [ht]
  exact ⟨hj, rfl, hd, hr⟩

/-- What one side has in work and has answered is left as it is. -/
def Idle (e e' : Endpoint D) : Prop := e'.answered = e.answered ∧ ∀ q ∈ e.jobs, q ∈ e'.jobs

theorem Idle.rfl {e : Endpoint D} : Idle e e := ⟨Eq.refl _, fun _ h => h⟩

theorem Idle.same {e e' : Endpoint D} (h1 : e'.answered = e.answered) (h2 : e'.jobs = e.jobs) : Idle e e' := ⟨h1, fun q hq => by rw [h2]; exact hq⟩

theorem Idle.trans {a b c : Endpoint D} (h : Idle a b) (h' : Idle b c) : Idle a c := ⟨h'.1.trans h.1, fun q hq => h'.2 q (h.2 q hq)⟩

theorem idle_upd (s : Net D) (z y : Bool) {f : Endpoint D → Endpoint D} (h : ∀ e, Idle e (f e)) : Idle (s.get y) ((s.upd z f).get y) := by
  rw [get_upd]; split
  · exact h _
  · exact .rfl

theorem idle_push (s : Net D) (z y : Bool) (t : Bytes) : Idle (s.get y) ((s.push z t).get y) := by
  rw [get_push]; split <;> exact ⟨rfl, fun _ h => h⟩

theorem idle_put (c : Cfg) (s : Net D) (z y : Bool) (t : Bytes) : Idle (s.get y) ((s.put c z t).get y) := by
  unfold Net.put; split
  · exact idle_push _ _ _ _
  · exact .rfl

/-- The handlers of one side end in `reply` alone. -/
theorem idle_step (c : Cfg) (s : Net D) (op : NOp D) (y : Bool) (h : ∀ i o, op ≠ .reply y i o) : Idle (s.get y) ((s.step c op).get y) := by
  cases op with
  | start z =>
    show Idle _ ((s.start z).get y)
    rcases get_start s z y with h | h <;> rw [h]
    · exact .rfl
    · exact .same rfl rfl
  | send z r => exact idle_upd s z y fun e => by unfold Endpoint.send; split <;> exact .same rfl rfl
  | file z i => exact idle_upd s z y fun e => by unfold Endpoint.file; split <;> exact .same rfl rfl
  | deliver z i =>
    simp only [Net.step, Net.deliver]
    split
    · exact .rfl
    · have h1 : Idle (s.get y) ((s.upd z fun e => { e with sending := e.sending.eraseIdx i }).get y) := idle_upd s z y fun e => .same rfl rfl
      try dsimp only
      split
      · exact h1.trans (idle_push _ _ _ _)
      · exact h1.trans (idle_upd _ _ _ fun e => .same rfl rfl)
  | notify z n => exact idle_put c s z y _
  | take z =>
    refine idle_upd s z y fun e => ?_
    obtain ⟨-, -, h3, h4, -⟩ := take_frame c z e
    exact .same h3 h4
  | handle z =>
    refine idle_upd s z y fun e => ⟨(handle_frame e).2.2.1, fun q hq => ?_⟩
    unfold Endpoint.handle
    split
    · exact hq
    · show q ∈ (e.apply _).jobs
      unfold Endpoint.apply
      split
      · exact hq
      · exact List.mem_append_left _ hq
      · exact hq
      · exact hq
  | reply z i out =>
    simp only [Net.step, Net.reply]
    split
    · exact .rfl
    · rename_i req _
      have hz : z ≠ y := fun e => h i out (by rw [e])
      have h1 : ∀ ok, Idle (s.get y) ((s.upd z fun e => { e with jobs := e.jobs.eraseIdx i, answered := e.answered ++ [(req, out, ok)] }).get y) := by
        intro ok; rw [get_upd, if_neg (fun e => hz e.symm)]; exact .rfl
      try dsimp only
      split
      · exact (h1 _).trans (idle_push _ _ _ _)
      · exact h1 _
  | loopEnd z => exact idle_upd s z y fun e => by unfold Endpoint.loopEnd; split <;> exact .same rfl rfl
  | closeTell => exact idle_put c s false y _
  | closeFlag z => exact idle_upd s z y fun e => .same rfl rfl
  | closeEnd z =>
    show Idle _ ((s.closeEnd z).get y)
    rcases get_closeEnd s z y with h | h <;> rw [h]
    · exact .rfl
    · exact .same rfl rfl
  | tick z => exact idle_upd s z y fun e => .same rfl rfl

theorem reply_own (c : Cfg) (s : Net D) (y : Bool) (i : Nat) (o : HandlerOutcome D) {q : Request D} (h : (s.get y).jobs[i]? = some q) :
    ((s.step c (.reply y i o)).get y).answered = (s.get y).answered ++ [(q, o, s.fits c y (serResponse (replyFor q o)))] := by
  simp only [Net.step, Net.reply]
  rw [h]
  dsimp only
  split
  · rw [get_push, if_pos rfl, get_upd_same]
  · rw [get_upd_same]

/-- The server's side answers in `serve` alone. -/
theorem netOps_reply {x : Bool} {w : World D H} {op : Op D H} {j : Nat} {o : HandlerOutcome D} (hn : Shm.Op.reply (!x) j o ∈ netOps x w op) :
    w.dead = false ∧ ∃ i env, op = .serve i env := by
  unfold netOps at hn
  cases op with
  | go i =>
    simp only [netOf] at hn
    split at hn
    · split at hn
      · cases List.mem_singleton.1 (show _ ∈ [_] from hn)
      · cases hn
    · cases hn
  | file i =>
    simp only [netOf] at hn
    split at hn
    · cases List.mem_singleton.1 (show _ ∈ [_] from hn)
    · cases hn
  | wire op =>
    simp only [netOf] at hn
    split at hn
    · cases hn
    · rename_i hr
      have := List.mem_singleton.1 (show _ ∈ [_] from hn)
      subst this
      exact absurd (by cases x <;> rfl) hr
  | serve i env =>
    simp only [netOf] at hn
    split at hn
    · cases hn
    · rename_i hd; exact ⟨by simpa using hd, i, env, rfl⟩
  | call api => cases hn
  | drop i => cases hn
  | change u => cases hn
  | deliver n => cases hn
  | own op => cases hn

theorem idle_run (c : Cfg) (y : Bool) : ∀ (l : List (NOp D)) (s : Net D), (∀ nop ∈ l, ∀ j o, nop ≠ .reply y j o) → Idle (s.get y) ((s.run c l).get y)
  | [], _, _ => .rfl
  | a :: l, s, h => (idle_step c s a y (h a (List.mem_cons_self ..))).trans (idle_run c y l (s.step c a) fun nop hn => h nop (List.mem_cons_of_mem _ hn))

/-- The answers of the server are changed by `serve` alone. -/
theorem answered_step (c : Cfg) (x : Bool) (w : World D H) (op : Op D H) : ((w.step c x op).net.get (!x)).answered = (w.net.get (!x)).answered ∨
    ∃ i env q r, op = .serve i env ∧ w.dead = false ∧ (w.net.get (!x)).jobs[i]? = some q ∧ (dispatch env w.srv q).1 = .answer r ∧
      (w.step c x op).srv = (dispatch env w.srv q).2 ∧ (w.step c x op).dead = false ∧
      ((w.step c x op).net.get (!x)).answered = (w.net.get (!x)).answered ++ [(q, .resp r, w.net.fits c (!x) (serResponse (replyFor q (.resp r))))] := by
  cases op with
  | call api => exact .inl rfl
  | drop i => exact .inl rfl
  | change u => exact .inl rfl
  | go i =>
    left
    rw [net_step]
    refine (idle_run c (!x) _ _ fun nop hn j o e => ?_).1
    subst e
    obtain ⟨-, k, env, h⟩ := netOps_reply hn
    cases h
  | file i =>
    simp only [World.step, World.file]
    split
    · exact .inl (idle_step c w.net (.file x i) (!x) (fun j o e => nomatch e)).1
    · exact .inl rfl
  | deliver n =>
    simp only [World.step, World.deliver]
    split
    · split <;> exact .inl rfl
    · exact .inl rfl
  | wire op =>
    simp only [World.step]
    split
    · exact .inl rfl
    · rename_i hr
      exact .inl (idle_step c w.net op (!x) fun i o e => hr (by rw [e]; cases x <;> rfl)).1
  | own op => left; simp only [World.step]; split <;> (try split) <;> rfl
  | serve i env =>
    cases hd : w.dead with
    | true => left; simp [World.step, hd]
    | false =>
    simp only [World.step, World.serve, hd, Bool.false_eq_true, if_false]
    cases hj : (w.net.get (!x)).jobs[i]? with
    | none => exact .inl rfl
    | some q =>
      cases hr : (dispatch env w.srv q).1 with
      | answer r =>
        right
        refine ⟨i, env, q, r, rfl, trivial, hj, hr, ?_, ?_, ?_⟩
        · dsimp only; rw [hr]
        · dsimp only; rw [hr]
        · dsimp only; rw [hr]; exact reply_own c w.net (!x) i _ hj
      | escaped => left; dsimp only; rw [hr]
      | blocked => left; dsimp only; rw [hr]

theorem fits_length {c : Cfg} {s : Net D} {y : Bool} {t : Bytes} (h : s.fits c y t = true) : t.length ≤ c.size y ∧ t.length ≤ c.sizeA := by
  unfold Net.fits at h
  simp only [Bool.and_eq_true, decide_eq_true_eq] at h
  exact ⟨h.1.1.2, h.1.2⟩

theorem answered_world (c : Cfg) (x : Bool) (s0 : Self D) (srv : Srv D H) (ops : List (Op D H)) (q : Request D) (o : HandlerOutcome D) (ok : Bool)
    (h : (q, o, ok) ∈ (((World.init c s0 srv).run c x ops).net.get (!x)).answered) :
    ∃ p env σ r, o = .resp r ∧ DispatchedAt c x (World.init c s0 srv) ops p q env σ r ∧
      (ok = true → (serResponse (replyFor q o)).length ≤ c.size (!x) ∧ (serResponse (replyFor q o)).length ≤ c.sizeA) := by
  induction ops using snoc_induction with
  | h0 =>
    have h0 : (((World.init c s0 srv : World D H).net).get (!x)).answered = [] := by cases x <;> rfl
    rw [run_nil, h0] at h; cases h
  | h1 ops op ih =>
    rw [run_snoc] at h
    rcases answered_step c x ((World.init c s0 srv).run c x ops) op with h1 | ⟨i, env, q', r, rfl, h1, h2, h3, -, -, h4⟩
    · rw [h1] at h
      obtain ⟨p, env, σ, r, h2, h3, h4⟩ := ih h
      exact ⟨p, env, σ, r, h2, h3.more op, h4⟩
    · rw [h4] at h
      rcases List.mem_append.1 h with h | h
      · obtain ⟨p, env', σ, r, h2, h3, h4⟩ := ih h
        exact ⟨p, env', σ, r, h2, h3.more _, h4⟩
      · cases List.mem_singleton.1 h
        exact ⟨ops.length, env, _, r, rfl, dispatched_last h2 h1 h3, fun hf => fits_length hf⟩

/-! ### The tools the server ran -/

/-- A use of a tool comes with the answer to its request, or with the end of the process. -/
theorem runs_step (c : Cfg) (x : Bool) (w : World D H) (op : Op D H) :
    (w.step c x op).srv.runs = w.srv.runs ∨
    ∃ (i : Nat) (q : Request D) (run : Run D), w.dead = false ∧ (w.net.get (!x)).jobs[i]? = some q ∧ RunFor run q ∧ (w.step c x op).srv.runs = w.srv.runs ++ [run] ∧
      (((w.step c x op).dead = false ∧ ∃ a, ((w.step c x op).net.get (!x)).answered = (w.net.get (!x)).answered ++ [(q, a)]) ∨
        ((w.step c x op).net = w.net ∧ (w.step c x op).dead = true)) := by
  cases op with
  | call api => exact .inl rfl
  | drop i => exact .inl rfl
  | change u => exact .inl rfl
  | go i => simp only [World.step, World.go]; split <;> (try split) <;> (try split) <;> exact .inl rfl
  | file i => simp only [World.step, World.file]; split <;> exact .inl rfl
  | deliver n =>
    simp only [World.step, World.deliver]
    split
    · split <;> exact .inl rfl
    · exact .inl rfl
  | wire op => simp only [World.step]; split <;> exact .inl rfl
  | own op =>
    left
    simp only [World.step]
    split
    · rfl
    · cases op with
      | request env q => rfl
      | _ => exact own_runs _ _ (fun _ _ h => nomatch h)
  | serve i env =>
    cases hd : w.dead with
    | true => left; simp [World.step, hd]
    | false =>
    simp only [World.step, World.serve, hd, Bool.false_eq_true, if_false]
    cases hj : (w.net.get (!x)).jobs[i]? with
    | none => exact .inl rfl
    | some q =>
      dsimp only
      rcases dispatch_runs env w.srv q with h1 | ⟨run, h1, h2⟩
      · left
        split
        · exact h1
        · exact h1
        · rfl
      · cases hr : (dispatch env w.srv q).1 with
        | answer r => exact .inr ⟨i, q, run, trivial, hj, h1, h2, .inl ⟨rfl, _, reply_own c w.net (!x) i _ hj⟩⟩
        | escaped => exact .inr ⟨i, q, run, trivial, hj, h1, h2, .inr ⟨rfl, rfl⟩⟩
        | blocked => exact .inl rfl

/-- When the process of the server has ended, its side stays as it is. -/
theorem dead_side (c : Cfg) (x : Bool) (w : World D H) (op : Op D H) (hd : w.dead = true) :
    (w.step c x op).dead = true ∧ (w.step c x op).srv = w.srv ∧ Idle (w.net.get (!x)) ((w.step c x op).net.get (!x)) ∧
      ((w.step c x op).net.get (!x)).answered = (w.net.get (!x)).answered := by
  have hidle : Idle (w.net.get (!x)) ((w.step c x op).net.get (!x)) := by
    rw [net_step]
    refine idle_run c (!x) _ _ fun nop hn j o e => ?_
    subst e
    have := (netOps_reply hn).1
    rw [hd] at this; cases this
  refine ⟨?_, ?_, hidle, hidle.1⟩
  · cases op with
    | go i => simp only [World.step, World.go]; split <;> (try split) <;> (try split) <;> exact hd
    | file i => simp only [World.step, World.file]; split <;> exact hd
    | deliver n =>
      simp only [World.step, World.deliver]
      split
      · split <;> exact hd
      · exact hd
    | wire op => simp only [World.step]; split <;> exact hd
    | serve i env => simp only [World.step, hd, if_true]
    | own op => simp only [World.step, hd, if_true]
    | call api => exact hd
    | drop i => exact hd
    | change u => exact hd
  · cases op with
    | go i => simp only [World.step, World.go]; split <;> (try split) <;> (try split) <;> rfl
    | file i => simp only [World.step, World.file]; split <;> rfl
    | deliver n =>
      simp only [World.step, World.deliver]
      split
      · split <;> rfl
      · rfl
    | wire op => simp only [World.step]; split <;> rfl
    | serve i env => simp only [World.step, hd, if_true]
    | own op => simp only [World.step, hd, if_true]
    | call api => rfl
    | drop i => rfl
    | change u => rfl

/-- The uses of tools belong to different requests that came to the server. -/
theorem runs_world (c : Cfg) (x : Bool) (s0 : Self D) (srv : Srv D H) (ops : List (Op D H)) :
    let w := (World.init c s0 srv).run c x ops
    ∃ L : List (Run D × Request D), w.srv.runs = srv.runs ++ L.map (·.1) ∧ (∀ e ∈ L, RunFor e.1 e.2) ∧
      ((L.map (·.2)).Sublist ((w.net.get (!x)).answered.map (·.1)) ∨
        (w.dead = true ∧ ∃ (q : Request D), q ∈ (w.net.get (!x)).jobs ∧ (L.map (·.2)).Sublist ((w.net.get (!x)).answered.map (·.1) ++ [q]))) := by
  induction ops using snoc_induction with
  | h0 => exact ⟨[], by simp [World.init, run_nil], (fun e he => nomatch he), .inl (List.nil_sublist _)⟩
  | h1 ops op ih =>
    obtain ⟨L, h1, h2, h3⟩ := ih
    rw [run_snoc]
    generalize (World.init c s0 srv).run c x ops = w at *
    cases hd : w.dead with
    | true =>
      obtain ⟨g1, g2, g3, g4⟩ := dead_side c x w op hd
      refine ⟨L, by rw [g2]; exact h1, h2, ?_⟩
      rw [g4]
      rcases h3 with h3 | ⟨-, q, h3, h4⟩
      · exact .inl h3
      · exact .inr ⟨g1, q, g3.2 q h3, h4⟩
    | false =>
      have h3 : (L.map (·.2)).Sublist ((w.net.get (!x)).answered.map (·.1)) := by
        rcases h3 with h3 | ⟨h3, -⟩
        · exact h3
        · rw [hd] at h3; cases h3
      have hgr : (w.net.get (!x)).answered <+: ((w.step c x op).net.get (!x)).answered := by
        rcases answered_step c x w op with h | ⟨i, env, q, r, -, -, -, -, -, -, h⟩ <;> rw [h]
        · exact List.prefix_rfl
        · exact List.prefix_append _ _
      rcases runs_step c x w op with g1 | ⟨i, q, run, g1, g2, g3, g4, g5⟩
      · exact ⟨L, by rw [g1]; exact h1, h2, .inl (h3.trans (hgr.sublist.map _))⟩
      · refine ⟨L ++ [(run, q)], by rw [g4, h1]; simp, fun e he => ?_, ?_⟩
        · rcases List.mem_append.1 he with he | he
          · exact h2 e he
          · cases List.mem_singleton.1 he; exact g3
        · rw [List.map_append]
          rcases g5 with ⟨-, r, g5⟩ | ⟨g5, g6⟩
          · left; rw [g5, List.map_append]
            exact h3.append (List.Sublist.refl _)
          · right
            refine ⟨g6, q, by rw [g5]; exact List.mem_of_getElem? g2, ?_⟩
            rw [g5]
            exact h3.append (List.Sublist.refl _)

end Verif.Share
