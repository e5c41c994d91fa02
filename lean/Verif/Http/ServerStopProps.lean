import Verif.Http.ServerLifeProps
import Verif.Base.Fair

/-!
C117, second part: `Stop` and the destructor.
-/

namespace Verif.Http

theorem hl_run_inv {P : Hl → Prop} {s : Hl} {ops : List HlOp} (h : P s) (hstep : ∀ t op, op ∈ ops → P t → P (t.step op)) : P (s.run ops) := by
  induction ops generalizing s with
  | nil => exact h
  | cons op l ih => exact ih (hstep s op (by simp) h) (fun t o ho => hstep t o (by simp [ho]))

theorem hl_run_append (s : Hl) (a b : List HlOp) : s.run (a ++ b) = (s.run a).run b := by simp [Hl.run, List.foldl_append]

/-! ### A stopped server stays stopped -/

/-- A stopped io context runs nothing. -/
structure Dry (n : Nat) (l : List HlEv) (d : List HlFut) (s : Hl) : Prop where
  stopped : s.stopped = true
  len : n ≤ s.futs.length
  futs : ∀ i, i < n → s.futs[i]? = some .ready → d[i]? = some .ready
  new : ∀ i, n ≤ i → s.futs[i]? ≠ some .ready
  log : (s.log.filter fun e => decide (e = .listening ∨ e = .ready)) = l

theorem Dry.step {n : Nat} {l : List HlEv} {d : List HlFut} {s : Hl} (h : Dry n l d s) (op : HlOp) : Dry n l d (s.step op) := by
  unfold Hl.step
  split
  · exact h
  · cases op with
    | start =>
      dsimp only
      split
      · have key : ∀ i : Nat, (s.futs.map (fun x => if x = .waiting then .broken else x) ++ [.waiting])[i]? = some HlFut.ready → s.futs[i]? = some HlFut.ready := by
          intro i hi
          rw [List.getElem?_append] at hi
          split at hi
          · rw [List.getElem?_map] at hi
            cases hx : s.futs[i]? with
            | none => rw [hx] at hi; cases hi
            | some x =>
              rw [hx] at hi
              simp only [Option.map_some, Option.some.injEq] at hi
              split at hi
              · cases hi
              · rw [hi]
          · cases hq : i - (s.futs.map (fun x => if x = HlFut.waiting then .broken else x)).length with
            | zero => rw [hq] at hi; cases hi
            | succ m => rw [hq] at hi; cases hi
        unfold Hl.start
        dsimp only
        split
        · exact ⟨h.stopped, (by have := h.len; simp; omega), fun i h1 h2 => h.futs i h1 (key i h2), fun i h1 h2 => h.new i h1 (key i h2), by simpa using h.log⟩
        · exact ⟨h.stopped, (by have := h.len; simp; omega), fun i h1 h2 => h.futs i h1 (key i h2), fun i h1 h2 => h.new i h1 (key i h2), by simpa using h.log⟩
      · exact h
    | stop => dsimp only; split; exact ⟨h.stopped, h.len, h.futs, h.new, h.log⟩; exact h
    | destroy => dsimp only; split; exact ⟨h.stopped, h.len, h.futs, h.new, h.log⟩; exact h
    | caller =>
      dsimp only
      unfold Hl.caller
      split
      · exact h
      · exact ⟨h.stopped, h.len, h.futs, h.new, by simpa using h.log⟩
      · exact ⟨h.stopped, h.len, h.futs, h.new, h.log⟩
      · exact ⟨h.stopped, h.len, h.futs, h.new, h.log⟩
      · exact ⟨rfl, h.len, h.futs, h.new, h.log⟩
      · split
        · exact ⟨h.stopped, h.len, h.futs, h.new, h.log⟩
        · exact h
      · split
        · exact ⟨h.stopped, h.len, h.futs, h.new, by simpa using h.log⟩
        · exact h
      · split
        · exact ⟨h.stopped, h.len, h.futs, h.new, h.log⟩
        · exact ⟨rfl, h.len, h.futs, h.new, h.log⟩
      · split
        · exact ⟨h.stopped, h.len, h.futs, h.new, h.log⟩
        · exact h
      · split
        · exact ⟨h.stopped, h.len, h.futs, h.new, h.log⟩
        · exact h
      · split
        · exact h
        · exact ⟨h.stopped, h.len, h.futs, h.new, h.log⟩
      · exact h
    | io =>
      dsimp only
      unfold Hl.goIo
      split
      · exact ⟨h.stopped, h.len, h.futs, h.new, h.log⟩
      · split
        · exact ⟨rfl, h.len, h.futs, h.new, h.log⟩
        · exact h
      · exact h
    | accept o => dsimp only; rw [if_neg (by simp [h.stopped])]; exact h
    | conn c r => dsimp only; rw [if_neg (by simp [h.stopped])]; exact h
    | work c u =>
      dsimp only
      split
      · obtain ⟨x, y, e, -⟩ := use_eq s u; rw [e]; exact ⟨h.stopped, h.len, h.futs, h.new, h.log⟩
      · exact h
    | finish c => dsimp only; split; exact ⟨h.stopped, h.len, h.futs, h.new, h.log⟩; exact h
    | push k =>
      dsimp only
      split
      · obtain ⟨x, y, e, -⟩ := use_eq s (.push k); rw [e]; exact ⟨h.stopped, h.len, h.futs, h.new, h.log⟩
      · exact h
    | sse j => obtain ⟨x, y, e⟩ := goSse_eq s j; dsimp only; rw [e]; exact ⟨h.stopped, h.len, h.futs, h.new, h.log⟩
    | wrote j ok => obtain ⟨x, e⟩ := wrote_eq s j ok; dsimp only; rw [e]; exact ⟨h.stopped, h.len, h.futs, h.new, h.log⟩

/-- C117. Once `Stop` has returned, the server never listens again and no future of `Start` that is not ready becomes ready, neither of an earlier nor of a later `Start`,
whatever is called and however the threads take turns: nothing calls `io_context::restart`. So whoever waits for a second `Start` waits for ever. -/
theorem C117_restart_counterexample (ops more : List HlOp) (h : HlEv.returned ∈ (Hl.init.run ops).log) :
    let s := Hl.init.run ops
    let t := Hl.init.run (ops ++ more)
    (t.log.filter fun e => decide (e = .listening ∨ e = .ready)) = (s.log.filter fun e => decide (e = .listening ∨ e = .ready)) ∧
    ∀ i : Nat, t.futs[i]? = some HlFut.ready → s.futs[i]? = some HlFut.ready := by
  intro s t
  have hi := hlInv_run ops
  have hd : Dry s.futs.length (s.log.filter fun e => decide (e = .listening ∨ e = .ready)) s.futs t := by
    show Dry _ _ _ (Hl.init.run (ops ++ more))
    rw [hl_run_append]
    refine hl_run_inv ?_ (fun t op _ h => h.step op)
    exact ⟨hi.over h, Nat.le_refl _, fun i _ hx => hx, fun i hle hx => (by rw [List.getElem?_eq_none hle] at hx; cases hx), rfl⟩
  refine ⟨hd.log, fun i hx => ?_⟩
  by_cases hlt : i < s.futs.length
  · exact hd.futs i hlt hx
  · exact absurd hx (hd.new i (by omega))

/-- A server that was started, stopped and started again. -/
example : let ops : List HlOp := [.start, .io, .accept .ok, .accept .ok, .stop, .caller, .caller, .caller, .caller, .io, .caller, .caller, .start, .io]
    HlEv.returned ∈ (Hl.init.run ops).log ∧ (Hl.init.run ops).futs = [.ready, .waiting] ∧ (Hl.init.run ops).io = .run := by decide +kernel

/-- A server that was stopped before its thread got going: the future of its only `Start` stays as it is. -/
example : let ops : List HlOp := [.start, .stop, .caller, .caller, .caller, .caller, .io, .io, .caller, .caller]
    HlEv.returned ∈ (Hl.init.run ops).log ∧ (Hl.init.run ops).futs = [.waiting] := by decide +kernel

/-! ### A second Start -/

/-- C117. A `Start` that comes before a `Stop` has returned ends the process (a thread is assigned to a joinable one), be it that the first had failed. -/
theorem C117_twice_counterexample (ops : List HlOp) (hc : (Hl.init.run ops).call = .idle) (hl : HlEv.started ∈ (Hl.init.run ops).log)
    (hr : HlEv.returned ∉ sinceStart (Hl.init.run ops).log) : (Hl.init.run (ops ++ [.start])).dead = true := by
  have hi := hlInv_run ops
  rw [hl_run_append]
  generalize Hl.init.run ops = s at *
  show (s.step .start).dead = true
  have hio : s.io ≠ .none := by
    intro hx
    rcases hi.joined hx hl with h | h
    · exact hr h
    · rw [hc] at h; cases h
  unfold Hl.step
  split
  · rename_i hx
    have hg : s.ub = false := by
      cases hu : s.ub with
      | false => rfl
      | true => rcases hi.gone (hi.ub hu) with h | h <;> rw [hc] at h <;> cases h
    simpa [hg] using hx
  · dsimp only
    unfold Hl.start
    dsimp only
    rw [if_neg hio]

/-- The port was taken: the future is ready, the error was told, and trying again ends the process. -/
example : let ops : List HlOp := [.start, .io, .accept .ok, .accept .fail, .io]
    (Hl.init.run ops).futs = [.ready] ∧ (Hl.init.run ops).log = [.started, .failed, .ready] ∧ (Hl.init.run ops).io = .ended ∧ (Hl.init.run (ops ++ [.start])).dead = true := by decide +kernel

/-! ### What a Stop leaves -/

/-- C117. When `Stop` has returned and `Start` was not called again, the io thread and the threads of the event streams are over. -/
theorem C117_stopped (ops : List HlOp) (h : HlEv.returned ∈ sinceStart (Hl.init.run ops).log) : (Hl.init.run ops).io = .none ∧ (Hl.init.run ops).sse = [] :=
  (hlInv_run ops).left h

/-- C117. But a thread that handles a request may go on, and when the server is destroyed it uses members that are no more, before the destructor returns. -/
theorem C117_handler_counterexample (ops : List HlOp) (c : Nat) (u : HlUse) (hc : (Hl.init.run ops).call = .idle) (hd : (Hl.init.run ops).dead = false)
    (h : HlEv.returned ∈ sinceStart (Hl.init.run ops).log) (hh : (Hl.init.run ops).conns[c]? = some .handling) :
    (Hl.init.run (ops ++ [.destroy, .caller, .caller, .work c u])).ub = true ∧ (Hl.init.run (ops ++ [.destroy, .caller, .caller, .work c u])).call ≠ .destroyed := by
  have hi := hlInv_run ops
  obtain ⟨h1, h2⟩ := hi.left h
  rw [hl_run_append]
  generalize Hl.init.run ops = s at *
  have hg : s.gone = false := by
    cases hu : s.gone with
    | false => rfl
    | true => rcases hi.gone hu with h | h <;> rw [hc] at h <;> cases h
  have hu : s.ub = false := by
    cases hu : s.ub with
    | false => rfl
    | true => rw [hi.ub hu] at hg; cases hg
  simp [Hl.run, Hl.step, Hl.caller, Hl.quiet, Hl.use, hc, hd, hu, h1, h2, hh]

/-- A request that is being handled when the server is stopped. -/
example : let ops : List HlOp := [.start, .io, .accept .ok, .accept .ok, .accept .ok, .conn 0 .post, .stop, .caller, .caller, .caller, .caller, .io, .caller, .caller]
    (Hl.init.run ops).call = .idle ∧ (Hl.init.run ops).dead = false ∧ HlEv.returned ∈ sinceStart (Hl.init.run ops).log ∧ (Hl.init.run ops).conns[0]? = some .handling := by decide +kernel

/-! ### Stop comes to an end -/

/-- The caller is in `Stop`. -/
def HlCall.stopping : HlCall → Bool
  | .flag => true
  | .sweep => true
  | .close => true
  | .halt => true
  | .joinIo => true
  | .joinSse => true
  | _ => false

theorem HlInv.alive {s : Hl} (h : HlInv s) (hc : s.call.stopping = true) : s.gone = false ∧ s.ub = false := by
  have hg : s.gone = false := by
    cases hu : s.gone with
    | false => rfl
    | true => rcases h.gone hu with h | h <;> rw [h] at hc <;> cases hc
  refine ⟨hg, ?_⟩
  cases hu : s.ub with
  | false => rfl
  | true => rw [h.ub hu] at hg; cases hg

/-- A call that is under way ends where `dead` is not set. -/
theorem dead_idle {s : Hl} (h : s.dead = true → s.call = .idle) (op : HlOp) : (s.step op).dead = true → (s.step op).call = .idle := by
  by_cases hc : s.call = .idle
  · unfold Hl.step
    split
    · exact h
    · rename_i hx
      have hd : s.dead = false := by cases hd : s.dead <;> simp [hd] at hx ⊢
      cases op with
      | start => dsimp only; unfold Hl.start; dsimp only; split <;> exact fun _ => hc
      | stop => dsimp only; intro x; rw [hd] at x; cases x
      | destroy => dsimp only; intro x; rw [hd] at x; cases x
      | caller => dsimp only; unfold Hl.caller; rw [hc]; exact fun _ => hc
      | io => obtain ⟨x, y, z, e⟩ := goIo_eq s; dsimp only; rw [e]; exact fun _ => hc
      | accept o =>
        dsimp only
        split
        · obtain ⟨a, b, g, f, c, l, e⟩ := goAccept_eq s o; rw [e]; exact fun _ => hc
        · exact fun _ => hc
      | conn c r =>
        dsimp only
        split
        · obtain ⟨x, y, e⟩ := goConn_eq s c r; rw [e]; exact fun _ => hc
        · exact fun _ => hc
      | work c u =>
        dsimp only
        split
        · obtain ⟨x, y, e, -⟩ := use_eq s u; rw [e]; exact fun _ => hc
        · exact fun _ => hc
      | finish c => dsimp only; split <;> exact fun _ => hc
      | push k =>
        dsimp only
        obtain ⟨x, y, e, -⟩ := use_eq s (.push k); rw [e]; exact fun _ => hc
      | sse j => obtain ⟨x, y, e⟩ := goSse_eq s j; dsimp only; rw [e]; exact fun _ => hc
      | wrote j ok => obtain ⟨x, e⟩ := wrote_eq s j ok; dsimp only; rw [e]; exact fun _ => hc
  · have hd : s.dead = false := by cases hd : s.dead with | false => rfl | true => exact absurd (h hd) hc
    by_cases ho : op = .caller
    · subst ho
      unfold Hl.step
      split
      · exact h
      · dsimp only
        unfold Hl.caller
        intro x
        exfalso
        revert x
        repeat' split
        all_goals simp [hd]
    · have := (others_step s op hc ho).2.2.1
      intro x; rw [this, hd] at x; cases x

theorem dead_idle_run (ops : List HlOp) : (Hl.init.run ops).dead = true → (Hl.init.run ops).call = .idle := by
  refine hl_run_inv (P := fun s => s.dead = true → s.call = .idle) ?_ (fun t op _ h => dead_idle h op)
  intro h; cases h

/-- What holds from the joins of `Stop` on. -/
structure Halting (s : Hl) : Prop where
  inv : HlInv s
  dead : s.dead = false
  call : s.call = .joinIo ∨ s.call = .joinSse

theorem Halting.alive {s : Hl} (h : Halting s) : s.gone = false ∧ s.ub = false :=
  h.inv.alive (by rcases h.call with e | e <;> rw [e] <;> rfl)

theorem Halting.facts {s : Hl} (h : Halting s) : s.stopped = true ∧ s.running = false := h.inv.joins h.call

theorem Halting.idle {s : Hl} (h : Halting s) : s.call ≠ .idle := by rcases h.call with e | e <;> rw [e] <;> exact (nomatch ·)

/-- A step of another thread. -/
theorem Halting.other {s : Hl} (h : Halting s) {op : HlOp} (ho : op ≠ .caller) : Halting (s.step op) ∧ (s.step op).call = s.call := by
  obtain ⟨h1, -, h3, -, -, -⟩ := others_step s op h.idle ho
  exact ⟨⟨h.inv.step op, h3.trans h.dead, by rw [h1]; exact h.call⟩, h1⟩

/-- In the last join a thread of an event stream does one of these. -/
theorem sse_other {s : Hl} (h : Halting s) (hc : s.call = .joinSse) {op : HlOp} (ho : op ≠ .caller) : (s.step op).sse.length = s.sse.length ∧
    ∀ (j : Nat) (st : HlSse) (k : Nat), s.sse[j]? = some (st, k) → ∃ st', (s.step op).sse[j]? = some (st', k) ∧
      (st = .ended → st' = .ended) ∧ (st = .top ∨ st = .wait → (st' = st ∧ op ≠ .sse j) ∨ st' = .ended) ∧ (st = .write → (st' = st ∧ ∀ ok, op ≠ .wrote j ok) ∨ st' = .top ∨ st' = .ended) := by
  have hio : s.io = .none := h.inv.late (by rw [hc]; rfl)
  have same : ∀ op' : HlOp, (∀ j, op' ≠ .sse j) → (∀ j ok, op' ≠ .wrote j ok) → ∀ t : Hl, t.sse = s.sse → t.sse.length = s.sse.length ∧
      ∀ (j : Nat) (st : HlSse) (k : Nat), s.sse[j]? = some (st, k) → ∃ st', t.sse[j]? = some (st', k) ∧
        (st = .ended → st' = .ended) ∧ (st = .top ∨ st = .wait → (st' = st ∧ op' ≠ .sse j) ∨ st' = .ended) ∧ (st = .write → (st' = st ∧ ∀ ok, op' ≠ .wrote j ok) ∨ st' = .top ∨ st' = .ended) := by
    intro op' g1 g2 t ht
    rw [ht]
    exact ⟨rfl, fun j st k hj => ⟨st, hj, id, fun _ => .inl ⟨rfl, g1 j⟩, fun _ => .inl ⟨rfl, g2 j⟩⟩⟩
  rw [step_alive s op h.dead h.alive.2]
  cases op with
  | start => dsimp only; rw [if_neg h.idle]; exact same _ (by simp) (by simp) _ rfl
  | stop => dsimp only; rw [if_neg h.idle]; exact same _ (by simp) (by simp) _ rfl
  | destroy => dsimp only; rw [if_neg h.idle]; exact same _ (by simp) (by simp) _ rfl
  | caller => exact absurd rfl ho
  | io => obtain ⟨x, y, z, e⟩ := goIo_eq s; dsimp only; rw [e]; exact same _ (by simp) (by simp) _ rfl
  | accept o => dsimp only; rw [if_neg (by simp [hio])]; exact same _ (by simp) (by simp) _ rfl
  | conn c r => dsimp only; rw [if_neg (by simp [hio])]; exact same _ (by simp) (by simp) _ rfl
  | work c u =>
    dsimp only
    split
    · obtain ⟨x, y, e, -⟩ := use_eq s u; rw [e]; exact same _ (by simp) (by simp) _ rfl
    · exact same _ (by simp) (by simp) _ rfl
  | finish c => dsimp only; split <;> exact same _ (by simp) (by simp) _ rfl
  | push k => dsimp only; rw [if_neg h.idle]; exact same _ (by simp) (by simp) _ rfl
  | sse i =>
    dsimp only
    unfold Hl.goSse
    rw [h.facts.2]
    have put : ∀ (k : Nat) (st0 : HlSse), s.sse[i]? = some (st0, k) → st0 = .top ∨ st0 = .wait → ∀ t : Hl, t.sse = s.sse.set i (.ended, k) → t.sse.length = s.sse.length ∧
        ∀ (j : Nat) (st : HlSse) (k : Nat), s.sse[j]? = some (st, k) → ∃ st', t.sse[j]? = some (st', k) ∧
          (st = .ended → st' = .ended) ∧ (st = .top ∨ st = .wait → (st' = st ∧ HlOp.sse i ≠ .sse j) ∨ st' = .ended) ∧
          (st = .write → (st' = st ∧ ∀ ok, HlOp.sse i ≠ .wrote j ok) ∨ st' = .top ∨ st' = .ended) := by
      intro k st0 hi hst t ht
      rw [ht]
      refine ⟨by simp, fun j st k' hj => ?_⟩
      rw [List.getElem?_set]
      by_cases e : i = j
      · subst e
        rw [hi] at hj; cases hj
        rw [if_pos rfl, if_pos (List.getElem?_eq_some_iff.1 hi).1]
        exact ⟨.ended, rfl, fun _ => rfl, fun _ => .inr rfl, fun _ => .inr (.inr rfl)⟩
      · rw [if_neg e]
        exact ⟨st, hj, id, fun _ => .inl ⟨rfl, by simpa using e⟩, fun _ => .inl ⟨rfl, by simp⟩⟩
    split
    · rename_i k hk
      exact put k .top hk (.inl rfl) _ (by simp)
    · rename_i k hk
      obtain ⟨x, hx⟩ : ∃ x, s.sessions[k]? = some x := ⟨_, List.getElem?_eq_getElem (h.inv.sse i _ k hk)⟩
      rw [hx]
      dsimp only
      rw [if_pos (by simp)]
      exact put k .wait hk (.inr rfl) _ rfl
    · rename_i n1 n2
      refine ⟨rfl, fun j st k hj => ⟨st, hj, id, fun hst => .inl ⟨rfl, ?_⟩, fun _ => .inl ⟨rfl, by simp⟩⟩⟩
      intro e; cases e
      rcases hst with e | e
      · exact n1 k (by rw [hj, e])
      · exact n2 k (by rw [hj, e])
  | wrote i ok =>
    dsimp only
    unfold Hl.wrote
    split
    · rename_i k hk
      refine ⟨by simp, fun j st k' hj => ?_⟩
      dsimp only
      rw [List.getElem?_set]
      by_cases e : i = j
      · subst e
        rw [hk] at hj; cases hj
        rw [if_pos rfl, if_pos (List.getElem?_eq_some_iff.1 hk).1]
        refine ⟨_, rfl, fun x => (nomatch x), fun x => ?_, fun _ => ?_⟩
        · rcases x with x | x <;> cases x
        · cases ok
          · exact .inr (.inr rfl)
          · exact .inr (.inl rfl)
      · rw [if_neg e]
        exact ⟨st, hj, id, fun _ => .inl ⟨rfl, by simp⟩, fun _ => .inl ⟨rfl, fun ok => by simp [e]⟩⟩
    · rename_i n1
      refine ⟨rfl, fun j st k hj => ⟨st, hj, id, fun hst => .inl ⟨rfl, by simp⟩, fun hst => .inl ⟨rfl, fun ok' => ?_⟩⟩⟩
      intro e; cases e
      exact n1 k (by rw [hj, hst])

/-- Every thread gets its turn again and again, and every `write` of an event stream ends. -/
structure FairStop (f : Nat → HlOp) : Prop where
  caller : ∀ t, ∃ u, t ≤ u ∧ f u = .caller
  io : ∀ t, ∃ u, t ≤ u ∧ f u = .io
  sse : ∀ t j, ∃ u, t ≤ u ∧ f u = .sse j
  wrote : ∀ t j, ∃ u ok, t ≤ u ∧ f u = .wrote j ok

/-- The thread of the stream `j` is over, or the call is. -/
theorem sse_over (s0 : Hl) (f : Nat → HlOp) (hf : FairStop f) {T : Nat} (h : Halting (hlStates s0 f T)) (hc : (hlStates s0 f T).call = .joinSse) (j : Nat) (st : HlSse) (k : Nat)
    (hj : (hlStates s0 f T).sse[j]? = some (st, k)) : ∃ t, T ≤ t ∧ ((hlStates s0 f t).call = .idle ∨ ((Halting (hlStates s0 f t) ∧ (hlStates s0 f t).call = .joinSse) ∧ (hlStates s0 f t).sse[j]? = some (.ended, k))) := by
  -- what a turn of the caller does
  have hcall : ∀ v, Halting (hlStates s0 f v) → (hlStates s0 f v).call = .joinSse → f v = .caller → (hlStates s0 f (v + 1)).call = .idle ∨ hlStates s0 f (v + 1) = hlStates s0 f v := by
    intro v g1 g2 g3
    show ((hlStates s0 f v).step (f v)).call = .idle ∨ (hlStates s0 f v).step (f v) = hlStates s0 f v
    rw [g3, step_alive _ _ g1.dead g1.alive.2]
    dsimp only
    unfold Hl.caller
    rw [g2]
    dsimp only
    split
    · exact .inl rfl
    · exact .inr rfl
  have ended : ∀ T' st', T ≤ T' → Halting (hlStates s0 f T') → (hlStates s0 f T').call = .joinSse → (hlStates s0 f T').sse[j]? = some (st', k) → st' ≠ .write →
      ∃ t, T ≤ t ∧ ((hlStates s0 f t).call = .idle ∨ ((Halting (hlStates s0 f t) ∧ (hlStates s0 f t).call = .joinSse) ∧ (hlStates s0 f t).sse[j]? = some (.ended, k))) := by
    intro T' st' hle g1 g2 g3 g4
    by_cases he : st' = .ended
    · exact ⟨T', hle, .inr ⟨⟨g1, g2⟩, by rw [g3, he]⟩⟩
    have hst : st' = .top ∨ st' = .wait := by cases st' <;> simp at g4 he ⊢
    obtain ⟨v, k1, -, k3⟩ := hl_until s0 f (t := T') (fun s => (Halting s ∧ s.call = .joinSse) ∧ s.sse[j]? = some (st', k))
      (fun v => (hlStates s0 f (v + 1)).call = .idle ∨ ((Halting (hlStates s0 f (v + 1)) ∧ (hlStates s0 f (v + 1)).call = .joinSse) ∧ (hlStates s0 f (v + 1)).sse[j]? = some (.ended, k))) ⟨⟨g1, g2⟩, g3⟩
      (fun v _ ⟨⟨p1, p2⟩, p3⟩ => by
        by_cases ho : f v = .caller
        · rcases hcall v p1 p2 ho with q | q
          · exact .inr (.inl q)
          · rw [q]; exact .inl ⟨⟨p1, p2⟩, p3⟩
        · obtain ⟨q1, q2⟩ := p1.other ho
          obtain ⟨st'', r1, -, r3, -⟩ := (sse_other p1 p2 ho).2 j st' k p3
          rcases r3 hst with ⟨rfl, -⟩ | rfl
          · exact .inl ⟨⟨q1, q2.trans p2⟩, r1⟩
          · exact .inr (.inr ⟨⟨q1, q2.trans p2⟩, r1⟩))
      (by
        obtain ⟨v, k1, k2⟩ := hf.sse T' j
        refine ⟨v, k1, fun ⟨⟨p1, p2⟩, p3⟩ => ?_⟩
        have ho : f v ≠ .caller := by rw [k2]; exact (nomatch ·)
        obtain ⟨q1, q2⟩ := p1.other ho
        obtain ⟨st'', r1, -, r3, -⟩ := (sse_other p1 p2 ho).2 j st' k p3
        rcases r3 hst with ⟨-, r⟩ | rfl
        · exact absurd k2 r
        · exact .inr ⟨⟨q1, q2.trans p2⟩, r1⟩)
    exact ⟨v + 1, by omega, k3⟩
  by_cases hw : st = .write
  · subst hw
    obtain ⟨v, k1, -, k3⟩ := hl_until s0 f (t := T) (fun s => (Halting s ∧ s.call = .joinSse) ∧ s.sse[j]? = some (.write, k))
      (fun v => (hlStates s0 f (v + 1)).call = .idle ∨ ((Halting (hlStates s0 f (v + 1)) ∧ (hlStates s0 f (v + 1)).call = .joinSse) ∧ ∃ st', st' ≠ .write ∧ (hlStates s0 f (v + 1)).sse[j]? = some (st', k)))
      ⟨⟨h, hc⟩, hj⟩
      (fun v _ ⟨⟨p1, p2⟩, p3⟩ => by
        by_cases ho : f v = .caller
        · rcases hcall v p1 p2 ho with q | q
          · exact .inr (.inl q)
          · rw [q]; exact .inl ⟨⟨p1, p2⟩, p3⟩
        · obtain ⟨q1, q2⟩ := p1.other ho
          obtain ⟨st'', r1, -, -, r4⟩ := (sse_other p1 p2 ho).2 j .write k p3
          rcases r4 rfl with ⟨rfl, -⟩ | rfl | rfl
          · exact .inl ⟨⟨q1, q2.trans p2⟩, r1⟩
          · exact .inr (.inr ⟨⟨q1, q2.trans p2⟩, .top, (nomatch ·), r1⟩)
          · exact .inr (.inr ⟨⟨q1, q2.trans p2⟩, .ended, (nomatch ·), r1⟩))
      (by
        obtain ⟨v, ok, k1, k2⟩ := hf.wrote T j
        refine ⟨v, k1, fun ⟨⟨p1, p2⟩, p3⟩ => ?_⟩
        have ho : f v ≠ .caller := by rw [k2]; exact (nomatch ·)
        obtain ⟨q1, q2⟩ := p1.other ho
        obtain ⟨st'', r1, -, -, r4⟩ := (sse_other p1 p2 ho).2 j .write k p3
        rcases r4 rfl with ⟨-, r⟩ | rfl | rfl
        · exact absurd k2 (r ok)
        · exact .inr ⟨⟨q1, q2.trans p2⟩, .top, (nomatch ·), r1⟩
        · exact .inr ⟨⟨q1, q2.trans p2⟩, .ended, (nomatch ·), r1⟩)
    rcases k3 with k3 | ⟨⟨p1, p2⟩, st', q1, q2⟩
    · exact ⟨v + 1, by omega, .inl k3⟩
    · exact ended (v + 1) st' (by omega) p1 p2 q2 q1
  · exact ended T st (Nat.le_refl _) h hc hj hw

/-- In the last join nothing is undone. -/
theorem join_keeps (s0 : Hl) (f : Nat → HlOp) {T : Nat} (h : Halting (hlStates s0 f T)) (hc : (hlStates s0 f T).call = .joinSse) : ∀ u, T ≤ u →
    (∃ t, T ≤ t ∧ (hlStates s0 f t).call = .idle) ∨ ((Halting (hlStates s0 f u) ∧ (hlStates s0 f u).call = .joinSse) ∧ (hlStates s0 f u).sse.length = (hlStates s0 f T).sse.length ∧
      ∀ (j k : Nat), (hlStates s0 f T).sse[j]? = some (.ended, k) → (hlStates s0 f u).sse[j]? = some (.ended, k)) := by
  intro u hu
  induction hu with
  | refl => exact .inr ⟨⟨h, hc⟩, rfl, fun j k hj => hj⟩
  | @step u hu ih =>
    rcases ih with ih | ⟨⟨p1, p2⟩, p3, p4⟩
    · exact .inl ih
    · by_cases ho : f u = .caller
      · have : (hlStates s0 f (u + 1)).call = .idle ∨ hlStates s0 f (u + 1) = hlStates s0 f u := by
          show ((hlStates s0 f u).step (f u)).call = .idle ∨ (hlStates s0 f u).step (f u) = hlStates s0 f u
          rw [ho, step_alive _ _ p1.dead p1.alive.2]
          dsimp only
          unfold Hl.caller
          rw [p2]
          dsimp only
          split
          · exact .inl rfl
          · exact .inr rfl
        rcases this with q | q
        · exact .inl ⟨u + 1, Nat.le_succ_of_le hu, q⟩
        · right; rw [q]; exact ⟨⟨p1, p2⟩, p3, p4⟩
      · obtain ⟨q1, q2⟩ := p1.other ho
        obtain ⟨r1, r2⟩ := sse_other p1 p2 ho
        refine .inr ⟨⟨q1, q2.trans p2⟩, r1.trans p3, fun j k hj => ?_⟩
        obtain ⟨st', t1, t2, -, -⟩ := r2 j .ended k (p4 j k hj)
        rw [t2 rfl] at t1
        exact t1

/-- The last join ends. -/
theorem join_ends (s0 : Hl) (f : Nat → HlOp) (hf : FairStop f) {T : Nat} (h : Halting (hlStates s0 f T)) (hc : (hlStates s0 f T).call = .joinSse) : ∃ t, T ≤ t ∧ (hlStates s0 f t).call = .idle := by
  have key : ∀ n, n ≤ (hlStates s0 f T).sse.length → ∃ t, T ≤ t ∧ ((hlStates s0 f t).call = .idle ∨ ((Halting (hlStates s0 f t) ∧ (hlStates s0 f t).call = .joinSse) ∧
      (hlStates s0 f t).sse.length = (hlStates s0 f T).sse.length ∧ ∀ j, j < n → ∃ k, (hlStates s0 f t).sse[j]? = some (.ended, k))) := by
    intro n
    induction n with
    | zero => exact fun _ => ⟨T, Nat.le_refl _, .inr ⟨⟨h, hc⟩, rfl, fun j hj => absurd hj (by omega)⟩⟩
    | succ n ih =>
      intro hn
      obtain ⟨t, h1, h2 | ⟨⟨p1, p2⟩, p3, p4⟩⟩ := ih (by omega)
      · exact ⟨t, h1, .inl h2⟩
      · obtain ⟨⟨st, k⟩, hj⟩ : ∃ x, (hlStates s0 f t).sse[n]? = some x := ⟨_, List.getElem?_eq_getElem (by omega)⟩
        obtain ⟨u, g1, g2 | ⟨⟨q1, q2⟩, q3⟩⟩ := sse_over s0 f hf p1 p2 n st k hj
        · exact ⟨u, by omega, .inl g2⟩
        · rcases join_keeps s0 f p1 p2 u g1 with ⟨w, w1, w2⟩ | ⟨-, r2, r3⟩
          · exact ⟨w, by omega, .inl w2⟩
          · refine ⟨u, by omega, .inr ⟨⟨q1, q2⟩, r2.trans p3, fun j hjn => ?_⟩⟩
            by_cases e : j = n
            · subst e; exact ⟨k, q3⟩
            · obtain ⟨k', hk'⟩ := p4 j (by omega)
              exact ⟨k', r3 j k' hk'⟩
  obtain ⟨t, h1, h2 | ⟨⟨p1, p2⟩, p3, p4⟩⟩ := key _ (Nat.le_refl _)
  · exact ⟨t, h1, h2⟩
  · obtain ⟨u, g1, g2⟩ := hf.caller t
    rcases join_keeps s0 f p1 p2 u g1 with ⟨w, w1, w2⟩ | ⟨⟨q1, q2⟩, r2, r3⟩
    · exact ⟨w, by omega, w2⟩
    · refine ⟨u + 1, by omega, ?_⟩
      show ((hlStates s0 f u).step (f u)).call = .idle
      rw [g2, step_alive _ _ q1.dead q1.alive.2]
      dsimp only
      unfold Hl.caller
      rw [q2]
      dsimp only
      have : (hlStates s0 f u).quiet = true := by
        unfold Hl.quiet
        rw [List.all_eq_true]
        intro x hx
        obtain ⟨j, hj, e⟩ := List.mem_iff_getElem.1 hx
        obtain ⟨k, hk⟩ := p4 j (by omega)
        have := r3 j k hk
        rw [List.getElem?_eq_getElem hj, e] at this
        cases this
        rfl
      rw [if_pos this]

/-- What the io thread does next when the context is stopped. -/
def HlIo.next : HlIo → HlIo
  | .entry => .run
  | .run => .ended
  | x => x

/-- The join of the io thread ends. -/
theorem join_io (s0 : Hl) (f : Nat → HlOp) (hf : FairStop f) {T : Nat} (h : Halting (hlStates s0 f T)) (hc : (hlStates s0 f T).call = .joinIo) :
    ∃ t, T ≤ t ∧ Halting (hlStates s0 f t) ∧ (hlStates s0 f t).call = .joinSse := by
  -- a turn of the caller
  have hcall : ∀ v, Halting (hlStates s0 f v) → (hlStates s0 f v).call = .joinIo → f v = .caller →
      (Halting (hlStates s0 f (v + 1)) ∧ (hlStates s0 f (v + 1)).call = .joinSse) ∨ (hlStates s0 f (v + 1) = hlStates s0 f v ∧ ((hlStates s0 f v).io = .entry ∨ (hlStates s0 f v).io = .run)) := by
    intro v g1 g2 g3
    have hi := g1.inv.step (f v)
    show (Halting ((hlStates s0 f v).step (f v)) ∧ ((hlStates s0 f v).step (f v)).call = .joinSse) ∨ ((hlStates s0 f v).step (f v) = hlStates s0 f v ∧ _)
    rw [g3] at hi ⊢
    rw [step_alive _ _ g1.dead g1.alive.2] at hi ⊢
    dsimp only at hi ⊢
    unfold Hl.caller at hi ⊢
    rw [g2] at hi ⊢
    dsimp only at hi ⊢
    split at hi
    · rename_i hx
      rw [if_pos hx]
      exact .inl ⟨⟨hi, g1.dead, .inr rfl⟩, rfl⟩
    · rename_i hx
      rw [if_neg hx]
      refine .inr ⟨rfl, ?_⟩
      cases e : (hlStates s0 f v).io <;> simp [e] at hx ⊢
  -- a turn of another thread
  have hother : ∀ v, Halting (hlStates s0 f v) → (hlStates s0 f v).call = .joinIo → f v ≠ .caller → (Halting (hlStates s0 f (v + 1)) ∧ (hlStates s0 f (v + 1)).call = .joinIo) ∧
      (f v ≠ .io → (hlStates s0 f (v + 1)).io = (hlStates s0 f v).io) ∧ (f v = .io → (hlStates s0 f (v + 1)).io = (hlStates s0 f v).io.next) := by
    intro v g1 g2 g3
    obtain ⟨q1, q2⟩ := g1.other g3
    refine ⟨⟨q1, q2.trans g2⟩, (others_step _ _ g1.idle g3).2.2.2.2.1, fun e => ?_⟩
    show ((hlStates s0 f v).step (f v)).io = _
    rw [e, step_alive _ _ g1.dead g1.alive.2]
    dsimp only
    unfold Hl.goIo
    cases e' : (hlStates s0 f v).io <;> simp [g1.facts.1, e', HlIo.next]
  have last : ∀ T', T ≤ T' → Halting (hlStates s0 f T') → (hlStates s0 f T').call = .joinIo → (hlStates s0 f T').io = .none ∨ (hlStates s0 f T').io = .ended →
      ∃ t, T ≤ t ∧ Halting (hlStates s0 f t) ∧ (hlStates s0 f t).call = .joinSse := by
    intro T' hle g1 g2 g3
    obtain ⟨v, k1, -, k3⟩ := hl_until s0 f (t := T') (fun s => (Halting s ∧ s.call = .joinIo) ∧ (s.io = .none ∨ s.io = .ended))
      (fun v => Halting (hlStates s0 f (v + 1)) ∧ (hlStates s0 f (v + 1)).call = .joinSse) ⟨⟨g1, g2⟩, g3⟩
      (fun v _ ⟨⟨p1, p2⟩, p3⟩ => by
        by_cases ho : f v = .caller
        · rcases hcall v p1 p2 ho with q | ⟨-, q⟩
          · exact .inr q
          · rcases p3 with e | e <;> rw [e] at q <;> rcases q with q | q <;> cases q
        · obtain ⟨q1, q2, q3⟩ := hother v p1 p2 ho
          refine .inl ⟨q1, ?_⟩
          by_cases hio : f v = .io
          · rcases p3 with e | e
            · exact .inl (by rw [q3 hio, e]; rfl)
            · exact .inr (by rw [q3 hio, e]; rfl)
          · rw [q2 hio]; exact p3)
      (by
        obtain ⟨v, k1, k2⟩ := hf.caller T'
        refine ⟨v, k1, fun ⟨⟨p1, p2⟩, p3⟩ => ?_⟩
        rcases hcall v p1 p2 k2 with q | ⟨-, q⟩
        · exact q
        · rcases p3 with e | e <;> rw [e] at q <;> rcases q with q | q <;> cases q)
    exact ⟨v + 1, by omega, k3⟩
  have turn : ∀ T' (x y : HlIo), T ≤ T' → Halting (hlStates s0 f T') → (hlStates s0 f T').call = .joinIo → (hlStates s0 f T').io = x → (x = .entry ∧ y = .run ∨ x = .run ∧ y = .ended) →
      ∃ t, T ≤ t ∧ Halting (hlStates s0 f t) ∧ (hlStates s0 f t).call = .joinIo ∧ (hlStates s0 f t).io = y := by
    intro T' x y hle g1 g2 g3 hxy
    have hy : x.next = y := by rcases hxy with ⟨rfl, rfl⟩ | ⟨rfl, rfl⟩ <;> rfl
    obtain ⟨v, k1, -, k3⟩ := hl_until s0 f (t := T') (fun s => (Halting s ∧ s.call = .joinIo) ∧ s.io = x)
      (fun v => Halting (hlStates s0 f (v + 1)) ∧ (hlStates s0 f (v + 1)).call = .joinIo ∧ (hlStates s0 f (v + 1)).io = y) ⟨⟨g1, g2⟩, g3⟩
      (fun v _ ⟨⟨p1, p2⟩, p3⟩ => by
        by_cases ho : f v = .caller
        · rcases hcall v p1 p2 ho with q | ⟨q, -⟩
          · exfalso
            have : (hlStates s0 f v).step (f v) = hlStates s0 f v := by
              rw [ho, step_alive _ _ p1.dead p1.alive.2]
              dsimp only
              unfold Hl.caller
              rw [p2]
              dsimp only
              rw [if_neg]
              rw [p3]
              rcases hxy with ⟨rfl, -⟩ | ⟨rfl, -⟩ <;> simp
            have e : hlStates s0 f (v + 1) = hlStates s0 f v := this
            rw [e, p2] at q
            cases q.2
          · rw [q]; exact .inl ⟨⟨p1, p2⟩, p3⟩
        · obtain ⟨q1, q2, q3⟩ := hother v p1 p2 ho
          by_cases hio : f v = .io
          · exact .inr ⟨q1.1, q1.2, by rw [q3 hio, p3]; exact hy⟩
          · exact .inl ⟨q1, by rw [q2 hio]; exact p3⟩)
      (by
        obtain ⟨v, k1, k2⟩ := hf.io T'
        refine ⟨v, k1, fun ⟨⟨p1, p2⟩, p3⟩ => ?_⟩
        obtain ⟨q1, q2, q3⟩ := hother v p1 p2 (by rw [k2]; exact (nomatch ·))
        exact ⟨q1.1, q1.2, by rw [q3 k2, p3]; exact hy⟩)
    exact ⟨v + 1, by omega, k3⟩
  have fromRun : ∀ T', T ≤ T' → Halting (hlStates s0 f T') → (hlStates s0 f T').call = .joinIo → (hlStates s0 f T').io = .run →
      ∃ t, T ≤ t ∧ Halting (hlStates s0 f t) ∧ (hlStates s0 f t).call = .joinSse := by
    intro T' hle g1 g2 g3
    obtain ⟨t, t1, t2, t3, t4⟩ := turn T' .run .ended hle g1 g2 g3 (.inr ⟨rfl, rfl⟩)
    exact last t t1 t2 t3 (.inr t4)
  cases e : (hlStates s0 f T).io with
  | none => exact last T (Nat.le_refl _) h hc (.inl e)
  | ended => exact last T (Nat.le_refl _) h hc (.inr e)
  | run => exact fromRun T (Nat.le_refl _) h hc e
  | entry =>
    obtain ⟨t, t1, t2, t3, t4⟩ := turn T .entry .run (Nat.le_refl _) h hc e (.inl ⟨rfl, rfl⟩)
    exact fromRun t t1 t2 t3 t4

/-- C117. A `Stop` that is under way returns when every thread gets its turns and every `write` to an event stream ends. -/
theorem C117_stop_returns_partial (ops : List HlOp) (f : Nat → HlOp) (hf : FairStop f) (hc : (Hl.init.run ops).call = .flag) : ∃ t, (hlStates (Hl.init.run ops) f t).call = .idle := by
  have hinv : ∀ t, HlInv (hlStates (Hl.init.run ops) f t) := by
    intro t
    rw [hlStates_run, ← hl_run_append]
    exact hlInv_run _
  have hdead : ∀ t, (hlStates (Hl.init.run ops) f t).dead = true → (hlStates (Hl.init.run ops) f t).call = .idle := by
    intro t
    rw [hlStates_run, ← hl_run_append]
    exact dead_idle_run _
  generalize Hl.init.run ops = s0 at *
  have next : ∀ T (x y : HlCall), (hlStates s0 f T).call = x → (x = .flag ∧ y = .sweep ∨ x = .sweep ∧ y = .close ∨ x = .close ∧ y = .halt ∨ x = .halt ∧ y = .joinIo) → ∃ t, (hlStates s0 f t).call = y := by
    intro T x y hx hxy
    have hne : x ≠ .idle := by rcases hxy with ⟨rfl, -⟩ | ⟨rfl, -⟩ | ⟨rfl, -⟩ | ⟨rfl, -⟩ <;> exact (nomatch ·)
    have hst : x.stopping = true := by rcases hxy with ⟨rfl, -⟩ | ⟨rfl, -⟩ | ⟨rfl, -⟩ | ⟨rfl, -⟩ <;> rfl
    have hcall : ∀ v, (hlStates s0 f v).call = x → f v = .caller → (hlStates s0 f (v + 1)).call = y := by
      intro v p1 p2
      show ((hlStates s0 f v).step (f v)).call = y
      have hd : (hlStates s0 f v).dead = false := by
        cases e : (hlStates s0 f v).dead with
        | false => rfl
        | true => exact absurd (hdead v e) (by rw [p1]; exact hne)
      rw [p2, step_alive _ _ hd ((hinv v).alive (by rw [p1]; exact hst)).2]
      dsimp only
      unfold Hl.caller
      rw [p1]
      rcases hxy with ⟨rfl, rfl⟩ | ⟨rfl, rfl⟩ | ⟨rfl, rfl⟩ | ⟨rfl, rfl⟩ <;> rfl
    obtain ⟨v, -, -, k⟩ := hl_until s0 f (t := T) (fun s => s.call = x) (fun v => (hlStates s0 f (v + 1)).call = y) hx
      (fun v _ p => by
        by_cases ho : f v = .caller
        · exact .inr (hcall v p ho)
        · exact .inl ((others_step _ _ (by rw [p]; exact hne) ho).1.trans p))
      (by
        obtain ⟨v, k1, k2⟩ := hf.caller T
        exact ⟨v, k1, fun p => hcall v p k2⟩)
    exact ⟨v + 1, k⟩
  obtain ⟨t1, h1⟩ := next 0 .flag .sweep hc (by simp)
  obtain ⟨t2, h2⟩ := next t1 .sweep .close h1 (by simp)
  obtain ⟨t3, h3⟩ := next t2 .close .halt h2 (by simp)
  obtain ⟨t4, h4⟩ := next t3 .halt .joinIo h3 (by simp)
  have hd4 : (hlStates s0 f t4).dead = false := by
    cases e : (hlStates s0 f t4).dead with
    | false => rfl
    | true => have := hdead t4 e; rw [h4] at this; cases this
  obtain ⟨t5, -, h5, h6⟩ := join_io s0 f hf ⟨hinv t4, hd4, .inl h4⟩ h4
  obtain ⟨t6, -, h7⟩ := join_ends s0 f hf h5 h6
  exact ⟨t6, h7⟩

def hlTurn : Nat → HlOp
  | 0 => .caller
  | 1 => .io
  | n + 2 => if n % 2 = 0 then .sse (n / 2) else .wrote (n / 2) true

/-- There are such executions, and a `Stop` with an event stream. -/
example : FairStop (fun t => hlTurn (spiralAt t).1) ∧
    (Hl.init.run [.start, .io, .accept .ok, .accept .ok, .accept .ok, .conn 0 .post, .work 0 .create, .finish 0, .accept .ok, .conn 1 (.stream 0), .stop]).call = .flag ∧
    (Hl.init.run [.start, .io, .accept .ok, .accept .ok, .accept .ok, .conn 0 .post, .work 0 .create, .finish 0, .accept .ok, .conn 1 (.stream 0), .stop]).sse = [(.write, 0)] := by
  refine ⟨⟨fun t => ?_, fun t => ?_, fun t j => ?_, fun t j => ?_⟩, by decide +kernel, by decide +kernel⟩
  · obtain ⟨u, h1, h2⟩ := spiral_again t 0; exact ⟨u, h1, by simp only [h2]; rfl⟩
  · obtain ⟨u, h1, h2⟩ := spiral_again t 1; exact ⟨u, h1, by simp only [h2]; rfl⟩
  · obtain ⟨u, h1, h2⟩ := spiral_again t (2 * j + 2); exact ⟨u, h1, by simp only [h2, hlTurn]; rw [if_pos (by omega)]; congr 1; omega⟩
  · obtain ⟨u, h1, h2⟩ := spiral_again t (2 * j + 1 + 2)
    exact ⟨u, true, h1, by simp only [h2, hlTurn]; rw [if_neg (by omega)]; congr 1; omega⟩

/-- A `write` that does not end. -/
structure Hung (j k : Nat) (s : Hl) : Prop where
  call : s.call.stopping = true
  sse : s.sse[j]? = some (.write, k)

theorem Hung.step {j k : Nat} {s : Hl} (h : Hung j k s) (op : HlOp) (hop : ∀ ok, op ≠ .wrote j ok) : Hung j k (s.step op) := by
  have hidle : s.call ≠ .idle := by intro e; have := h.call; rw [e] at this; cases this
  unfold Hl.step
  split
  · exact h
  · cases op with
    | start => exact h
    | stop => exact h
    | destroy => exact h
    | caller =>
      dsimp only
      have hc := h.call
      unfold Hl.caller
      split <;> rename_i e
      · exact h
      · exact ⟨rfl, h.sse⟩
      · exact ⟨rfl, h.sse⟩
      · exact ⟨rfl, h.sse⟩
      · exact ⟨rfl, h.sse⟩
      · split
        · exact ⟨rfl, h.sse⟩
        · exact h
      · split
        · rename_i hq
          exfalso
          unfold Hl.quiet at hq
          rw [List.all_eq_true] at hq
          have := hq _ (List.mem_of_getElem? h.sse)
          simp at this
        · exact h
      all_goals (rw [e] at hc; cases hc)
    | io => obtain ⟨x, y, z, e⟩ := goIo_eq s; dsimp only; rw [e]; exact ⟨h.call, h.sse⟩
    | accept o =>
      dsimp only
      split
      · obtain ⟨a, b, g, f, c, l, e⟩ := goAccept_eq s o; rw [e]; exact ⟨h.call, h.sse⟩
      · exact h
    | conn c r =>
      dsimp only
      split
      · unfold Hl.goConn
        repeat' split
        all_goals first
          | exact h
          | exact ⟨h.call, h.sse⟩
          | exact ⟨h.call, by dsimp only; rw [List.getElem?_append_left (List.getElem?_eq_some_iff.1 h.sse).1]; exact h.sse⟩
      · exact h
    | work c u =>
      dsimp only
      split
      · obtain ⟨x, y, e, -⟩ := use_eq s u; rw [e]; exact ⟨h.call, h.sse⟩
      · exact h
    | finish c => dsimp only; split; exact ⟨h.call, h.sse⟩; exact h
    | push i => exact h
    | sse i =>
      dsimp only
      unfold Hl.goSse
      have hne : ∀ (x : HlSse × Nat) (k' : Nat), (s.sse[i]? = some (.top, k') ∨ s.sse[i]? = some (.wait, k')) → (s.sse.set i x)[j]? = some (.write, k) := by
        intro x k' hx
        rw [List.getElem?_set, if_neg, h.sse]
        intro e
        subst e
        rw [h.sse] at hx
        rcases hx with hx | hx <;> cases hx
      split
      · rename_i hx; exact ⟨h.call, hne _ _ (.inl hx)⟩
      · rename_i hx
        split
        · split
          · exact ⟨h.call, hne _ _ (.inr hx)⟩
          · split
            · exact ⟨h.call, hne _ _ (.inr hx)⟩
            · exact ⟨h.call, hne _ _ (.inr hx)⟩
        · exact h
      · exact h
    | wrote i ok =>
      dsimp only
      unfold Hl.wrote
      split
      · refine ⟨h.call, ?_⟩
        dsimp only
        rw [List.getElem?_set, if_neg, h.sse]
        intro e
        subst e
        exact hop ok rfl
      · exact h

/-- C117. A `write` to a reader of an event stream that takes nothing keeps `Stop` from returning: it has no time limit and `Stop` does not close its socket. -/
theorem C117_stop_hangs_counterexample (ops more : List HlOp) (j k : Nat) (hc : (Hl.init.run ops).call = .flag) (hj : (Hl.init.run ops).sse[j]? = some (.write, k))
    (hm : ∀ ok, HlOp.wrote j ok ∉ more) : (Hl.init.run (ops ++ more)).call ≠ .idle := by
  rw [hl_run_append]
  have h : Hung j k ((Hl.init.run ops).run more) := hl_run_inv (P := Hung j k) ⟨by rw [hc]; rfl, hj⟩ (fun t op ho h => h.step op (fun ok e => hm ok (e ▸ ho)))
  intro e
  have := h.call
  rw [e] at this
  cases this

/-- A reader that is slow from the start. -/
example : let ops : List HlOp := [.start, .io, .accept .ok, .accept .ok, .accept .ok, .conn 0 .post, .work 0 .create, .finish 0, .accept .ok, .conn 1 (.stream 0), .stop]
    (Hl.init.run ops).call = .flag ∧ (Hl.init.run ops).sse[0]? = some (.write, 0) ∧
    (Hl.init.run (ops ++ [.caller, .caller, .caller, .caller, .io, .caller, .caller, .caller, .caller])).call = .joinSse := by decide +kernel

/-! ### The destructor -/

/-- A stopped server with no request under way. -/
structure Still (s : Hl) : Prop where
  io : s.io = .none
  conns : ∀ c ∈ s.conns, c ≠ .handling
  sse : s.sse = []
  ub : s.ub = false
  dead : s.dead = false

theorem Still.step {s : Hl} (h : Still s) (hi : HlInv s) {op : HlOp} (ho : op ≠ .start) : Still (s.step op) := by
  rw [step_alive s op h.dead h.ub]
  have hno : ∀ c : Nat, s.conns[c]? ≠ some HlConn.handling := fun c e => h.conns _ (List.mem_of_getElem? e) rfl
  cases op with
  | start => exact absurd rfl ho
  | stop => dsimp only; split; exact ⟨h.io, h.conns, h.sse, h.ub, h.dead⟩; exact h
  | destroy => dsimp only; split; exact ⟨h.io, h.conns, h.sse, h.ub, h.dead⟩; exact h
  | caller =>
    dsimp only
    unfold Hl.caller
    split
    · exact h
    · exact ⟨h.io, h.conns, h.sse, h.ub, h.dead⟩
    · exact ⟨h.io, h.conns, h.sse, h.ub, h.dead⟩
    · exact ⟨h.io, h.conns, h.sse, h.ub, h.dead⟩
    · exact ⟨h.io, h.conns, h.sse, h.ub, h.dead⟩
    · split
      · exact ⟨rfl, h.conns, h.sse, h.ub, h.dead⟩
      · exact h
    · split
      · exact ⟨h.io, h.conns, rfl, h.ub, h.dead⟩
      · exact h
    · split
      · exact ⟨h.io, h.conns, h.sse, h.ub, h.dead⟩
      · exact ⟨h.io, h.conns, h.sse, h.ub, h.dead⟩
    · split
      · exact ⟨rfl, h.conns, h.sse, h.ub, h.dead⟩
      · exact h
    · split
      · exact ⟨h.io, h.conns, rfl, h.ub, h.dead⟩
      · exact h
    · split
      · exact h
      · exact ⟨h.io, fun _ hc => (nomatch hc), h.sse, h.ub, h.dead⟩
    · exact h
  | io => dsimp only; unfold Hl.goIo; rw [h.io]; exact h
  | accept o => dsimp only; rw [if_neg (by simp [h.io])]; exact h
  | conn c r => dsimp only; rw [if_neg (by simp [h.io])]; exact h
  | work c u => dsimp only; rw [if_neg (hno c)]; exact h
  | finish c => dsimp only; rw [if_neg (hno c)]; exact h
  | push k =>
    dsimp only
    split
    · rename_i hc
      have hg : s.gone = false := by
        cases hu : s.gone with
        | false => rfl
        | true => rcases hi.gone hu with e | e <;> rw [hc] at e <;> cases e
      obtain ⟨x, y, e, hx⟩ := use_eq s (.push k)
      rw [e]
      exact ⟨h.io, h.conns, h.sse, (hx hg).trans h.ub, h.dead⟩
    · exact h
  | sse j => dsimp only; unfold Hl.goSse; rw [h.sse]; exact h
  | wrote j ok => dsimp only; unfold Hl.wrote; rw [h.sse]; exact h

theorem still_states {s : Hl} (h : Still s) (hi : HlInv s) (f : Nat → HlOp) (hf : ∀ t, f t ≠ .start) (t : Nat) : Still (hlStates s f t) ∧ HlInv (hlStates s f t) := by
  induction t with
  | zero => exact ⟨h, hi⟩
  | succ t ih => exact ⟨ih.1.step ih.2 (hf t), ih.2.step (f t)⟩

/-- C117. When `Stop` has returned and no request is being handled, a server that is not started again is destroyed without the use of a destroyed member, and the destructor returns. -/
theorem C117_destroy_partial (ops : List HlOp) (f : Nat → HlOp) (hc : (Hl.init.run ops).call = .dHalt) (h : HlEv.returned ∈ sinceStart (Hl.init.run ops).log)
    (hh : ∀ c ∈ (Hl.init.run ops).conns, c ≠ .handling) (hs : ∀ t, f t ≠ .start) (hf : ∀ t, ∃ u, t ≤ u ∧ f u = .caller) :
    (∀ t, (hlStates (Hl.init.run ops) f t).ub = false) ∧ ∃ t, (hlStates (Hl.init.run ops) f t).call = .destroyed := by
  have hi := hlInv_run ops
  have hdead := dead_idle_run ops
  obtain ⟨h1, h2⟩ := hi.left h
  generalize Hl.init.run ops = s0 at *
  have hd : s0.dead = false := by
    cases e : s0.dead with
    | false => rfl
    | true => have := hdead e; rw [hc] at this; cases this
  have hu : s0.ub = false := by
    cases e : s0.ub with
    | false => rfl
    | true => rcases hi.gone (hi.ub e) with e | e <;> rw [hc] at e <;> cases e
  have hst : ∀ t, Still (hlStates s0 f t) ∧ HlInv (hlStates s0 f t) := still_states ⟨h1, hh, h2, hu, hd⟩ hi f hs
  refine ⟨fun t => (hst t).1.ub, ?_⟩
  have next : ∀ T (x y : HlCall), (hlStates s0 f T).call = x → (x = .dHalt ∧ y = .dJoinSse ∨ x = .dJoinSse ∧ y = .frames ∨ x = .frames ∧ y = .destroyed) → ∃ t, (hlStates s0 f t).call = y := by
    intro T x y hx hxy
    have hne : x ≠ .idle := by rcases hxy with ⟨rfl, -⟩ | ⟨rfl, -⟩ | ⟨rfl, -⟩ <;> exact (nomatch ·)
    have hcall : ∀ v, (hlStates s0 f v).call = x → f v = .caller → (hlStates s0 f (v + 1)).call = y := by
      intro v p1 p2
      show ((hlStates s0 f v).step (f v)).call = y
      obtain ⟨q, -⟩ := hst v
      rw [p2, step_alive _ _ q.dead q.ub]
      dsimp only
      unfold Hl.caller
      rw [p1]
      rcases hxy with ⟨rfl, rfl⟩ | ⟨rfl, rfl⟩ | ⟨rfl, rfl⟩
      · dsimp only; rw [if_pos q.io]
      · dsimp only; rw [if_pos (by simp [Hl.quiet, q.sse])]
      · dsimp only; rw [if_neg (by simpa using fun hm => q.conns _ hm rfl)]
    obtain ⟨v, -, -, k⟩ := hl_until s0 f (t := T) (fun s => s.call = x) (fun v => (hlStates s0 f (v + 1)).call = y) hx
      (fun v _ p => by
        by_cases ho : f v = .caller
        · exact .inr (hcall v p ho)
        · exact .inl ((others_step _ _ (by rw [p]; exact hne) ho).1.trans p))
      (by
        obtain ⟨v, k1, k2⟩ := hf T
        exact ⟨v, k1, fun p => hcall v p k2⟩)
    exact ⟨v + 1, k⟩
  obtain ⟨t1, e1⟩ := next 0 .dHalt .dJoinSse hc (by simp)
  obtain ⟨t2, e2⟩ := next t1 .dJoinSse .frames e1 (by simp)
  exact next t2 .frames .destroyed e2 (by simp)

/-- A server that answered a request, was stopped and is being destroyed. -/
example : let ops : List HlOp := [.start, .io, .accept .ok, .accept .ok, .accept .ok, .conn 0 .post, .work 0 .create, .finish 0, .stop, .caller, .caller, .caller, .caller, .io, .caller, .caller, .destroy]
    (Hl.init.run ops).call = .dHalt ∧ HlEv.returned ∈ sinceStart (Hl.init.run ops).log ∧ (Hl.init.run ops).conns = [.replied] := by decide +kernel

/-- An event stream that nobody ends. -/
structure Streaming (j k : Nat) (s : Hl) : Prop where
  call : s.call = .dHalt ∨ s.call = .dJoinIo ∨ s.call = .dJoinSse
  running : s.running = true
  sse : ∃ st, st ≠ .ended ∧ s.sse[j]? = some (st, k)
  session : ∃ x, s.sessions[k]? = some x ∧ x.closed = false

theorem Streaming.step {j k : Nat} {s : Hl} (h : Streaming j k s) (op : HlOp) (h1 : op ≠ .wrote j false) (h2 : ∀ c u, op ≠ .work c u) : Streaming j k (s.step op) := by
  have hidle : s.call ≠ .idle := by rcases h.call with e | e | e <;> rw [e] <;> exact (nomatch ·)
  obtain ⟨st, hs1, hs2⟩ := h.sse
  obtain ⟨x, hx1, hx2⟩ := h.session
  unfold Hl.step
  split
  · exact h
  · cases op with
    | start => exact h
    | stop => exact h
    | destroy => exact h
    | caller =>
      dsimp only
      unfold Hl.caller
      rcases h.call with e | e | e <;> rw [e] <;> dsimp only
      · split
        · exact ⟨.inr (.inr rfl), h.running, h.sse, h.session⟩
        · exact ⟨.inr (.inl rfl), h.running, h.sse, h.session⟩
      · split
        · exact ⟨.inr (.inr rfl), h.running, h.sse, h.session⟩
        · exact h
      · split
        · rename_i hq
          exfalso
          unfold Hl.quiet at hq
          rw [List.all_eq_true] at hq
          have := hq _ (List.mem_of_getElem? hs2)
          simp at this
          exact hs1 this
        · exact h
    | io => obtain ⟨x, y, z, e⟩ := goIo_eq s; dsimp only; rw [e]; exact ⟨h.call, h.running, h.sse, h.session⟩
    | accept o =>
      dsimp only
      split
      · obtain ⟨a, b, g, f, c, l, e⟩ := goAccept_eq s o; rw [e]; exact ⟨h.call, h.running, h.sse, h.session⟩
      · exact h
    | conn c r =>
      dsimp only
      split
      · unfold Hl.goConn
        repeat' split
        all_goals first
          | exact h
          | exact ⟨h.call, h.running, h.sse, h.session⟩
          | exact ⟨h.call, h.running, ⟨st, hs1, by dsimp only; rw [List.getElem?_append_left (List.getElem?_eq_some_iff.1 hs2).1]; exact hs2⟩, h.session⟩
      · exact h
    | work c u => exact absurd rfl (h2 c u)
    | finish c => dsimp only; split; exact ⟨h.call, h.running, h.sse, h.session⟩; exact h
    | push i => exact h
    | sse i =>
      dsimp only
      unfold Hl.goSse
      have put : ∀ (y : HlSse) (st' : HlSse) (k' : Nat), s.sse[i]? = some (st', k') → y ≠ .ended → ∃ st, st ≠ .ended ∧ (s.sse.set i (y, k'))[j]? = some (st, k) := by
        intro y st' k' hi hy
        by_cases e : i = j
        · subst e
          rw [hs2] at hi
          cases hi
          exact ⟨y, hy, by rw [List.getElem?_set, if_pos rfl, if_pos (List.getElem?_eq_some_iff.1 hs2).1]⟩
        · exact ⟨st, hs1, by rw [List.getElem?_set, if_neg e, hs2]⟩
      split
      · rename_i k' hk
        exact ⟨h.call, h.running, put _ _ k' hk (by rw [if_pos h.running]; exact (nomatch ·)), h.session⟩
      · rename_i k' hk
        split
        · rename_i y hy
          split
          · rename_i hc
            refine ⟨h.call, h.running, ⟨st, hs1, ?_⟩, h.session⟩
            dsimp only
            rw [List.getElem?_set, if_neg, hs2]
            intro e
            subst e
            rw [hs2] at hk
            cases hk
            rw [hx1] at hy
            cases hy
            simp [hx2, h.running] at hc
          · split
            · exact ⟨h.call, h.running, put _ _ k' hk (nomatch ·), h.session⟩
            · refine ⟨h.call, h.running, put _ _ k' hk (nomatch ·), ?_⟩
              by_cases e : k' = k
              · subst e
                rw [hx1] at hy
                cases hy
                exact ⟨{ x with queued := x.queued - 1 }, by dsimp only; rw [List.getElem?_set, if_pos rfl, if_pos (List.getElem?_eq_some_iff.1 hx1).1], hx2⟩
              · exact ⟨x, by dsimp only; rw [List.getElem?_set, if_neg e, hx1], hx2⟩
        · exact h
      · exact h
    | wrote i ok =>
      dsimp only
      unfold Hl.wrote
      split
      · rename_i k' hk
        refine ⟨h.call, h.running, ?_, h.session⟩
        by_cases e : i = j
        · subst e
          rw [hs2] at hk
          cases hk
          cases ok with
          | false => exact absurd rfl h1
          | true => exact ⟨.top, (nomatch ·), by dsimp only; rw [List.getElem?_set, if_pos rfl, if_pos (List.getElem?_eq_some_iff.1 hs2).1]; rfl⟩
        · exact ⟨st, hs1, by dsimp only; rw [List.getElem?_set, if_neg e, hs2]⟩
      · exact h

/-- C117. The destructor of a server that was not stopped does not return while there is an event stream whose reader stays: it joins its thread and does not tell it to end. -/
theorem C117_destroy_hangs_counterexample (ops more : List HlOp) (j k : Nat) (st : HlSse) (x : HlSession) (hc : (Hl.init.run ops).call = .dHalt) (hr : (Hl.init.run ops).running = true)
    (hj : (Hl.init.run ops).sse[j]? = some (st, k)) (hst : st ≠ .ended) (hk : (Hl.init.run ops).sessions[k]? = some x) (hx : x.closed = false)
    (hm : HlOp.wrote j false ∉ more) (hw : ∀ c u, HlOp.work c u ∉ more) : (Hl.init.run (ops ++ more)).call ≠ .destroyed := by
  rw [hl_run_append]
  have h : Streaming j k ((Hl.init.run ops).run more) := hl_run_inv (P := Streaming j k) ⟨.inl hc, hr, ⟨st, hst, hj⟩, ⟨x, hk, hx⟩⟩
    (fun t op ho h => h.step op (fun e => hm (e ▸ ho)) (fun c u e => hw c u (e ▸ ho)))
  intro e
  rcases h.call with e' | e' | e' <;> rw [e] at e' <;> cases e'

/-- A server with an event stream that is destroyed without `Stop`. -/
example : let ops : List HlOp := [.start, .io, .accept .ok, .accept .ok, .accept .ok, .conn 0 .post, .work 0 .create, .finish 0, .accept .ok, .conn 1 (.stream 0), .wrote 0 true, .destroy]
    (Hl.init.run ops).call = .dHalt ∧ (Hl.init.run ops).running = true ∧ (Hl.init.run ops).sse[0]? = some (.top, 0) ∧ (Hl.init.run ops).sessions[0]? = some ⟨false, 0, true⟩ := by decide +kernel

end Verif.Http
