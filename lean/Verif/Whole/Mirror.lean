import Verif.Whole.Props

/-!
Helper lemmas for C115: an endless execution of the client, the transports and the server is, for the transports, one of Stdio/Duplex with a handler
that gives the answers the server gives in it.
-/

namespace Verif.Whole

open Verif.Await Verif.Client Verif.Server Verif.Duplex Verif.Stdio
open Verif.Serve (Prog)
open Verif.InMemory (PlainReq PlainNote)

variable {D H : Type} [DblFmt D]

/-- The states an endless execution leads through. -/
def states (c : Cfg D) (w : World D H) (f : Nat → Op D H) : Nat → World D H
  | 0 => w
  | t + 1 => (states c w f t).step c (f t)

/-- The steps of an endless execution before a time. -/
def before (f : Nat → Op D H) (t : Nat) : List (Op D H) := (List.range t).map f

theorem states_run (c : Cfg D) (w : World D H) (f : Nat → Op D H) (t : Nat) : states c w f t = w.run c (before f t) := by
  induction t with
  | zero => rfl
  | succ t ih => simp only [states, ih, before, List.range_succ, List.map_append, List.map_cons, List.map_nil]; rw [run_snoc]

theorem before_succ (f : Nat → Op D H) (t : Nat) : before f (t + 1) = before f t ++ [f t] := by
  simp [before, List.range_succ]

/-! ### The side of the server, without what its handler is about to do -/

def hide (j : Duplex.Job D) : Duplex.Job D := ⟨j.req, .done .nul, none⟩

def blur (e : End D) : End D := { e with job := e.job.map hide }

theorem blur_writes (e : End D) (op : WOp) : (blur e).writes op = blur (e.writes op) := by
  unfold End.writes
  rw [show (blur e).w = e.w from rfl]
  split <;> rfl

theorem blur_step (max : Nat) (h : Request D → Prog D) (sent : Bytes) (e : End D) (op : EndOp D) (hop : ∀ b, op ≠ .work b) :
    (blur e).step max (fun _ => .done .nul) sent op = blur (e.step max h sent op) := by
  have hnone : (blur e).job.isNone = e.job.isNone := by simp [blur]
  cases op with
  | check q => rfl
  | file n now =>
    simp only [End.step, End.file]
    rw [show (blur e).p = e.p from rfl, show (blur e).given = e.given from rfl]
    split <;> rfl
  | note n =>
    simp only [End.step, End.note]
    rw [show (blur e).w = e.w from rfl]
    split <;> rfl
  | push i =>
    simp only [End.step, End.push]
    rw [show (blur e).ready = e.ready from rfl]
    split
    · exact blur_writes { e with ready := e.ready.eraseIdx i } _
    · rfl
  | dequeue => exact blur_writes e _
  | write k => exact blur_writes e _
  | writeFail => exact blur_writes e _
  | finish => exact blur_writes e _
  | setMax n => exact blur_writes e _
  | read k =>
    simp only [End.step, End.read, hnone]
    rw [show (blur e).w = e.w from rfl, show (blur e).buf = e.buf from rfl]
    split <;> rfl
  | decode =>
    simp only [End.step, End.decode, hnone]
    rw [show (blur e).w = e.w from rfl, show (blur e).buf = e.buf from rfl]
    split
    · split
      · rfl
      · unfold End.process
        split <;> rfl
      · rfl
      · rfl
    · rfl
  | work b => exact absurd rfl (hop b)
  | sweep now => rfl
  | cut => rfl
  | close => rfl
  | setTimeout t => rfl

theorem writes_job (e : End D) (op : WOp) : (e.writes op).job = e.job := by
  unfold End.writes; split <;> rfl

/-- The reader takes up a request with its handler, or keeps the one it has. -/
theorem job_step (max : Nat) (h : Request D → Prog D) (sent : Bytes) (e : End D) (op : EndOp D) (hop : ∀ b, op ≠ .work b) :
    ∀ j, (e.step max h sent op).job = some j → e.job = some j ∨ j.prog = h j.req := by
  have same : ∀ g : End D, g.job = e.job → ∀ j, g.job = some j → e.job = some j ∨ j.prog = h j.req := fun g hg j hj => .inl (by rw [← hg]; exact hj)
  cases op with
  | check q => exact same _ rfl
  | file n now => simp only [End.step, End.file]; split <;> exact same _ rfl
  | note n => simp only [End.step, End.note]; split <;> exact same _ rfl
  | push i =>
    simp only [End.step, End.push]; split
    · exact same _ (writes_job _ _)
    · exact same _ rfl
  | dequeue => exact same _ (writes_job _ _)
  | write k => exact same _ (writes_job _ _)
  | writeFail => exact same _ (writes_job _ _)
  | finish => exact same _ (writes_job _ _)
  | setMax n => exact same _ (writes_job _ _)
  | read k => simp only [End.step, End.read]; split <;> exact same _ rfl
  | decode =>
    simp only [End.step, End.decode]
    split
    · split
      · exact same _ rfl
      · unfold End.process
        split
        · exact same _ rfl
        · intro j hj; cases hj; exact .inr rfl
        · exact same _ rfl
        · exact same _ rfl
      · exact same _ rfl
      · exact same _ rfl
    · exact same _ rfl
  | work b => exact absurd rfl (hop b)
  | sweep now => exact same _ rfl
  | cut => exact same _ rfl
  | close => exact same _ rfl
  | setTimeout t => exact same _ rfl

/-! ### The mirror -/

/-- The settings of the transports with a handler for the server. -/
def Cfg.with (c : Cfg D) (h : Request D → Prog D) : Duplex.Cfg D := ⟨fun y q => if y then h q else c.handler q, c.max⟩

/-- The transports of an execution beside those of one with a handler for the server. -/
structure Mirrors (h : Request D → Prog D) (s d : Pair D) : Prop where
  a : s.a = d.a
  b : s.b = blur d.b
  prog : ∀ j, d.b.job = some j → j.prog = h j.req

/-- The step of the transports that a step is; a step of the rest is one of a thread that has nothing to enqueue. -/
def mirror (w : World D H) : Op D H → Bool × EndOp D
  | .go i =>
    match asking w.client i with
    | some q => if w.client.ub = false ∧ w.client.alive = true then (false, .check (asRequest q)) else (false, .push w.pair.a.ready.length)
    | none => (false, .push w.pair.a.ready.length)
  | .wire y op => if reserved y op || (y && w.dead) then (false, .push w.pair.a.ready.length) else (y, op)
  | .serve env =>
    if w.dead then (false, .push w.pair.a.ready.length)
    else match w.pair.b.job with
      | none => (true, .work false)
      | some j => match (dispatch env w.srv j.req).1 with
        | .answer _ => (true, .work false)
        | _ => (false, .push w.pair.a.ready.length)
  | _ => (false, .push w.pair.a.ready.length)

theorem step_idle (c : Duplex.Cfg D) (s : Pair D) : s.step c (false, .push s.a.ready.length) = s := by
  simp only [Pair.step, Pair.get, Pair.set, End.step, End.push]
  rw [List.getElem?_eq_none (Nat.le_refl _)]

theorem mirrors_idle {h : Request D → Prog D} {s d : Pair D} (hm : Mirrors h s d) (c : Duplex.Cfg D) : Mirrors h s (d.step c (false, .push s.a.ready.length)) := by
  rw [hm.a, step_idle]; exact hm

theorem mirrors_wire {c : Cfg D} {h : Request D → Prog D} {s d : Pair D} (hm : Mirrors h s d) (y : Bool) (op : EndOp D) (hop : y = true → ∀ b, op ≠ .work b) :
    Mirrors h (s.step c.duplex (y, op)) (d.step (c.with h) (y, op)) := by
  obtain ⟨ha, hb, hp⟩ := hm
  cases y with
  | false =>
    refine ⟨?_, hb, hp⟩
    simp only [Pair.step, Pair.get, Pair.set, Cfg.duplex, Cfg.with, Bool.false_eq_true, if_false, Bool.not_false]
    rw [ha, hb]; rfl
  | true =>
    refine ⟨ha, ?_, fun j hj => ?_⟩
    · simp only [Pair.step, Pair.get, Pair.set, Cfg.duplex, Cfg.with, if_true, Bool.not_true]
      rw [ha, hb]
      exact blur_step _ _ _ _ _ (hop rfl)
    · rcases job_step _ _ _ _ _ (hop rfl) j hj with h1 | h1
      · exact hp j h1
      · exact h1

theorem blur_answer {d : End D} {j : Duplex.Job D} (hj : d.job = some j) {o : HandlerOutcome D} (ho : j.prog = .done o) (b : Bool) :
    answer (blur d) o = blur (d.work b) ∧ (d.work b).job = none := by
  have h1 : (blur d).job = some (hide j) := by simp [blur, hj]
  have h2 : d.work b = ({ d with job := none, replies := d.replies ++ [(j.req, o)] } : End D).writes (.enqueue (serResponse (replyFor j.req o))) := by
    simp only [End.work, hj, ho]
  rw [h2]
  refine ⟨?_, by rw [writes_job]⟩
  rw [← blur_writes]
  simp only [answer, h1, End.work]
  rfl

theorem mirrors_step {c : Cfg D} {h : Request D → Prog D} {w : World D H} {d : Pair D} (hm : Mirrors h w.pair d) (op : Op D H)
    (hans : ∀ env j r, op = .serve env → w.dead = false → w.pair.b.job = some j → (dispatch env w.srv j.req).1 = .answer r → h j.req = .done (.resp r)) :
    Mirrors h (w.step c op).pair (d.step (c.with h) (mirror w op)) := by
  cases op with
  | call api => exact mirrors_idle hm _
  | drop i => exact mirrors_idle hm _
  | change u => exact mirrors_idle hm _
  | go i =>
    simp only [World.step, World.go, mirror]
    cases asking w.client i with
    | none => exact mirrors_idle hm _
    | some q =>
      dsimp only
      split
      · exact mirrors_wire (c := c) hm false (.check (asRequest q)) (fun e => nomatch e)
      · exact mirrors_idle hm _
  | deliver n =>
    simp only [World.step, World.deliver, mirror]
    split
    · split <;> exact mirrors_idle hm _
    · exact mirrors_idle hm _
  | wire y op =>
    simp only [World.step, mirror]
    split
    · exact mirrors_idle hm _
    · rename_i hr
      refine mirrors_wire (c := c) hm y op fun hy b hb => ?_
      subst hy; subst hb
      simp [reserved] at hr
  | own op =>
    have : (w.step c (.own op)).pair = w.pair := by
      cases op <;> simp only [World.step] <;> (try split) <;> rfl
    rw [this]
    exact mirrors_idle hm _
  | serve env =>
    simp only [World.step, World.serve, mirror]
    split
    · exact mirrors_idle hm _
    · rename_i hd
      cases hj : w.pair.b.job with
      | none =>
        have hdj : d.b.job = none := by
          have := hm.b ▸ hj
          simpa [blur] using this
        refine ⟨hm.a, hm.b.trans ?_, ?_⟩
        · show blur d.b = blur (d.b.work false)
          simp only [End.work, hdj]
        · intro j hj'
          have : d.b.work false = d.b := by simp only [End.work, hdj]
          rw [show ((d.step (c.with h) (true, .work false)).b) = d.b.work false from rfl, this, hdj] at hj'
          cases hj'
      | some j =>
        cases hr : (dispatch env w.srv j.req).1 with
        | answer r =>
          simp only [hr]
          obtain ⟨j', hdj, hjj⟩ : ∃ j', d.b.job = some j' ∧ hide j' = j := by
            have := hm.b ▸ hj
            simpa [blur] using this
          have hreq : j'.req = j.req := by rw [← hjj]; rfl
          have hprog : j'.prog = .done (.resp r) := by
            rw [hm.prog j' hdj, hreq]
            exact hans env j r rfl (by simpa using hd) hj hr
          obtain ⟨h1, h2⟩ := blur_answer hdj hprog false
          refine ⟨hm.a, ?_, fun k hk => ?_⟩
          · show answer w.pair.b (.resp r) = blur (d.b.work false)
            rw [hm.b]; exact h1
          · rw [show ((d.step (c.with h) (true, .work false)).b) = d.b.work false from rfl, h2] at hk
            cases hk
        | blocked => simp only [hr]; exact mirrors_idle hm _
        | escaped => simp only [hr]; exact mirrors_idle hm _

/-! ### The answers of an endless execution -/

/-- In this execution the server answers the request so. -/
def Answers (c : Cfg D) (w : World D H) (f : Nat → Op D H) (q : Request D) (r : Response D) : Prop :=
  ∃ t env, DispatchedAt c w (before f (t + 1)) t q env (states c w f t).srv r

theorem dispatched_before {c : Cfg D} {w : World D H} {f : Nat → Op D H} {t p : Nat} {q : Request D} {env : Env D H} {σ : Srv D H} {r : Response D}
    (h : DispatchedAt c w (before f t) p q env σ r) : p < t ∧ f p = .serve env ∧ (∃ j, (states c w f p).pair.b.job = some j ∧ j.req = q) ∧
      (states c w f p).srv = σ ∧ (states c w f p).dead = false ∧ (dispatch env σ q).1 = .answer r := by
  obtain ⟨h1, h2⟩ := h
  have hl := lt_of_get h1
  have hp : p < t := by simpa [before] using hl
  have ht : (before f t).take p = before f p := by
    simp only [before, ← List.map_take]
    rw [List.take_range, Nat.min_eq_left (Nat.le_of_lt hp)]
  rw [ht, ← states_run] at h2
  refine ⟨hp, ?_, h2⟩
  have : (before f t)[p]? = some (f p) := by simp [before, hp]
  rw [this] at h1
  exact Option.some.inj h1

theorem serves_at {c : Cfg D} {w : World D H} {f : Nat → Op D H} {t : Nat} {env : Env D H} {j : Duplex.Job D} {r : Response D} (hf : f t = .serve env)
    (hd : (states c w f t).dead = false) (hj : (states c w f t).pair.b.job = some j) (hr : (dispatch env (states c w f t).srv j.req).1 = .answer r) :
    DispatchedAt c w (before f (t + 1)) t j.req env (states c w f t).srv r := by
  rw [states_run] at hd hj hr ⊢
  rw [before_succ, hf]
  have := dispatched_last hj hd hr
  have hl : (before f t).length = t := by simp [before]
  rwa [hl] at this

theorem replies_mono (c : Cfg D) (w : World D H) (f : Nat → Op D H) {t u : Nat} (h : t ≤ u) :
    (states c w f t).pair.b.replies <+: (states c w f u).pair.b.replies := by
  induction h with
  | refl => exact List.prefix_rfl
  | step _ ih => exact ih.trans (grows_move (pair_step c _ _) true).replies

/-- No request is dispatched twice. -/
theorem dispatched_once {c : Cfg D} {s0 : Self D} {srv : Srv D H} {f : Nat → Op D H} (hc : ∀ t, Carried c (World.init s0 srv) (before f t))
    (ho : ∀ t, OwnTexts ((states c (World.init s0 srv) f t).pair.a.given.map (·.id))) {t t' : Nat} {env env' : Env D H} {j j' : Duplex.Job D} {r : Response D}
    (hf : f t = .serve env) (hd : (states c (World.init s0 srv) f t).dead = false) (hj : (states c (World.init s0 srv) f t).pair.b.job = some j)
    (hr : (dispatch env (states c (World.init s0 srv) f t).srv j.req).1 = .answer r)
    (hj' : (states c (World.init s0 srv) f t').pair.b.job = some j') (hreq : j'.req = j.req) : t' ≤ t := by
  refine Nat.le_of_not_lt fun hlt => ?_
  have h1 : (j.req, HandlerOutcome.resp r) ∈ (states c (World.init s0 srv) f t').pair.b.replies := by
    refine (replies_mono c _ f hlt).subset ?_
    simp only [states, hf, World.step, World.serve, hd, hj, hr]
    simp only [Bool.false_eq_true, if_false]
    rw [replies_answer hj]
    simp
  have hg := good_world c s0 srv (before f t')
  have hpl := plain_world c s0 srv (before f t') (hc t')
  have hfl := flow_world c s0 srv false (before f t') (hc t') (by have := ho t'; rw [states_run] at this; exact this)
  rw [states_run] at hj' h1
  have h2 := (once_of hg hpl true hfl).1
  rw [show (Pair.get _ true).job = _ from hj', show (Pair.get _ true).replies = _ from rfl, List.map_append, List.nodup_append] at h2
  refine h2.2.2 (idText j.req.id) ?_ (idText j.req.id) ?_ rfl
  · exact List.mem_map_of_mem (f := fun q : Request D => idText q.id) (List.mem_map_of_mem (f := (·.1)) h1)
  · simp [hreq]

open Classical in
/-- A handler that gives the answers of an execution. -/
noncomputable def oracle (c : Cfg D) (w : World D H) (f : Nat → Op D H) (q : Request D) : Prog D :=
  if h : ∃ r, Answers c w f q r then .done (.resp h.choose) else .done .nul

theorem oracle_answer {c : Cfg D} {s0 : Self D} {srv : Srv D H} {f : Nat → Op D H} (hc : ∀ t, Carried c (World.init s0 srv) (before f t))
    (ho : ∀ t, OwnTexts ((states c (World.init s0 srv) f t).pair.a.given.map (·.id))) {t : Nat} {env : Env D H} {j : Duplex.Job D} {r : Response D}
    (hf : f t = .serve env) (hd : (states c (World.init s0 srv) f t).dead = false) (hj : (states c (World.init s0 srv) f t).pair.b.job = some j)
    (hr : (dispatch env (states c (World.init s0 srv) f t).srv j.req).1 = .answer r) : oracle c (World.init s0 srv) f j.req = .done (.resp r) := by
  have hex : ∃ r, Answers c (World.init s0 srv) f j.req r := ⟨r, t, env, serves_at hf hd hj hr⟩
  unfold oracle
  rw [dif_pos hex]
  obtain ⟨t', env', hd'⟩ := hex.choose_spec
  obtain ⟨-, g1, ⟨j', g2, g3⟩, -, g4, g5⟩ := dispatched_before hd'
  have h1 : t' ≤ t := dispatched_once hc ho (env' := env') hf hd hj hr g2 g3
  have h2 : t ≤ t' := dispatched_once hc ho (env' := env) g1 g4 g2 (by rw [g3]; exact g5) hj g3.symm
  have : t' = t := Nat.le_antisymm h1 h2
  subst this
  rw [hf] at g1
  cases g1
  rw [hr] at g5
  cases g5
  rfl

theorem oracle_alone (c : Cfg D) (w : World D H) (f : Nat → Op D H) (q : Request D) : Alone (oracle c w f q) := by
  unfold oracle; split <;> trivial

theorem oracle_plain {c : Cfg D} {w : World D H} {f : Nat → Op D H} (hc : ∀ t, Carried c w (before f t)) (q : Request D) : PlainProg (oracle c w f q) := by
  unfold oracle
  split
  · rename_i h
    obtain ⟨t, env, hd⟩ := h.choose_spec
    exact (hc (t + 1)).answers _ _ _ _ _ hd
  · exact trivial

/-- The transports of an endless execution are those of one of Stdio/Duplex. -/
theorem mirrors_all {c : Cfg D} {s0 : Self D} {srv : Srv D H} {f : Nat → Op D H} (hc : ∀ t, Carried c (World.init s0 srv) (before f t))
    (ho : ∀ t, OwnTexts ((states c (World.init s0 srv) f t).pair.a.given.map (·.id))) (t : Nat) :
    Mirrors (oracle c (World.init s0 srv) f) (states c (World.init s0 srv) f t).pair
      ((Pair.init : Pair D).run (c.with (oracle c (World.init s0 srv) f)) ((List.range t).map fun u => mirror (states c (World.init s0 srv) f u) (f u))) := by
  induction t with
  | zero => exact ⟨rfl, rfl, fun j hj => nomatch hj⟩
  | succ t ih =>
    rw [List.range_succ, List.map_append, List.map_cons, List.map_nil]
    have : ∀ (s : Pair D) (l : List (Bool × EndOp D)) (x : Bool × EndOp D), s.run (c.with (oracle c (World.init s0 srv) f)) (l ++ [x]) =
        (s.run (c.with (oracle c (World.init s0 srv) f)) l).step (c.with (oracle c (World.init s0 srv) f)) x := by
      intro s l x; simp [Pair.run, List.foldl_append]
    rw [this]
    exact mirrors_step ih (f t) fun env j r hf hd hj hr => oracle_answer hc ho hf hd hj hr

end Verif.Whole
