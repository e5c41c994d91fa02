import Verif.Http.ServerLife

/-!
C117: `Start` of an HTTP server tells when it listens, and `Stop` comes to an end and leaves nothing running.
-/

namespace Verif.Http

/-! ### Specification -/

/-- What was seen since the last `Start`. -/
def sinceStart (l : List HlEv) : List HlEv := l.foldl (fun acc e => if e = .started then [] else acc ++ [e]) []

/-! ### Lemmas -/

theorem since_snoc (l : List HlEv) (e : HlEv) : sinceStart (l ++ [e]) = if e = .started then [] else sinceStart l ++ [e] := by
  simp [sinceStart, List.foldl_append]

@[simp] theorem since_started (l : List HlEv) : sinceStart (l ++ [.started]) = [] := by simp [since_snoc]
@[simp] theorem since_listening (l : List HlEv) : sinceStart (l ++ [.listening]) = sinceStart l ++ [.listening] := by simp [since_snoc]
@[simp] theorem since_failed (l : List HlEv) : sinceStart (l ++ [.failed]) = sinceStart l ++ [.failed] := by simp [since_snoc]
@[simp] theorem since_stopping (l : List HlEv) : sinceStart (l ++ [.stopping]) = sinceStart l ++ [.stopping] := by simp [since_snoc]
@[simp] theorem since_ready (l : List HlEv) : sinceStart (l ++ [.ready]) = sinceStart l ++ [.ready] := by simp [since_snoc]
@[simp] theorem since_returned (l : List HlEv) : sinceStart (l ++ [.returned]) = sinceStart l ++ [.returned] := by simp [since_snoc]

theorem since_two (l : List HlEv) (a b : HlEv) (hb : b ≠ .started) : sinceStart (l ++ [a, b]) = sinceStart (l ++ [a]) ++ [b] := by
  rw [show l ++ [a, b] = (l ++ [a]) ++ [b] by simp, since_snoc, if_neg hb]

/-- What the order of events says about `ready`: there was a reason, and it is the first since the last `Start`. -/
def Tells (l : List HlEv) : Prop :=
  ∀ pre post, l = pre ++ .ready :: post →
    (.listening ∈ sinceStart pre ∨ .failed ∈ sinceStart pre ∨ .stopping ∈ sinceStart pre) ∧ HlEv.ready ∉ sinceStart pre

theorem Tells.snoc {l : List HlEv} (h : Tells l) {e : HlEv} (he : e ≠ .ready) : Tells (l ++ [e]) := by
  intro pre post hp
  rcases List.eq_nil_or_concat post with rfl | ⟨p, x, rfl⟩
  · have := List.append_inj_right' hp rfl
    cases this; exact absurd rfl he
  · refine h pre p ?_
    have : l ++ [e] = (pre ++ .ready :: p) ++ [x] := by rw [hp]; simp
    exact List.append_inj_left' this rfl

theorem Tells.ready {l : List HlEv} (h : Tells l) (h1 : HlEv.listening ∈ sinceStart l ∨ .failed ∈ sinceStart l ∨ .stopping ∈ sinceStart l)
    (h2 : HlEv.ready ∉ sinceStart l) : Tells (l ++ [.ready]) := by
  intro pre post hp
  rcases List.eq_nil_or_concat post with rfl | ⟨p, x, rfl⟩
  · have := List.append_inj_left' hp rfl
    subst this; exact ⟨h1, h2⟩
  · refine h pre p ?_
    have : l ++ [.ready] = (pre ++ .ready :: p) ++ [x] := by rw [hp]; simp
    exact List.append_inj_left' this rfl

/-- The calls that have joined the io thread. -/
def HlCall.late : HlCall → Bool
  | .joinSse => true
  | .dJoinSse => true
  | .frames => true
  | .destroyed => true
  | _ => false

/-- The part of the state that the events speak of. -/
structure HlInv (s : Hl) : Prop where
  over : HlEv.returned ∈ s.log → s.stopped = true
  joins : s.call = .joinIo ∨ s.call = .joinSse → s.stopped = true ∧ s.running = false
  marked : s.call = .sweep ∨ s.call = .close ∨ s.call = .halt → s.running = false
  halted : s.call = .dJoinIo → s.stopped = true
  late : s.call.late = true → s.io = .none
  left : HlEv.returned ∈ sinceStart s.log → s.io = .none ∧ s.sse = []
  gone : s.gone = true → s.call = .frames ∨ s.call = .destroyed
  ub : s.ub = true → s.gone = true
  sse : ∀ (j : Nat) (st : HlSse) (k : Nat), s.sse[j]? = some (st, k) → k < s.sessions.length
  len : s.futs.length = s.log.count .started
  tells : Tells s.log
  signaled : s.signaled = true ↔ HlEv.ready ∈ sinceStart s.log
  last : s.futs.getLast? = if HlEv.started ∈ s.log then some (if s.signaled then .ready else .waiting) else none
  stopping : s.running = false → HlEv.started ∈ s.log → HlEv.stopping ∈ sinceStart s.log
  begun : s.io ≠ .none ∨ s.accept ≠ .absent ∨ s.signaled = true → HlEv.started ∈ s.log
  joined : s.io = .none → HlEv.started ∈ s.log → HlEv.returned ∈ sinceStart s.log ∨ s.call.late = true

theorem hlInv_init : HlInv Hl.init := by
  constructor <;> simp [Hl.init, sinceStart, Tells, HlCall.late]

/-! ### Steps that leave the events alone -/

/-- What a step may change without touching the invariant. -/
theorem HlInv.frame {s t : Hl} (h : HlInv s) (h1 : t.running = s.running) (h2 : s.stopped = true → t.stopped = true) (h3 : t.io = s.io) (h4 : t.accept = s.accept) (h5 : t.signaled = s.signaled)
    (h6 : t.futs = s.futs) (h7 : HlEv.returned ∈ sinceStart s.log → t.sse = []) (h8 : t.call = s.call) (h9 : t.gone = s.gone) (h10 : t.ub = true → t.gone = true) (h11 : t.log = s.log)
    (h12 : ∀ (j : Nat) (st : HlSse) (k : Nat), t.sse[j]? = some (st, k) → k < t.sessions.length) : HlInv t := by
  obtain ⟨r, st, io, ac, op, sg, fu, co, se, ses, ca, de, go, ub, lo⟩ := t
  simp only at h1 h3 h4 h5 h6 h7 h8 h9 h10 h11 h12
  subst h1 h3 h4 h5 h6 h8 h9 h11
  exact ⟨fun x => h2 (h.over x), fun x => ⟨h2 (h.joins x).1, (h.joins x).2⟩, h.marked, fun x => h2 (h.halted x), h.late, fun x => ⟨(h.left x).1, h7 x⟩, h.gone, h10, h12, h.len, h.tells, h.signaled,
    h.last, h.stopping, h.begun, h.joined⟩

theorem HlInv.conn {s : Hl} (h : HlInv s) (c : Nat) (r : HlReq) (hio : s.io = .run) : HlInv (s.goConn c r) := by
  have hl : HlEv.returned ∈ sinceStart s.log → False := fun x => by rw [(h.left x).1] at hio; cases hio
  unfold Hl.goConn
  split
  · split
    · exact h.frame rfl id rfl rfl rfl rfl (fun x => (hl x).elim) rfl rfl h.ub rfl h.sse
    · exact h.frame rfl id rfl rfl rfl rfl (fun x => (hl x).elim) rfl rfl h.ub rfl h.sse
    · rename_i k
      split
      · rename_i x hx
        split
        · refine h.frame rfl id rfl rfl rfl rfl (fun x => (hl x).elim) rfl rfl h.ub rfl ?_
          intro j st k' hj
          dsimp only at hj ⊢
          rw [List.getElem?_append] at hj
          split at hj
          · exact h.sse j st k' hj
          · have : (st, k') = (HlSse.write, k) := by
              cases hq : j - s.sse.length with
              | zero => rw [hq] at hj; simpa using hj.symm
              | succ n => rw [hq] at hj; simp at hj
            cases this
            exact (List.getElem?_eq_some_iff.1 hx).1
        · exact h.frame rfl id rfl rfl rfl rfl (fun x => (hl x).elim) rfl rfl h.ub rfl h.sse
      · exact h.frame rfl id rfl rfl rfl rfl (fun x => (hl x).elim) rfl rfl h.ub rfl h.sse
  · exact h.frame rfl id rfl rfl rfl rfl (fun x => (hl x).elim) rfl rfl h.ub rfl h.sse
  · exact h.frame rfl id rfl rfl rfl rfl (fun x => (hl x).elim) rfl rfl h.ub rfl h.sse
  · exact h

theorem HlInv.use {s : Hl} (h : HlInv s) (u : HlUse) : HlInv (s.use u) := by
  unfold Hl.use
  split
  · rename_i hg
    exact h.frame rfl id rfl rfl rfl rfl (fun x => (h.left x).2) rfl rfl (fun _ => hg) rfl h.sse
  · cases u with
    | look => exact h
    | create => exact h.frame rfl id rfl rfl rfl rfl (fun x => (h.left x).2) rfl rfl h.ub rfl (fun j st k hj => by have := h.sse j st k hj; simp; omega)
    | remove k => exact h.frame rfl id rfl rfl rfl rfl (fun x => (h.left x).2) rfl rfl h.ub rfl (fun j st k hj => by have := h.sse j st k hj; simpa using this)
    | push k => exact h.frame rfl id rfl rfl rfl rfl (fun x => (h.left x).2) rfl rfl h.ub rfl (fun j st k hj => by have := h.sse j st k hj; simpa using this)

theorem set_sse {s : Hl} (h : HlInv s) {j k n : Nat} {st st' : HlSse} (hj : s.sse[j]? = some (st, k)) (hn : s.sessions.length ≤ n) :
    ∀ (i : Nat) (x : HlSse) (l : Nat), (s.sse.set j (st', k))[i]? = some (x, l) → l < n := by
  intro i x l hi
  rw [List.getElem?_set] at hi
  split at hi
  · split at hi
    · cases hi; have := h.sse j st k hj; omega
    · cases hi
  · have := h.sse i x l hi; omega

theorem sse_nil {s : Hl} (h : HlInv s) {j k : Nat} {st st' : HlSse} (hj : s.sse[j]? = some (st, k)) (x : HlEv.returned ∈ sinceStart s.log) : s.sse.set j (st', k) = [] := by
  rw [(h.left x).2] at hj; cases hj

theorem HlInv.goSse {s : Hl} (h : HlInv s) (j : Nat) : HlInv (s.goSse j) := by
  unfold Hl.goSse
  split
  · rename_i k hj
    exact h.frame rfl id rfl rfl rfl rfl (sse_nil h hj) rfl rfl h.ub rfl (set_sse h hj (Nat.le_refl _))
  · rename_i k hj
    split
    · split
      · exact h.frame rfl id rfl rfl rfl rfl (sse_nil h hj) rfl rfl h.ub rfl (set_sse h hj (Nat.le_refl _))
      · split
        · exact h.frame rfl id rfl rfl rfl rfl (sse_nil h hj) rfl rfl h.ub rfl (set_sse h hj (Nat.le_refl _))
        · exact h.frame rfl id rfl rfl rfl rfl (sse_nil h hj) rfl rfl h.ub rfl (set_sse h hj (by simp))
    · exact h
  · exact h

theorem HlInv.wrote {s : Hl} (h : HlInv s) (j : Nat) (ok : Bool) : HlInv (s.wrote j ok) := by
  unfold Hl.wrote
  split
  · rename_i k hj
    exact h.frame rfl id rfl rfl rfl rfl (sse_nil h hj) rfl rfl h.ub rfl (set_sse h hj (Nat.le_refl _))
  · exact h

/-! ### Steps with events -/

theorem HlInv.start {s : Hl} (h : HlInv s) (hc : s.call = .idle) : HlInv s.start := by
  have hl : s.call.late = false := by rw [hc]; rfl
  unfold Hl.start
  dsimp only
  split
  · rename_i hio
    constructor <;> dsimp only
    · intro x; exact h.over (by simpa using x)
    · rw [hc]; simp
    · rw [hc]; simp
    · rw [hc]; simp
    · rw [hl]; simp
    · simp
    · exact h.gone
    · exact h.ub
    · exact h.sse
    · simp [h.len]
    · exact h.tells.snoc (by decide)
    · simp
    · simp
    · simp
    · simp
    · simp
  · rename_i hio
    constructor <;> dsimp only
    · intro x; exact h.over (by simpa using x)
    · rw [hc]; simp
    · rw [hc]; simp
    · rw [hc]; simp
    · rw [hl]; simp
    · simp
    · exact h.gone
    · exact h.ub
    · exact h.sse
    · simp [h.len]
    · exact h.tells.snoc (by decide)
    · simp
    · simp
    · simp
    · simp
    · intro x; exact absurd x hio

theorem HlInv.goIo {s : Hl} (h : HlInv s) : HlInv s.goIo := by
  unfold Hl.goIo
  split
  · rename_i hio
    have hb : HlEv.started ∈ s.log := h.begun (.inl (by rw [hio]; decide))
    have hlate : s.call.late = false := by
      cases hq : s.call.late with
      | false => rfl
      | true => have := h.late hq; rw [hio] at this; cases this
    constructor <;> dsimp only
    · exact h.over
    · exact h.joins
    · exact h.marked
    · exact h.halted
    · rw [hlate]; simp
    · intro x; have := (h.left x).1; rw [hio] at this; cases this
    · exact h.gone
    · exact h.ub
    · exact h.sse
    · exact h.len
    · exact h.tells
    · exact h.signaled
    · exact h.last
    · exact h.stopping
    · exact fun _ => hb
    · intro x; cases x
  · rename_i hio
    have hb : HlEv.started ∈ s.log := h.begun (.inl (by rw [hio]; decide))
    have hlate : s.call.late = false := by
      cases hq : s.call.late with
      | false => rfl
      | true => have := h.late hq; rw [hio] at this; cases this
    split
    · constructor <;> dsimp only
      · exact fun _ => rfl
      · exact fun x => ⟨rfl, (h.joins x).2⟩
      · exact h.marked
      · exact fun _ => rfl
      · rw [hlate]; simp
      · intro x; have := (h.left x).1; rw [hio] at this; cases this
      · exact h.gone
      · exact h.ub
      · exact h.sse
      · exact h.len
      · exact h.tells
      · exact h.signaled
      · exact h.last
      · exact h.stopping
      · exact fun _ => hb
      · intro x; cases x
    · exact h
  · exact h

/-- The accept loop goes to another stage. -/
theorem HlInv.stage {s : Hl} (h : HlInv s) (a : HlAccept) (hs : HlEv.started ∈ s.log) : HlInv { s with accept := a } :=
  ⟨h.over, h.joins, h.marked, h.halted, h.late, h.left, h.gone, h.ub, h.sse, h.len, h.tells, h.signaled, h.last, h.stopping, fun _ => hs, h.joined⟩

/-- An event of the accept loop. -/
theorem HlInv.event {s : Hl} (h : HlInv s) {e : HlEv} (he : e = .listening ∨ e = .failed) (b : Bool) : HlInv { s with open_ := b, log := s.log ++ [e] } := by
  have h1 : sinceStart (s.log ++ [e]) = sinceStart s.log ++ [e] := by rcases he with rfl | rfl <;> simp
  constructor <;> dsimp only
  · intro x; exact h.over (by rcases he with rfl | rfl <;> simpa using x)
  · exact h.joins
  · exact h.marked
  · exact h.halted
  · exact h.late
  · intro x; rw [h1] at x; exact h.left (by rcases he with rfl | rfl <;> simpa using x)
  · exact h.gone
  · exact h.ub
  · exact h.sse
  · rw [h.len]; rcases he with rfl | rfl <;> simp
  · exact h.tells.snoc (by rcases he with rfl | rfl <;> decide)
  · rw [h1, h.signaled]; rcases he with rfl | rfl <;> simp
  · rw [h.last]; rcases he with rfl | rfl <;> simp
  · intro x y; rw [h1]; exact List.mem_append_left _ (h.stopping x (by rcases he with rfl | rfl <;> simpa using y))
  · intro x; exact List.mem_append_left _ (h.begun x)
  · intro x y
    rw [h1]
    rcases h.joined x (by rcases he with rfl | rfl <;> simpa using y) with z | z
    · exact .inl (List.mem_append_left _ z)
    · exact .inr z

theorem HlInv.signal {s : Hl} (h : HlInv s) (hs : HlEv.started ∈ s.log) (h1 : HlEv.listening ∈ sinceStart s.log ∨ .failed ∈ sinceStart s.log ∨ .stopping ∈ sinceStart s.log) :
    HlInv s.signal := by
  unfold Hl.signal
  split
  · exact h
  · rename_i hsig
    have hlast := h.last
    rw [if_pos hs, if_neg hsig] at hlast
    obtain ⟨fs, hfs⟩ : ∃ fs, s.futs = fs ++ [.waiting] := by
      rw [List.getLast?_eq_some_iff] at hlast; exact hlast
    constructor <;> dsimp only
    · intro x; exact h.over (by simpa using x)
    · exact h.joins
    · exact h.marked
    · exact h.halted
    · exact h.late
    · intro x; exact h.left (by simpa using x)
    · exact h.gone
    · exact h.ub
    · exact h.sse
    · have := h.len; rw [hfs] at this ⊢; simpa using this
    · exact h.tells.ready h1 (fun x => hsig (h.signaled.2 x))
    · simp
    · rw [hlast]; simp [hs]
    · intro x y; simp; exact h.stopping x hs
    · intro x; simp [hs]
    · intro x y
      rcases h.joined x hs with z | z
      · exact .inl (by simp [z])
      · exact .inr z

theorem signal_running (s : Hl) : s.signal.running = s.running := by unfold Hl.signal; split <;> rfl
theorem signal_log (s : Hl) {e : HlEv} (h : e ∈ s.log) : e ∈ s.signal.log := by unfold Hl.signal; split <;> simp [h]

theorem HlInv.acceptFails {s : Hl} (h : HlInv s) (hs : HlEv.started ∈ s.log) : HlInv s.acceptFails := by
  unfold Hl.acceptFails
  by_cases hr : s.running = true
  · rw [if_pos hr]
    have h1 := h.event (e := .failed) (.inr rfl) s.open_
    have h2 := h1.signal (by simp [hs]) (by simp)
    exact h2.stage .over (signal_log _ (by simp [hs]))
  · rw [if_neg hr]
    have h2 := h.signal hs (.inr (.inr (h.stopping (by simpa using hr) hs)))
    exact h2.stage .over (signal_log _ hs)

theorem HlInv.goAccept {s : Hl} (h : HlInv s) (o : HlGo) (hio : s.io = .run) : HlInv (s.goAccept o) := by
  have hs : HlEv.started ∈ s.log := h.begun (.inl (by rw [hio]; decide))
  unfold Hl.goAccept
  split
  · split
    · have h1 := h.event (e := .failed) (.inr rfl) s.open_
      have h2 := h1.signal (by simp [hs]) (by simp)
      exact h2.stage .over (signal_log _ (by simp [hs]))
    · exact h.stage _ hs
  · split
    · have h1 := h.event (e := .listening) (.inl rfl) true
      have h2 := h1.signal (by simp [hs]) (by simp)
      exact h2.stage _ (signal_log _ (by simp [hs]))
    · exact h.acceptFails hs
  · split
    · have := h.stage (if s.running then .listening else .over) hs
      exact this.frame rfl id rfl rfl rfl rfl (fun x => (this.left x).2) rfl rfl this.ub rfl this.sse
    · exact h.acceptFails hs
  · exact h

theorem HlInv.caller {s : Hl} (h : HlInv s) : HlInv s.caller := by
  unfold Hl.caller
  split
  · exact h
  · rename_i hc
    have hl : s.call.late = false := by rw [hc]; rfl
    constructor <;> dsimp only
    · intro x; exact h.over (by simpa using x)
    · simp
    · simp
    · simp
    · simp [HlCall.late]
    · intro x; exact h.left (by simpa using x)
    · intro x; have := h.gone x; rw [hc] at this; simp at this
    · exact h.ub
    · exact h.sse
    · rw [h.len]; simp
    · exact h.tells.snoc (by decide)
    · rw [h.signaled]; simp
    · rw [h.last]; simp
    · intro _ _; simp
    · intro x; simp; exact h.begun x
    · intro x y
      rcases h.joined x (by simpa using y) with z | z
      · exact .inl (by simp [z])
      · rw [hl] at z; cases z
  · rename_i hc
    have hl : s.call.late = false := by rw [hc]; rfl
    constructor <;> dsimp only
    · exact h.over
    · simp
    · exact fun _ => h.marked (.inl hc)
    · simp
    · simp [HlCall.late]
    · exact h.left
    · intro x; have := h.gone x; rw [hc] at this; simp at this
    · exact h.ub
    · intro j st k hj; simpa using h.sse j st k hj
    · exact h.len
    · exact h.tells
    · exact h.signaled
    · exact h.last
    · exact h.stopping
    · exact h.begun
    · intro x y
      rcases h.joined x y with z | z
      · exact .inl z
      · rw [hl] at z; cases z
  · rename_i hc
    have hl : s.call.late = false := by rw [hc]; rfl
    constructor <;> dsimp only
    · exact h.over
    · simp
    · exact fun _ => h.marked (.inr (.inl hc))
    · simp
    · simp [HlCall.late]
    · exact h.left
    · intro x; have := h.gone x; rw [hc] at this; simp at this
    · exact h.ub
    · exact h.sse
    · exact h.len
    · exact h.tells
    · exact h.signaled
    · exact h.last
    · exact h.stopping
    · exact h.begun
    · intro x y
      rcases h.joined x y with z | z
      · exact .inl z
      · rw [hl] at z; cases z
  · rename_i hc
    have hl : s.call.late = false := by rw [hc]; rfl
    constructor <;> dsimp only
    · exact fun _ => rfl
    · exact fun _ => ⟨rfl, h.marked (.inr (.inr hc))⟩
    · simp
    · simp
    · simp [HlCall.late]
    · exact h.left
    · intro x; have := h.gone x; rw [hc] at this; simp at this
    · exact h.ub
    · exact h.sse
    · exact h.len
    · exact h.tells
    · exact h.signaled
    · exact h.last
    · exact h.stopping
    · exact h.begun
    · intro x y
      rcases h.joined x y with z | z
      · exact .inl z
      · rw [hl] at z; cases z
  · rename_i hc
    have hj := h.joins (.inl hc)
    split
    · rename_i hio
      have hst : HlEv.started ∈ s.log ∨ s.io = .none := by
        rcases hio with e | e
        · exact .inr e
        · exact .inl (h.begun (.inl (by rw [e]; decide)))
      constructor <;> dsimp only
      · exact h.over
      · exact fun _ => hj
      · simp
      · simp
      · exact fun _ => rfl
      · exact fun x => ⟨rfl, (h.left x).2⟩
      · intro x; have := h.gone x; rw [hc] at this; simp at this
      · exact h.ub
      · exact h.sse
      · exact h.len
      · exact h.tells
      · exact h.signaled
      · exact h.last
      · exact h.stopping
      · intro x
        rcases x with x | x
        · exact absurd rfl x
        · exact h.begun (.inr x)
      · exact fun _ _ => .inr rfl
    · exact h
  · rename_i hc
    have hj := h.joins (.inr hc)
    split
    · constructor <;> dsimp only
      · exact fun _ => hj.1
      · simp
      · simp
      · simp
      · simp [HlCall.late]
      · exact fun _ => ⟨h.late (by rw [hc]; rfl), rfl⟩
      · intro x; have := h.gone x; rw [hc] at this; simp at this
      · exact h.ub
      · simp
      · rw [h.len]; simp
      · exact h.tells.snoc (by decide)
      · rw [h.signaled]; simp
      · rw [h.last]; simp
      · intro x y; simp; exact h.stopping x (by simpa using y)
      · intro x; simp; exact h.begun x
      · intro x y; left; simp
    · exact h
  · rename_i hc
    have hl : s.call.late = false := by rw [hc]; rfl
    split
    · rename_i hio
      constructor <;> dsimp only
      · exact h.over
      · simp
      · simp
      · simp
      · exact fun _ => hio
      · exact h.left
      · intro x; have := h.gone x; rw [hc] at this; simp at this
      · exact h.ub
      · exact h.sse
      · exact h.len
      · exact h.tells
      · exact h.signaled
      · exact h.last
      · exact h.stopping
      · exact h.begun
      · exact fun _ _ => .inr rfl
    · rename_i hio
      constructor <;> dsimp only
      · exact fun _ => rfl
      · simp
      · simp
      · exact fun _ => rfl
      · simp [HlCall.late]
      · exact h.left
      · intro x; have := h.gone x; rw [hc] at this; simp at this
      · exact h.ub
      · exact h.sse
      · exact h.len
      · exact h.tells
      · exact h.signaled
      · exact h.last
      · exact h.stopping
      · exact h.begun
      · exact fun x => absurd x hio
  · rename_i hc
    split
    · rename_i hio
      constructor <;> dsimp only
      · exact h.over
      · simp
      · simp
      · simp
      · exact fun _ => rfl
      · intro x; have := (h.left x).1; rw [hio] at this; cases this
      · intro x; have := h.gone x; rw [hc] at this; simp at this
      · exact h.ub
      · exact h.sse
      · exact h.len
      · exact h.tells
      · exact h.signaled
      · exact h.last
      · exact h.stopping
      · intro x; exact h.begun (.inl (by rw [hio]; decide))
      · exact fun _ _ => .inr rfl
    · exact h
  · rename_i hc
    have hio := h.late (by rw [hc]; rfl)
    split
    · constructor <;> dsimp only
      · exact h.over
      · simp
      · simp
      · simp
      · exact fun _ => hio
      · exact fun x => ⟨hio, rfl⟩
      · exact fun _ => .inl rfl
      · exact fun _ => rfl
      · simp
      · exact h.len
      · exact h.tells
      · exact h.signaled
      · exact h.last
      · exact h.stopping
      · exact h.begun
      · exact fun _ _ => .inr rfl
    · exact h
  · rename_i hc
    have hio := h.late (by rw [hc]; rfl)
    split
    · exact h
    · constructor <;> dsimp only
      · exact h.over
      · simp
      · simp
      · simp
      · exact fun _ => hio
      · exact h.left
      · exact fun _ => .inr rfl
      · exact h.ub
      · exact h.sse
      · exact h.len
      · exact h.tells
      · exact h.signaled
      · exact h.last
      · exact h.stopping
      · exact h.begun
      · exact fun _ _ => .inr rfl
  · exact h

theorem HlInv.begin {s : Hl} (h : HlInv s) (hc : s.call = .idle) (c : HlCall) (hf : c = .flag ∨ c = .dHalt) : HlInv { s with call := c } := by
  have hl : s.call.late = false := by rw [hc]; rfl
  constructor <;> dsimp only
  · exact h.over
  · rcases hf with rfl | rfl <;> simp
  · rcases hf with rfl | rfl <;> simp
  · rcases hf with rfl | rfl <;> simp
  · rcases hf with rfl | rfl <;> simp [HlCall.late]
  · exact h.left
  · intro x; have := h.gone x; rw [hc] at this; simp at this
  · exact h.ub
  · exact h.sse
  · exact h.len
  · exact h.tells
  · exact h.signaled
  · exact h.last
  · exact h.stopping
  · exact h.begun
  · intro x y
    rcases h.joined x y with z | z
    · exact .inl z
    · rw [hl] at z; cases z

theorem HlInv.step {s : Hl} (h : HlInv s) (op : HlOp) : HlInv (s.step op) := by
  unfold Hl.step
  split
  · exact h
  · cases op with
    | start => dsimp only; split; (rename_i hc; exact h.start hc); exact h
    | stop => dsimp only; split; (rename_i hc; exact h.begin hc _ (.inl rfl)); exact h
    | destroy => dsimp only; split; (rename_i hc; exact h.begin hc _ (.inr rfl)); exact h
    | caller => exact h.caller
    | io => exact h.goIo
    | accept o => dsimp only; split; (rename_i hc; exact h.goAccept o hc.1); exact h
    | conn c r => dsimp only; split; (rename_i hc; exact h.conn c r hc.1); exact h
    | work c u => dsimp only; split; exact h.use u; exact h
    | finish c => dsimp only; split; exact h.frame rfl id rfl rfl rfl rfl (fun x => (h.left x).2) rfl rfl h.ub rfl h.sse; exact h
    | push k => dsimp only; split; exact h.use _; exact h
    | sse j => exact h.goSse j
    | wrote j ok => exact h.wrote j ok

theorem hlInv_run (ops : List HlOp) : HlInv (Hl.init.run ops) := by
  have key : ∀ (l : List HlOp) (s : Hl), HlInv s → HlInv (s.run l) := by
    intro l
    induction l with
    | nil => exact fun s h => h
    | cons op l ih => exact fun s h => ih _ (h.step op)
  exact key ops _ hlInv_init

/-! ### What steps change -/

theorem signal_eq (s : Hl) : ∃ g f l, s.signal = { s with signaled := g, futs := f, log := l } := by
  unfold Hl.signal; split
  · exact ⟨_, _, _, rfl⟩
  · exact ⟨_, _, _, rfl⟩

theorem acceptFails_eq (s : Hl) : ∃ g f l, s.acceptFails = { s with accept := .over, signaled := g, futs := f, log := l } := by
  unfold Hl.acceptFails
  split
  · obtain ⟨g, f, l, h⟩ := signal_eq { s with log := s.log ++ [.failed] }
    exact ⟨g, f, l, by rw [h]⟩
  · obtain ⟨g, f, l, h⟩ := signal_eq s
    exact ⟨g, f, l, by rw [h]⟩

theorem goAccept_eq (s : Hl) (o : HlGo) : ∃ a b g f c l, s.goAccept o = { s with accept := a, open_ := b, signaled := g, futs := f, conns := c, log := l } := by
  unfold Hl.goAccept
  split
  · split
    · obtain ⟨g, f, l, h⟩ := signal_eq { s with log := s.log ++ [.failed] }
      exact ⟨.over, s.open_, g, f, s.conns, l, by rw [h]⟩
    · exact ⟨_, _, _, _, _, _, rfl⟩
  · split
    · obtain ⟨g, f, l, h⟩ := signal_eq { s with open_ := true, log := s.log ++ [.listening] }
      exact ⟨if s.running then .listening else .over, true, g, f, s.conns, l, by simp only [h]⟩
    · obtain ⟨g, f, l, h⟩ := acceptFails_eq s
      exact ⟨.over, s.open_, g, f, s.conns, l, by rw [h]⟩
  · split
    · exact ⟨_, _, _, _, _, _, rfl⟩
    · obtain ⟨g, f, l, h⟩ := acceptFails_eq s
      exact ⟨.over, s.open_, g, f, s.conns, l, by rw [h]⟩
  · exact ⟨_, _, _, _, _, _, rfl⟩

theorem goConn_eq (s : Hl) (c : Nat) (r : HlReq) : ∃ x y, s.goConn c r = { s with conns := x, sse := y } := by
  unfold Hl.goConn
  repeat' split
  all_goals exact ⟨_, _, rfl⟩

theorem use_eq (s : Hl) (u : HlUse) : ∃ x y, s.use u = { s with ub := x, sessions := y } ∧ (s.gone = false → x = s.ub) := by
  unfold Hl.use
  split
  · rename_i hg; exact ⟨_, _, rfl, fun h => by rw [h] at hg; cases hg⟩
  · cases u <;> exact ⟨_, _, rfl, fun _ => rfl⟩

theorem goSse_eq (s : Hl) (j : Nat) : ∃ x y, s.goSse j = { s with sse := x, sessions := y } := by
  unfold Hl.goSse
  repeat' split
  all_goals exact ⟨_, _, rfl⟩

theorem wrote_eq (s : Hl) (j : Nat) (ok : Bool) : ∃ x, s.wrote j ok = { s with sse := x } := by
  unfold Hl.wrote
  split <;> exact ⟨_, rfl⟩

theorem goIo_eq (s : Hl) : ∃ x y z, s.goIo = { s with io := x, accept := y, stopped := z } := by
  unfold Hl.goIo
  repeat' split
  all_goals exact ⟨_, _, _, rfl⟩

/-- While a call is under way, a step of another thread leaves these alone. -/
theorem others_step (s : Hl) (op : HlOp) (hc : s.call ≠ .idle) (hop : op ≠ .caller) :
    (s.step op).call = s.call ∧ (s.step op).running = s.running ∧ (s.step op).dead = s.dead ∧ (s.step op).gone = s.gone ∧ (op ≠ .io → (s.step op).io = s.io) ∧
    (s.gone = false → (s.step op).ub = s.ub) := by
  unfold Hl.step
  split
  · exact ⟨rfl, rfl, rfl, rfl, fun _ => rfl, fun _ => rfl⟩
  · cases op with
    | start => simp
    | stop => simp
    | destroy => simp
    | push k => simp
    | caller => exact absurd rfl hop
    | io => obtain ⟨x, y, z, h⟩ := goIo_eq s; dsimp only; rw [h]; exact ⟨rfl, rfl, rfl, rfl, fun h => absurd rfl h, fun _ => rfl⟩
    | accept o =>
      dsimp only
      split
      · obtain ⟨a, b, g, f, c, l, h⟩ := goAccept_eq s o; rw [h]; exact ⟨rfl, rfl, rfl, rfl, fun _ => rfl, fun _ => rfl⟩
      · exact ⟨rfl, rfl, rfl, rfl, fun _ => rfl, fun _ => rfl⟩
    | conn c r =>
      dsimp only
      split
      · obtain ⟨x, y, h⟩ := goConn_eq s c r; rw [h]; exact ⟨rfl, rfl, rfl, rfl, fun _ => rfl, fun _ => rfl⟩
      · exact ⟨rfl, rfl, rfl, rfl, fun _ => rfl, fun _ => rfl⟩
    | work c u =>
      dsimp only
      split
      · obtain ⟨x, y, h, hu⟩ := use_eq s u; rw [h]; exact ⟨rfl, rfl, rfl, rfl, fun _ => rfl, hu⟩
      · exact ⟨rfl, rfl, rfl, rfl, fun _ => rfl, fun _ => rfl⟩
    | finish c => dsimp only; split <;> exact ⟨rfl, rfl, rfl, rfl, fun _ => rfl, fun _ => rfl⟩
    | sse j => obtain ⟨x, y, h⟩ := goSse_eq s j; dsimp only; rw [h]; exact ⟨rfl, rfl, rfl, rfl, fun _ => rfl, fun _ => rfl⟩
    | wrote j ok => obtain ⟨x, h⟩ := wrote_eq s j ok; dsimp only; rw [h]; exact ⟨rfl, rfl, rfl, rfl, fun _ => rfl, fun _ => rfl⟩

theorem step_alive (s : Hl) (op : HlOp) (hd : s.dead = false) (hu : s.ub = false) : s.step op = match op with
  | .start => if s.call = .idle then s.start else s
  | .stop => if s.call = .idle then { s with call := .flag } else s
  | .destroy => if s.call = .idle then { s with call := .dHalt } else s
  | .caller => s.caller
  | .io => s.goIo
  | .accept o => if s.io = .run ∧ s.stopped = false then s.goAccept o else s
  | .conn c r => if s.io = .run ∧ s.stopped = false then s.goConn c r else s
  | .work c u => if s.conns[c]? = some .handling then s.use u else s
  | .finish c => if s.conns[c]? = some .handling then { s with conns := s.conns.set c .replied } else s
  | .push k => if s.call = .idle then s.use (.push k) else s
  | .sse j => s.goSse j
  | .wrote j ok => s.wrote j ok := by
  unfold Hl.step
  rw [if_neg (by simp [hd, hu])]
  cases op <;> rfl

/-! ### What is told -/

/-- C117. The future of `Start` becomes ready at most once, and then the server listens, or the error handler was called, or `Stop` was called: for every history.
What the future of the last `Start` shows is what was said. -/
theorem C117_tells (ops : List HlOp) : let s := Hl.init.run ops
    (∀ pre post, s.log = pre ++ .ready :: post →
      (.listening ∈ sinceStart pre ∨ .failed ∈ sinceStart pre ∨ .stopping ∈ sinceStart pre) ∧ HlEv.ready ∉ sinceStart pre) ∧
    (s.futs.getLast? = some .ready ↔ HlEv.ready ∈ sinceStart s.log) ∧ s.futs.length = s.log.count .started := by
  intro s
  have h := hlInv_run ops
  refine ⟨h.tells, ?_, h.len⟩
  rw [← h.signaled, h.last]
  constructor
  · intro x
    split at x
    · split at x
      · rename_i hs; exact hs
      · cases x
    · cases x
  · intro x
    have : HlEv.started ∈ s.log := h.begun (.inr (.inr x))
    rw [if_pos this, if_pos x]

/-! ### Start -/

/-- The states an endless execution leads through. -/
def hlStates (s : Hl) (f : Nat → HlOp) : Nat → Hl
  | 0 => s
  | t + 1 => (hlStates s f t).step (f t)

theorem hlStates_run (s : Hl) (f : Nat → HlOp) (t : Nat) : hlStates s f t = s.run ((List.range t).map f) := by
  induction t with
  | zero => rfl
  | succ t ih => simp only [hlStates, ih, List.range_succ, List.map_append, Hl.run, List.foldl_append]; rfl

theorem hlInv_at (f : Nat → HlOp) (t : Nat) : HlInv (hlStates Hl.init f t) := by rw [hlStates_run]; exact hlInv_run _

/-- Something that stays until a step of a kind that comes again and again. -/
theorem hl_until (s : Hl) (f : Nat → HlOp) {t : Nat} (P : Hl → Prop) (Q : Nat → Prop) (h : P (hlStates s f t))
    (hstep : ∀ v, t ≤ v → P (hlStates s f v) → P (hlStates s f (v + 1)) ∨ Q v) (hturn : ∃ v, t ≤ v ∧ (P (hlStates s f v) → Q v)) :
    ∃ v, t ≤ v ∧ P (hlStates s f v) ∧ Q v := by
  obtain ⟨v, h1, h2⟩ := hturn
  have key : ∀ u, t ≤ u → P (hlStates s f u) ∨ ∃ v, t ≤ v ∧ P (hlStates s f v) ∧ Q v := by
    intro u hu
    induction hu with
    | refl => exact .inl h
    | step hu ih =>
      rcases ih with ih | ih
      · rcases hstep _ hu ih with h3 | h3
        · exact .inl h3
        · exact .inr ⟨_, hu, ih, h3⟩
      · exact .inr ih
  rcases key v h1 with h3 | h3
  · exact ⟨v, h1, h3, h2 h3⟩
  · exact h3

/-- The server has been started and nobody calls it: not ready yet, at this stage. -/
structure Starting (s : Hl) : Prop where
  dead : s.dead = false
  gone : s.gone = false
  ub : s.ub = false
  call : s.call = .idle
  stopped : s.stopped = false
  signaled : s.signaled = false
  fut : s.futs.getLast? = some .waiting

/-- Told. -/
structure Told (s : Hl) : Prop where
  dead : s.dead = false
  gone : s.gone = false
  call : s.call = .idle
  signaled : s.signaled = true
  fut : s.futs.getLast? = some .ready

/-- Nobody calls the server. -/
def Unasked (op : HlOp) : Prop := op ≠ .start ∧ op ≠ .stop ∧ op ≠ .destroy

theorem told_signal {s : Hl} (h : s.dead = false) (h1 : s.gone = false) (h2 : s.call = .idle) (h3 : s.signaled = false) (h4 : s.futs.getLast? = some .waiting) (a : HlAccept) :
    Told { s.signal with accept := a } := by
  unfold Hl.signal
  rw [if_neg (by simp [h3])]
  exact ⟨h, h1, h2, rfl, by simp [h4]⟩

theorem signal_told {s : Hl} (h : s.signaled = true) : s.signal = s := by unfold Hl.signal; rw [if_pos h]

theorem fails_told {s : Hl} (h : s.signaled = true) : ∃ l, s.acceptFails = { s with accept := .over, log := l } := by
  unfold Hl.acceptFails
  split
  · rw [signal_told (by exact h)]; exact ⟨_, rfl⟩
  · rw [signal_told h]; exact ⟨s.log, rfl⟩

theorem Told.step {s : Hl} (h : Told s) {op : HlOp} (ho : Unasked op) : Told (s.step op) := by
  obtain ⟨h1, h2, h3⟩ := ho
  unfold Hl.step
  split
  · exact h
  · cases op with
    | start => exact absurd rfl h1
    | stop => exact absurd rfl h2
    | destroy => exact absurd rfl h3
    | caller => dsimp only; unfold Hl.caller; rw [h.call]; exact h
    | io => obtain ⟨x, y, z, e⟩ := goIo_eq s; dsimp only; rw [e]; exact ⟨h.dead, h.gone, h.call, h.signaled, h.fut⟩
    | accept o =>
      dsimp only
      split
      · unfold Hl.goAccept
        obtain ⟨l, hf⟩ := fails_told h.signaled
        split
        · split
          · rw [signal_told (by exact h.signaled)]; exact ⟨h.dead, h.gone, h.call, h.signaled, h.fut⟩
          · exact ⟨h.dead, h.gone, h.call, h.signaled, h.fut⟩
        · split
          · rw [signal_told (by exact h.signaled)]; exact ⟨h.dead, h.gone, h.call, h.signaled, h.fut⟩
          · rw [hf]; exact ⟨h.dead, h.gone, h.call, h.signaled, h.fut⟩
        · split
          · exact ⟨h.dead, h.gone, h.call, h.signaled, h.fut⟩
          · rw [hf]; exact ⟨h.dead, h.gone, h.call, h.signaled, h.fut⟩
        · exact h
      · exact h
    | conn c r =>
      dsimp only
      split
      · obtain ⟨x, y, e⟩ := goConn_eq s c r; rw [e]; exact ⟨h.dead, h.gone, h.call, h.signaled, h.fut⟩
      · exact h
    | work c u =>
      dsimp only
      split
      · obtain ⟨x, y, e, -⟩ := use_eq s u; rw [e]; exact ⟨h.dead, h.gone, h.call, h.signaled, h.fut⟩
      · exact h
    | finish c => dsimp only; split; exact ⟨h.dead, h.gone, h.call, h.signaled, h.fut⟩; exact h
    | push k =>
      dsimp only
      split
      · obtain ⟨x, y, e, -⟩ := use_eq s (.push k); rw [e]; exact ⟨h.dead, h.gone, h.call, h.signaled, h.fut⟩
      · exact h
    | sse j => obtain ⟨x, y, e⟩ := goSse_eq s j; dsimp only; rw [e]; exact ⟨h.dead, h.gone, h.call, h.signaled, h.fut⟩
    | wrote j ok => obtain ⟨x, e⟩ := wrote_eq s j ok; dsimp only; rw [e]; exact ⟨h.dead, h.gone, h.call, h.signaled, h.fut⟩

/-- The stages before the server is ready. -/
inductive HlStage (s : Hl) : Prop where
  | entry (h : s.io = .entry)
  | queued (h : s.io = .run) (h' : s.accept = .queued)
  | resolving (h : s.io = .run) (h' : s.accept = .resolving)

theorem Starting.step {s : Hl} (h : Starting s) {op : HlOp} (ho : Unasked op) :
    (Starting (s.step op) ∧ ((s.io = .entry → (s.step op).io = .entry ∧ op ≠ .io ∨ (s.step op).io = .run ∧ (s.step op).accept = .queued)) ∧
      (s.io = .run → s.accept = .queued → (s.step op).io = .run ∧ ((s.step op).accept = .queued ∧ (∀ o, op ≠ .accept o) ∨ (s.step op).accept = .resolving)) ∧
      (s.io = .run → s.accept = .resolving → (s.step op).io = .run ∧ (s.step op).accept = .resolving ∧ ∀ o, op ≠ .accept o)) ∨
    (¬ HlStage s) ∨ Told (s.step op) := by
  obtain ⟨h1, h2, h3⟩ := ho
  by_cases hst : HlStage s
  · rw [step_alive s op h.dead h.ub]
    cases op with
    | start => exact absurd rfl h1
    | stop => exact absurd rfl h2
    | destroy => exact absurd rfl h3
    | caller =>
      dsimp only
      unfold Hl.caller; rw [h.call]; dsimp only
      exact .inl ⟨h, fun e => .inl ⟨e, by simp⟩, fun e e' => ⟨e, .inl ⟨e', by simp⟩⟩, fun e e' => ⟨e, e', by simp⟩⟩
    | io =>
      dsimp only
      unfold Hl.goIo
      cases hst with
      | entry e =>
        rw [e]; dsimp only
        exact .inl ⟨⟨h.dead, h.gone, h.ub, h.call, h.stopped, h.signaled, h.fut⟩, fun _ => .inr ⟨rfl, rfl⟩, fun e' => (by cases e'), fun e' => (by cases e')⟩
      | queued e e' =>
        rw [e]; dsimp only
        have hw : s.work = true := by simp [Hl.work, e']
        rw [if_neg (by simp [h.stopped, hw])]
        exact .inl ⟨h, fun x => (by cases x), fun _ _ => ⟨e, .inl ⟨e', by simp⟩⟩, fun _ x => ⟨e, x, by simp⟩⟩
      | resolving e e' =>
        rw [e]; dsimp only
        have hw : s.work = true := by simp [Hl.work, e']
        rw [if_neg (by simp [h.stopped, hw])]
        exact .inl ⟨h, fun x => (by cases x), fun _ x => ⟨e, .inl ⟨x, by simp⟩⟩, fun _ _ => ⟨e, e', by simp⟩⟩
    | accept o =>
      dsimp only
      cases hst with
      | entry e =>
        rw [if_neg (by simp [e])]
        exact .inl ⟨h, fun x => .inl ⟨x, by simp⟩, fun x => (by rw [e] at x; cases x), fun x => (by rw [e] at x; cases x)⟩
      | queued e e' =>
        rw [if_pos ⟨e, h.stopped⟩]
        unfold Hl.goAccept
        rw [e']; dsimp only
        split
        · refine .inr (.inr ?_); apply told_signal <;> first | exact h.dead | exact h.gone | exact h.call | exact h.signaled | exact h.fut
        · exact .inl ⟨⟨h.dead, h.gone, h.ub, h.call, h.stopped, h.signaled, h.fut⟩, fun x => (by rw [e] at x; cases x), fun _ _ => ⟨e, .inr rfl⟩,
            fun _ x => (by cases x)⟩
      | resolving e e' =>
        rw [if_pos ⟨e, h.stopped⟩]
        unfold Hl.goAccept
        rw [e']; dsimp only
        right; right
        split
        · apply told_signal <;> first | exact h.dead | exact h.gone | exact h.call | exact h.signaled | exact h.fut
        · unfold Hl.acceptFails
          split
          · apply told_signal <;> first | exact h.dead | exact h.gone | exact h.call | exact h.signaled | exact h.fut
          · apply told_signal <;> first | exact h.dead | exact h.gone | exact h.call | exact h.signaled | exact h.fut
    | conn c r =>
      dsimp only
      left
      split
      · obtain ⟨x, y, e⟩ := goConn_eq s c r; rw [e]
        exact ⟨⟨h.dead, h.gone, h.ub, h.call, h.stopped, h.signaled, h.fut⟩, fun e => .inl ⟨e, by simp⟩, fun e e' => ⟨e, .inl ⟨e', by simp⟩⟩, fun e e' => ⟨e, e', by simp⟩⟩
      · exact ⟨h, fun e => .inl ⟨e, by simp⟩, fun e e' => ⟨e, .inl ⟨e', by simp⟩⟩, fun e e' => ⟨e, e', by simp⟩⟩
    | work c u =>
      dsimp only
      left
      split
      · obtain ⟨x, y, e, hu⟩ := use_eq s u; rw [e]
        exact ⟨⟨h.dead, h.gone, (hu h.gone).trans h.ub, h.call, h.stopped, h.signaled, h.fut⟩, fun e => .inl ⟨e, by simp⟩, fun e e' => ⟨e, .inl ⟨e', by simp⟩⟩, fun e e' => ⟨e, e', by simp⟩⟩
      · exact ⟨h, fun e => .inl ⟨e, by simp⟩, fun e e' => ⟨e, .inl ⟨e', by simp⟩⟩, fun e e' => ⟨e, e', by simp⟩⟩
    | finish c =>
      dsimp only
      left
      split
      · exact ⟨⟨h.dead, h.gone, h.ub, h.call, h.stopped, h.signaled, h.fut⟩, fun e => .inl ⟨e, by simp⟩, fun e e' => ⟨e, .inl ⟨e', by simp⟩⟩, fun e e' => ⟨e, e', by simp⟩⟩
      · exact ⟨h, fun e => .inl ⟨e, by simp⟩, fun e e' => ⟨e, .inl ⟨e', by simp⟩⟩, fun e e' => ⟨e, e', by simp⟩⟩
    | push k =>
      dsimp only
      left
      split
      · obtain ⟨x, y, e, hu⟩ := use_eq s (.push k); rw [e]
        exact ⟨⟨h.dead, h.gone, (hu h.gone).trans h.ub, h.call, h.stopped, h.signaled, h.fut⟩, fun e => .inl ⟨e, by simp⟩, fun e e' => ⟨e, .inl ⟨e', by simp⟩⟩, fun e e' => ⟨e, e', by simp⟩⟩
      · exact ⟨h, fun e => .inl ⟨e, by simp⟩, fun e e' => ⟨e, .inl ⟨e', by simp⟩⟩, fun e e' => ⟨e, e', by simp⟩⟩
    | sse j =>
      obtain ⟨x, y, e⟩ := goSse_eq s j; dsimp only; rw [e]
      exact .inl ⟨⟨h.dead, h.gone, h.ub, h.call, h.stopped, h.signaled, h.fut⟩, fun e => .inl ⟨e, by simp⟩, fun e e' => ⟨e, .inl ⟨e', by simp⟩⟩, fun e e' => ⟨e, e', by simp⟩⟩
    | wrote j ok =>
      obtain ⟨x, e⟩ := wrote_eq s j ok; dsimp only; rw [e]
      exact .inl ⟨⟨h.dead, h.gone, h.ub, h.call, h.stopped, h.signaled, h.fut⟩, fun e => .inl ⟨e, by simp⟩, fun e e' => ⟨e, .inl ⟨e', by simp⟩⟩, fun e e' => ⟨e, e', by simp⟩⟩
  · exact .inr (.inl hst)

/-- C117. A server that was never stopped and has just been started, and is not called meanwhile, becomes ready however its threads take turns, be the port bad, taken or free. -/
theorem C117_ready (ops : List HlOp) (f : Nat → HlOp) (hs : Starting (Hl.init.run ops)) (hio : (Hl.init.run ops).io = .entry) (hun : ∀ t, Unasked (f t))
    (hfio : ∀ t, ∃ u, t ≤ u ∧ f u = .io) (hfacc : ∀ t, ∃ u o, t ≤ u ∧ f u = .accept o) :
    ∃ T, ∀ t, T ≤ t → (hlStates (Hl.init.run ops) f t).futs.getLast? = some .ready := by
  generalize Hl.init.run ops = s0 at hs hio
  have stay : ∀ T, Told (hlStates s0 f T) → ∀ t, T ≤ t → (hlStates s0 f t).futs.getLast? = some .ready := by
    intro T hT t ht
    have : Told (hlStates s0 f t) := by
      induction ht with
      | refl => exact hT
      | step _ ih => exact ih.step (hun _)
    exact this.fut
  -- the io thread begins
  obtain ⟨u, -, ⟨hu1, hu2⟩, hu3⟩ := hl_until s0 f (t := 0) (fun s => Starting s ∧ s.io = .entry) (fun v => Starting (hlStates s0 f (v + 1)) ∧ (hlStates s0 f (v + 1)).io = .run ∧
      (hlStates s0 f (v + 1)).accept = .queued) ⟨hs, hio⟩
    (fun v _ ⟨h1, h2⟩ => by
      rcases h1.step (hun v) with ⟨g1, g2, -, -⟩ | g | g
      · rcases g2 h2 with ⟨g, -⟩ | ⟨g, g'⟩
        · exact .inl ⟨g1, g⟩
        · exact .inr ⟨g1, g, g'⟩
      · exact absurd (.entry h2) g
      · exfalso
        rw [step_alive _ _ h1.dead h1.ub] at g
        have hsig := g.signaled
        have hs0 := h1.signaled
        generalize hlStates s0 f v = s at *
        have hu := hun v
        cases hop : f v with
        | start => exact hu.1 hop
        | stop => exact hu.2.1 hop
        | destroy => exact hu.2.2 hop
        | caller => rw [hop] at hsig; simp [Hl.caller, h1.call, hs0] at hsig
        | io => rw [hop] at hsig; simp [Hl.goIo, h2, hs0] at hsig
        | accept o => rw [hop] at hsig; simp [h2, hs0] at hsig
        | conn c r => rw [hop] at hsig; simp [h2, hs0] at hsig
        | work c u => rw [hop] at hsig; dsimp only at hsig; split at hsig; (obtain ⟨x, y, e, -⟩ := use_eq s u; rw [e] at hsig; simp [hs0] at hsig); simp [hs0] at hsig
        | finish c => rw [hop] at hsig; dsimp only at hsig; split at hsig <;> simp [hs0] at hsig
        | push k => rw [hop] at hsig; dsimp only at hsig; split at hsig; (obtain ⟨x, y, e, -⟩ := use_eq s (.push k); rw [e] at hsig; simp [hs0] at hsig); simp [hs0] at hsig
        | sse j => rw [hop] at hsig; dsimp only at hsig; obtain ⟨x, y, e⟩ := goSse_eq s j; rw [e] at hsig; simp [hs0] at hsig
        | wrote j ok => rw [hop] at hsig; dsimp only at hsig; obtain ⟨x, e⟩ := wrote_eq s j ok; rw [e] at hsig; simp [hs0] at hsig)
    (by
      obtain ⟨v, h1, h2⟩ := hfio 0
      refine ⟨v, h1, fun ⟨g1, g2⟩ => ?_⟩
      have := g1.step (hun v)
      show Starting ((hlStates s0 f v).step (f v)) ∧ ((hlStates s0 f v).step (f v)).io = .run ∧ ((hlStates s0 f v).step (f v)).accept = .queued
      rw [h2, step_alive _ _ g1.dead g1.ub]
      dsimp only
      unfold Hl.goIo
      rw [g2]
      exact ⟨⟨g1.dead, g1.gone, g1.ub, g1.call, g1.stopped, g1.signaled, g1.fut⟩, rfl, rfl⟩)
  -- the accept loop is resumed twice
  have step2 : ∀ T, Starting (hlStates s0 f T) → (hlStates s0 f T).io = .run → (hlStates s0 f T).accept = .resolving → ∃ T', Told (hlStates s0 f T') := by
    intro T h1 h2 h3
    obtain ⟨v, -, -, hv⟩ := hl_until s0 f (t := T) (fun s => Starting s ∧ s.io = .run ∧ s.accept = .resolving) (fun v => Told (hlStates s0 f (v + 1))) ⟨h1, h2, h3⟩
      (fun v _ ⟨g1, g2, g3⟩ => by
        rcases g1.step (hun v) with ⟨k1, -, -, k4⟩ | k | k
        · exact .inl ⟨k1, (k4 g2 g3).1, (k4 g2 g3).2.1⟩
        · exact absurd (.resolving g2 g3) k
        · exact .inr k)
      (by
        obtain ⟨v, o, k1, k2⟩ := hfacc T
        refine ⟨v, k1, fun ⟨g1, g2, g3⟩ => ?_⟩
        rcases g1.step (hun v) with ⟨-, -, -, k4⟩ | k | k
        · exact absurd k2 ((k4 g2 g3).2.2 o)
        · exact absurd (.resolving g2 g3) k
        · exact k)
    exact ⟨v + 1, hv⟩
  have step1 : ∃ T', Told (hlStates s0 f T') := by
    obtain ⟨v, -, -, hv⟩ := hl_until s0 f (t := u + 1) (fun s => Starting s ∧ s.io = .run ∧ s.accept = .queued)
      (fun v => Told (hlStates s0 f (v + 1)) ∨ (Starting (hlStates s0 f (v + 1)) ∧ (hlStates s0 f (v + 1)).io = .run ∧ (hlStates s0 f (v + 1)).accept = .resolving)) hu3
      (fun v _ ⟨g1, g2, g3⟩ => by
        rcases g1.step (hun v) with ⟨k1, -, k3, -⟩ | k | k
        · rcases (k3 g2 g3).2 with ⟨k5, -⟩ | k5
          · exact .inl ⟨k1, (k3 g2 g3).1, k5⟩
          · exact .inr (.inr ⟨k1, (k3 g2 g3).1, k5⟩)
        · exact absurd (.queued g2 g3) k
        · exact .inr (.inl k))
      (by
        obtain ⟨v, o, k1, k2⟩ := hfacc (u + 1)
        refine ⟨v, k1, fun ⟨g1, g2, g3⟩ => ?_⟩
        rcases g1.step (hun v) with ⟨k1', -, k3, -⟩ | k | k
        · rcases (k3 g2 g3).2 with ⟨-, k5⟩ | k5
          · exact absurd k2 (k5 o)
          · exact .inr ⟨k1', (k3 g2 g3).1, k5⟩
        · exact absurd (.queued g2 g3) k
        · exact .inl k)
    rcases hv with hv | ⟨g1, g2, g3⟩
    · exact ⟨_, hv⟩
    · exact step2 _ g1 g2 g3
  obtain ⟨T, hT⟩ := step1
  exact ⟨T, stay T hT⟩

/-- A server that was started, on a port that is taken, and its turns. -/
example : Starting (Hl.init.run [.start]) ∧ (Hl.init.run [.start]).io = .entry ∧ (∀ t, Unasked (if t % 2 = 0 then .io else .accept .fail)) ∧
    (∀ t, ∃ u, t ≤ u ∧ (if u % 2 = 0 then HlOp.io else .accept .fail) = .io) ∧ (∀ t, ∃ u o, t ≤ u ∧ (if u % 2 = 0 then HlOp.io else .accept .fail) = .accept o) := by
  refine ⟨?_, by decide +kernel, fun t => ?_, fun t => ⟨2 * t, by omega, by simp⟩, fun t => ⟨2 * t + 1, .fail, by omega, by simp⟩⟩
  · constructor <;> decide +kernel
  · split <;> exact ⟨(nomatch ·), (nomatch ·), (nomatch ·)⟩

/-- A port that is taken: told by the error handler, and the future is ready all the same. -/
example : (Hl.init.run [.start, .io, .accept .ok, .accept .fail]).log = [.started, .failed, .ready] ∧ (Hl.init.run [.start, .io, .accept .ok, .accept .fail]).futs = [.ready] := by decide +kernel

end Verif.Http
