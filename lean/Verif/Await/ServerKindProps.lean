import Verif.Await.ServerSafeProps

/-!
Claim C113: what a strict server takes for the result of a task it has asked for.
-/

namespace Verif

open Client Validation Await
open Server hiding Ends
open Caps hiding Obj

variable {D : Type}

/-- The task of this id is one of the server's own. -/
def Knows (id : Bytes) (s : SSelf D) : Prop := id = [] ∨ s.kinds id ≠ none

/-- The call gives a task only right after the server has noted it. -/
def Notes : SBody D → Prop
  | .ret r => ∀ t m, r ≠ .val (.created t m)
  | .arg k => Notes k
  | .own u k => ∀ s, Notes (k s) ∨ ∃ t m, k s = .ret (.val (.created t m)) ∧ ∀ s', Knows t.taskId (u s')
  | .ask _ k => ∀ o, Notes (k o)

/-- The same where a call stands; `s` are the members. -/
def NotesSt (s : SSelf D) : St (SSelf D) (SReq D) (Outcome D) (SOut D) → Prop
  | .run b => Notes b ∨ ∃ t m, b = .ret (.val (.created t m)) ∧ Knows t.taskId s
  | .check _ k | .wait _ k => ∀ o, Notes (k o)
  | .over r => ∀ t m, r = .val (.created t m) → Knows t.taskId s

theorem knows_sremember (id : Bytes) (j : Bytes) (k : Tasks.Kind) (s : SSelf D) (h : Knows id s) : Knows id (sremember j k s) := by
  unfold sremember
  split
  · exact h
  · rcases h with h | h
    · exact .inl h
    · right
      dsimp only
      split
      · simp
      · exact h

theorem knows_noted (id : Bytes) (k : Tasks.Kind) (s : SSelf D) : Knows id (sremember id k s) := by
  unfold sremember
  split
  · rename_i h; exact .inl h
  · right; simp

theorem NotesSt.mono {s s' : SSelf D} {st : St (SSelf D) (SReq D) (Outcome D) (SOut D)} (h : NotesSt s st) (hk : ∀ id, Knows id s → Knows id s') : NotesSt s' st := by
  cases st with
  | run b =>
    rcases h with h | ⟨t, m, h1, h2⟩
    · exact .inl h
    · exact .inr ⟨t, m, h1, hk _ h2⟩
  | check c k => exact h
  | wait c k => exact h
  | over r => exact fun t m hr => hk _ (h t m hr)

theorem notes_smode (c : Bool) (k : Bool → SBody D) (h : ∀ b, Notes (k b)) : Notes (smode c k) := by
  unfold smode
  split
  · exact fun _ => .inl (h _)
  · exact h _

theorem notes_screated (k : Tasks.Kind) (e : Except Bytes (Tasks.Task × Option (JVal D))) : Notes (screated k e : SBody D) := by
  cases e with
  | error e => intro t m h; cases h
  | ok p => exact fun s => .inr ⟨p.1, p.2, rfl, fun s' => knows_noted _ _ _⟩

theorem notes_sgive {T : Type} (f : T → SVal D) (hf : ∀ t t' m, f t ≠ .created t' m) (t : Option T) : Notes (sgive f t) := by
  cases t with
  | none => intro t m h; cases h
  | some t => intro t' m h; exact hf t t' m (SOut.val.inj h)

theorem notes_send (q : SReq D) (k : Outcome D → SBody D) (h : ∀ o, Notes (k o)) : Notes (send q k) := by
  intro s
  left
  dsimp only
  split
  · exact h
  · intro t m h; cases h

theorem notes_gate (c : SSelf D → Bool) (no : SOut D) (hn : ∀ t m, no ≠ .val (.created t m)) (k : SBody D) (h : Notes k) :
    Notes (.own id fun s => if c s then k else .ret no : SBody D) := by
  intro s
  left
  dsimp only
  split
  · exact h
  · exact hn

theorem notes_fitting (v : JVal D) (k : SBody D) (h : Notes k) : Notes (fitting v k) := by
  intro s
  left
  dsimp only
  split
  · intro t m h; cases h
  · exact h

theorem notes_sbody (api : SApi D) : Notes (sbody api) := by
  have n2 : ∀ t m, (SOut.threw : SOut D) ≠ .val (.created t m) := fun t m h => by cases h
  cases api with
  | roots =>
    exact notes_gate _ _ (by simp) _ (notes_gate (fun s => s.caps.roots.isSome) _ (by simp) _
      (notes_send _ _ fun o => notes_smode _ _ fun b => notes_sgive _ (by simp) _))
  | sample p id => exact notes_gate _ _ (by simp) _ (notes_send _ _ fun o t m h => by cases h)
  | sampleTask p ttl => exact notes_gate _ _ n2 _ (notes_gate (fun s => samplesTasks s.caps) _ n2 _ (notes_send _ _ fun o => notes_smode _ _ fun b => notes_screated _ _))
  | elicit r =>
    exact notes_gate _ _ (by simp) _ (notes_gate (fun s => s.caps.elicitation.isSome) _ (by simp) _
      (notes_fitting _ _ (notes_send _ _ fun o => notes_smode _ _ fun b => notes_sgive _ (by simp) _)))
  | elicitTask r ttl =>
    exact notes_gate _ _ n2 _ (notes_gate (fun s => elicitsTasks s.caps) _ n2 _ (notes_fitting _ _ (notes_send _ _ fun o => notes_smode _ _ fun b => notes_screated _ _)))
  | ping =>
    refine notes_gate _ _ (by simp) _ (notes_send _ _ fun o => notes_smode _ _ fun b => ?_)
    split
    · intro t m h; cases h
    · exact n2
  | callToolTask name args ttl => exact notes_send _ _ fun o => notes_smode _ _ fun b => notes_screated _ _
  | getTask id => exact notes_send _ _ fun o => notes_smode _ _ fun b => notes_sgive _ (by simp) _
  | cancelTask id => exact notes_send _ _ fun o => notes_smode _ _ fun b => notes_sgive _ (by simp) _
  | taskResult id =>
    refine notes_send _ _ fun o => ?_
    split
    · exact fun _ => .inl fun _ => .inl (notes_sgive _ (by simp) _)
    · exact notes_sgive _ (by simp) _
  | listTasks => exact notes_send _ _ fun o => notes_smode _ _ fun b => notes_sgive _ (by simp) _
  | listTasksPaged c l => exact notes_send _ _ fun o => notes_smode _ _ fun b => notes_sgive _ (by simp) _

/-- Only calls of the server that make tasks of kind `K`, if any, are made, and nothing else touches the mode or the notes about tasks. -/
def MakesOnly (K : Tasks.Kind) : SOp D → Prop
  | .call b => ∃ api, b = sbody api ∧ (makes api = none ∨ makes api = some K)
  | .change u => ∀ s, (u s).kinds = s.kinds ∧ (u s).strict = s.strict
  | _ => True

theorem makes_keeps_knows {K : Tasks.Kind} (id : Bytes) (op : SOp D) (h : MakesOnly K op) : OpKeeps (Knows id) op := by
  cases op with
  | call b => obtain ⟨api, rfl, _⟩ := h; exact keepsP_sbody api fun k _ j s hs => knows_sremember id j k s hs
  | change u => intro s hs; unfold Knows; rw [(h s).1]; exact hs
  | _ => trivial

/-- Every call keeps what is noted. -/
def KeepsAll (s : SSys D) : Prop := ∀ (i : Nat) (x : SCall D), s.calls[i]? = some x → ∀ id, KeepsSt (Knows id) x.st

def NotedAll (s : SSys D) : Prop := ∀ (i : Nat) (x : SCall D), s.calls[i]? = some x → NotesSt s.own x.st

theorem knows_step {K : Tasks.Kind} {s : SSys D} (hk : KeepsAll s) (op : SOp D) (hop : MakesOnly K op) :
    (∀ id, Knows id s.own → Knows id (s.step op).own) := by
  intro id h
  have h0 : Held (Knows id) s.calls.length s :=
    ⟨h, fun j y hj hy => (by rw [List.getElem?_eq_none hj] at hy; cases hy), fun j y hy => hk j y hy id⟩
  exact (held_step h0 op (makes_keeps_knows id op hop)).own

theorem keepsAll_step {K : Tasks.Kind} {s : SSys D} (hk : KeepsAll s) (op : SOp D) (hop : MakesOnly K op) : KeepsAll (s.step op) := by
  have closed : ∀ id, Closed (KeepsP (Knows id) : SBody D → Prop) fun k => ∀ o, KeepsP (Knows id) (k o) :=
    fun id => ⟨fun _ h => h, fun _ _ s h => h.2 s, fun _ _ h => h, fun _ a h => h a⟩
  have conv : ∀ id (st : St (SSelf D) (SReq D) (Outcome D) (SOut D)), StHas (KeepsP (Knows id)) (fun k => ∀ o, KeepsP (Knows id) (k o)) st ↔ KeepsSt (Knows id) st := by
    intro id st; cases st <;> exact Iff.rfl
  intro i x hx id
  rw [← conv]
  refine stHas_step (closed id) s op (fun b hb => ?_) (fun j y hy => (conv id _).2 (hk j y hy id)) i x hx
  subst hb
  exact makes_keeps_knows id (.call b) hop

theorem notedAll_step {K : Tasks.Kind} {s : SSys D} (hk : KeepsAll s) (hn : NotedAll s) (op : SOp D) (hop : MakesOnly K op) : NotedAll (s.step op) := by
  have hmono := knows_step hk op hop
  intro j y hy
  rcases Nat.lt_or_ge j s.calls.length with hj | hj
  · obtain ⟨x, hx⟩ : ∃ x, s.calls[j]? = some x := ⟨_, List.getElem?_eq_getElem hj⟩
    have hnx := hn j x hx
    rcases step_call s op j x hx with h | ⟨_, _, h⟩ | ⟨rfl, hub, h⟩
    · rw [h] at hy; cases hy; exact hnx.mono hmono
    · rw [h] at hy; cases hy; exact hnx.mono hmono
    · rw [h] at hy
      rw [h] at hmono ⊢
      unfold Sys.go at hy hmono ⊢
      have self : ∀ z : SCall D, (s.calls.set j z)[j]? = some y → y = z := fun z h => by
        rw [List.getElem?_set_self hj] at h; exact (Option.some.inj h).symm
      split at hy <;> rename_i hst <;> simp only [hst] at hmono ⊢ <;> rw [hst] at hnx
      · obtain rfl := self _ hy
        rcases hnx with hnx | ⟨t, m, h1, h2⟩
        · exact fun t m hr => absurd hr (hnx t m)
        · intro t' m' hr
          cases h1
          cases hr
          exact h2
      · split at hy
        · rename_i ha
          rw [if_pos ha]
          obtain rfl := self _ hy
          exact hnx.elim .inl fun ⟨_, _, h, _⟩ => by cases h
        · rename_i ha
          rw [if_neg ha]
          rw [hx] at hy; cases hy
          rw [hst]; exact hnx
      · split at hy
        · rename_i ha
          rw [if_pos ha]
          obtain rfl := self _ hy
          rcases hnx with hnx | ⟨t, m, h1, _⟩
          · rcases hnx s.own with h | ⟨t, m, h1, h2⟩
            · exact .inl h
            · exact .inr ⟨t, m, h1, h2 _⟩
          · cases h1
        · rename_i ha
          rw [if_neg ha]
          rw [hx] at hy; cases hy
          rw [hst]; exact hnx
      · split at hy
        · rename_i ha
          rw [if_pos ha]
          obtain rfl := self _ hy
          exact hnx.elim id fun ⟨_, _, h, _⟩ => by cases h
        · rename_i ha
          rw [if_neg ha]
          rw [hx] at hy; cases hy
          rw [hst]; exact hnx
      · split at hy
        · rename_i a hc
          simp only [hc]
          obtain rfl := self _ hy
          exact .inl (hnx a)
        · obtain rfl := self _ hy
          exact hnx
      · split at hy
        · rename_i a hc
          simp only [hc]
          obtain rfl := self _ hy
          exact .inl (hnx a)
        · rw [hx] at hy; cases hy
          rw [hst]; exact hnx
      · rw [hx] at hy; cases hy
        rw [hst]; exact hnx
  · have hz : ∃ b, op = .call b ∧ y = ⟨b, .run b, false, true, []⟩ := by
      unfold Sys.step at hy
      have none_at : s.calls[j]? = none := List.getElem?_eq_none hj
      split at hy
      · rw [none_at] at hy; cases hy
      · cases op with
        | call b =>
          dsimp only at hy
          split at hy
          · rw [List.getElem?_append_right hj] at hy
            refine ⟨b, rfl, ?_⟩
            cases hjj : j - s.calls.length with
            | zero => rw [hjj] at hy; exact (Option.some.inj hy).symm
            | succ m => rw [hjj] at hy; cases hy
          · rw [none_at] at hy; cases hy
        | go i =>
          dsimp only at hy
          split at hy
          · rename_i x hx
            exfalso
            have : (s.go i x).calls.length = s.calls.length := by
              unfold Sys.go; split <;> (try split) <;> simp
            rw [List.getElem?_eq_none (by omega)] at hy
            cases hy
          · rw [none_at] at hy; cases hy
        | fill c a => dsimp only at hy; split at hy <;> (rw [none_at] at hy; cases hy)
        | drop i =>
          dsimp only at hy
          split at hy
          · split at hy
            · rw [List.getElem?_eq_none (by simpa using hj)] at hy; cases hy
            · rw [none_at] at hy; cases hy
          · rw [none_at] at hy; cases hy
        | change u => dsimp only at hy; split at hy <;> (rw [none_at] at hy; cases hy)
        | destroy => dsimp only at hy; split at hy <;> (rw [none_at] at hy; cases hy)
    obtain ⟨b, rfl, rfl⟩ := hz
    obtain ⟨api, rfl, _⟩ := hop
    exact .inl (notes_sbody api)

theorem noted_run {K : Tasks.Kind} (ops : List (SOp D)) : ∀ (s : SSys D), KeepsAll s → NotedAll s → (∀ op ∈ ops, MakesOnly K op) →
    KeepsAll (s.run ops) ∧ NotedAll (s.run ops) := by
  induction ops with
  | nil => intro s h1 h2 _; exact ⟨h1, h2⟩
  | cons op ops ih =>
    intro s h1 h2 hops
    have hop := hops op List.mem_cons_self
    exact ih _ (keepsAll_step h1 op hop) (notedAll_step h1 h2 op hop) fun o ho => hops o (List.mem_cons_of_mem _ ho)

/-- A strict server that makes only tasks of one kind, and has got the task back: what it then takes for the result of this task has the
documented shape of that kind, unless the answer was an error or nothing (which `GetTaskResult` hands over all the same). -/
theorem C113_result_shape (s0 : SSelf D) (hs : s0.strict = true) (hk0 : ∀ id, s0.kinds id = none) (K : Tasks.Kind) (before ops : List (SOp D))
    (hb : ∀ op ∈ before, MakesOnly K op) (ho : ∀ op ∈ ops, MakesOnly K op) (i : Nat) (x : SCall D) (t : Tasks.Task) (m : Option (JVal D))
    (hi : ((Sys.init s0).run before).calls[i]? = some x) (hxo : x.st = .over (.val (.created t m))) (ht : t.taskId ≠ [])
    (j : Nat) (hj : ((Sys.init s0).run before).calls.length ≤ j) (y : SCall D) (hy : ((Sys.init s0).run (before ++ ops)).calls[j]? = some y)
    (hp : y.prog = sbody (.taskResult t.taskId)) (v : JVal D) (hyo : y.st = .over (.val (.json v))) :
    ∃ c o, sentOf y.path = [c] ∧ ((Sys.init s0).run (before ++ ops)).cells[c]? = some (some o) ∧
      ((∃ n, o = .resp ⟨n, some v, none⟩ ∧ validFor K v = true) ∨ hasResult o = false) := by
  have hn0 := noted_run before (Sys.init s0) (fun i x hx => by cases hx) (fun i x hx => by cases hx) hb
  have hkn : Knows t.taskId ((Sys.init s0).run before).own := by
    have := hn0.2 i x hi
    rw [hxo] at this
    exact this t m rfl
  -- the mode and the notes, throughout
  have hP : ∀ op, op ∈ before ++ ops → OpKeeps (fun s : SSelf D => s.strict = true ∧ ∀ id, s.kinds id = none ∨ s.kinds id = some K) op := by
    intro op hop
    have hm : MakesOnly K op := (List.mem_append.1 hop).elim (hb op) (ho op)
    cases op with
    | call b =>
      obtain ⟨api, rfl, hk⟩ := hm
      refine keepsP_sbody api fun k hk' id s h => ?_
      have hkK : k = K := by rcases hk with hk | hk <;> rw [hk] at hk' <;> cases hk'; rfl
      subst hkK
      unfold sremember
      split
      · exact h
      · refine ⟨h.1, fun j => ?_⟩
        dsimp only
        split
        · exact .inr rfl
        · exact h.2 j
    | change u => exact fun s h => ⟨(hm s).2.trans h.1, fun id => by rw [(hm s).1]; exact h.2 id⟩
    | _ => trivial
  have hall := held_run (before ++ ops) _ (held_init (P := fun s : SSelf D => s.strict = true ∧ ∀ id, s.kinds id = none ∨ s.kinds id = some K) ⟨hs, fun id => .inl (hk0 id)⟩) hP
  have hlater : ∀ s', Ev.saw s' ∈ y.path → Knows t.taskId s' := by
    have h0 : Held (Knows t.taskId) ((Sys.init s0).run before).calls.length ((Sys.init s0).run before) :=
      ⟨hkn, fun j y hj hy => (by rw [List.getElem?_eq_none hj] at hy; cases hy), fun j y hy => hn0.1 j y hy t.taskId⟩
    have h1 := held_run ops _ h0 fun op hop => makes_keeps_knows t.taskId op (ho op hop)
    rw [run_append] at hy
    exact h1.saw j y hj hy
  have htr := (inv_run s0 (before ++ ops)).tr j y hy
  have htail := htr.tail
  rw [hyo, hp] at htail
  obtain ⟨s, _, ⟨_, c, o, rest, a1, a2, a3, a4, h⟩ | ⟨_, _, h⟩⟩ := ends_send htail (Later.refl _)
  · have hcell := htr.got c o a2
    by_cases hres : hasResult o = true
    · rw [if_pos hres] at h
      obtain ⟨s1, rest1, rfl, s2, rest2, rfl, h⟩ := h
      obtain ⟨rfl, h'⟩ := ends_sgive h
      refine ⟨c, o, a3, hcell, .inl ?_⟩
      have hs2 := (hall.saw j y (Nat.zero_le _) hy s2 (a4 _ (by simp))).1
      have hk1 := (hall.saw j y (Nat.zero_le _) hy s1 (a4 _ (by simp))).2 t.taskId
      have hkk := hlater s1 (a4 _ (by simp))
      have hkind : s1.kinds t.taskId = some K := by
        rcases hkk with hkk | hkk
        · exact absurd hkk ht
        · rcases hk1 with hk1 | hk1
          · exact absurd hk1 hkk
          · exact hk1
      cases o with
      | threw => cases hres
      | nul => cases hres
      | resp r =>
        obtain ⟨n, res, err⟩ := r
        cases err with
        | some e => simp [hasResult] at hres
        | none =>
          cases res with
          | none => simp [hasResult] at hres
          | some w =>
            rw [hkind, hs2] at h'
            simp only [Client.taskResult, Bool.true_and] at h'
            split at h'
            · cases h'
            · rename_i hv
              simp only [orThrew, SOut.val.injEq, SVal.json.injEq] at h'
              subst h'
              exact ⟨n, rfl, by simpa using hv⟩
    · exact ⟨c, o, by
        rw [if_neg hres] at h
        obtain ⟨rfl, _⟩ := ends_sgive h
        exact a3, hcell, .inr (by simpa using hres)⟩
  · cases h

/-! ### Examples -/

def openCaps : ClientCaps Empty := ⟨some false, false, some [], some ⟨true, true, true, true⟩, [], []⟩
def startedSelf : SSelf Empty := ⟨true, openCaps, true, fun _ => none⟩
def idleSelf : SSelf Empty := ⟨false, openCaps, true, fun _ => none⟩
def askHi : SampleReq Empty := ⟨[.str (lit "hi")], none, none, none, none, none, none, none⟩
def workingTask : JVal Empty :=
  .obj [(lit "taskId", .str (lit "t")), (lit "status", .str (lit "working")), (lit "createdAt", .str (lit "now")),
    (lit "lastUpdatedAt", .str (lit "now")), (lit "ttl", .null)]

/-- A roots request and a sampling request under way at the same time, answered in the other order. -/
def twoAsked : List (SOp Empty) :=
  [.call (sbody .roots), .go 0, .go 0, .go 0, .go 0, .go 0, .call (sbody (.sample askHi (some (lit "7")))), .go 1, .go 1, .go 1, .go 1, .go 1, .drop 1,
   .fill 1 (okResp 1 (.str (lit "x"))), .go 1, .go 1, .fill 0 (okResp 0 (.obj [(lit "roots", .arr [.obj [(lit "uri", .str (lit "file:///a"))]])])), .go 0, .go 0, .go 0]

example : (∀ op ∈ twoAsked, Unaltered op) ∧
    (match ((Sys.init startedSelf).run twoAsked).calls with
      | [⟨_, .over (.val (.roots [⟨u, none, none⟩])), true, true, _⟩, ⟨_, .over (.val (.json (.str t))), true, false, _⟩] => u == lit "file:///a" && t == lit "x"
      | _ => false) = true := by
  refine ⟨?_, by decide +kernel⟩
  simp only [twoAsked, List.forall_mem_cons, Unaltered]
  simp
  exact ⟨⟨_, rfl⟩, ⟨_, rfl⟩⟩

/-- A server that was not started: the roots are none, the task call crashes. -/
example : (match ((Sys.init idleSelf).run [.call (sbody .roots), .go 0, .go 0, .call (sbody (.getTask (lit "t"))), .go 1, .go 1, .go 1]).calls with
      | [⟨_, .over (.val (.roots [])), true, _, _⟩, ⟨_, .over .crash, true, _, _⟩] => true
      | _ => false) = true := by decide +kernel

/-- The hypotheses of `C113_finishes`: a call that waits, with its future ended; it has seen the roots announced before it sent. -/
example : (match ((Sys.init startedSelf).run (twoAsked.take 17)).calls with
      | ⟨_, .wait 0 _, true, _, [.saw _, .saw s, .saw _, .sent 0 _]⟩ :: _ => s.caps.roots.isSome
      | _ => false) = true ∧ (((Sys.init startedSelf).run (twoAsked.take 17)).cells.all Option.isSome) = true := by
  decide +kernel

/-- A sampling task is made, then its result is asked for, once with a wrong answer and once with a right one. -/
def taskMade : List (SOp Empty) :=
  [.call (sbody (.sampleTask askHi none)), .go 0, .go 0, .go 0, .go 0, .go 0, .go 0, .fill 0 (okResp 0 (.obj [(lit "task", workingTask)])),
   .go 0, .go 0, .go 0, .go 0]
def taskFetched (v : JVal Empty) : List (SOp Empty) :=
  [.call (sbody (.taskResult (lit "t"))), .go 1, .go 1, .go 1, .go 1, .fill 1 (okResp 1 v), .go 1, .go 1, .go 1, .go 1, .go 1]
def goodMessage : JVal Empty :=
  .obj [(lit "model", .str (lit "m")), (lit "role", .str (lit "assistant")), (lit "content", .arr [.obj [(lit "type", .str (lit "text")), (lit "text", .str (lit "x"))]])]

example : (∀ op ∈ taskMade ++ taskFetched goodMessage, MakesOnly .createMessage op) ∧
    (match ((Sys.init startedSelf).run taskMade).calls with
      | [⟨_, .over (.val (.created t _)), _, _, _⟩] => t.taskId == lit "t"
      | _ => false) = true ∧
    (match ((Sys.init startedSelf).run (taskMade ++ taskFetched goodMessage)).calls with
      | [_, ⟨_, .over (.val (.json (.obj _))), _, _, _⟩] => true
      | _ => false) = true ∧
    (match ((Sys.init startedSelf).run (taskMade ++ taskFetched (.str (lit "no")))).calls with
      | [_, ⟨_, .over .threw, _, _, _⟩] => true
      | _ => false) = true := by
  refine ⟨?_, by decide +kernel, by decide +kernel, by decide +kernel⟩
  simp only [taskMade, taskFetched, List.cons_append, List.nil_append, List.forall_mem_cons, MakesOnly]
  simp
  exact ⟨⟨_, rfl, .inr rfl⟩, ⟨_, rfl, .inl rfl⟩⟩

end Verif
