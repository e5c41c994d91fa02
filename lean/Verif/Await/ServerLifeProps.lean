import Verif.Await.ServerProps

/-!
Claim C113, continued: what the server asks for, what a call needs to be there, and the shape of task results.
-/

namespace Verif

open Client Validation Await
open Server hiding Ends
open Caps hiding Obj

variable {D : Type}

/-! ### Calls end -/

theorem within_sgive {T : Type} (f : T → SVal D) (t : Option T) (n : Nat) : Within (n + 1) (sgive f t) := by
  cases t <;> exact Nat.succ_le_succ (Nat.zero_le _)

theorem within_screated (k : Tasks.Kind) (e : Except Bytes (Tasks.Task × Option (JVal D))) (n : Nat) : Within (n + 2) (screated k e : SBody D) := by
  cases e with
  | error e => exact Nat.succ_le_succ (Nat.zero_le _)
  | ok p => exact ⟨by omega, fun _ => Nat.succ_le_succ (Nat.zero_le _)⟩

theorem within_smode (c : Bool) (k : Bool → SBody D) (n : Nat) (h : ∀ b, Within n (k b)) : Within (n + 1) (smode c k) := by
  unfold smode
  split
  · exact ⟨by omega, fun s => h _⟩
  · exact (h _).mono (by omega)

theorem brief_gate (c : SSelf D → Bool) (no : SOut D) (k : SBody D) (h : Brief k) : Brief (.own id fun s => if c s then k else .ret no : SBody D) := by
  intro s
  dsimp only
  split
  · exact h
  · trivial

theorem brief_send (q : SReq D) (k : Outcome D → SBody D) (h : ∀ o, Within 5 (k o)) : Brief (send q k) := by
  intro s
  dsimp only
  split
  · exact h
  · trivial

theorem brief_fitting (v : JVal D) (k : SBody D) (h : Brief k) : Brief (fitting v k) := by
  intro s
  dsimp only
  split
  · trivial
  · exact h

theorem brief_sbody (api : SApi D) : Brief (sbody api) := by
  cases api with
  | roots => exact brief_gate _ _ _ (brief_gate (fun s => s.caps.roots.isSome) _ _ (brief_send _ _ fun o => within_smode _ _ 4 fun b => within_sgive _ _ 3))
  | sample p id => exact brief_gate _ _ _ (brief_send _ _ fun o => Nat.succ_le_succ (Nat.zero_le _))
  | sampleTask p ttl => exact brief_gate _ _ _ (brief_gate (fun s => samplesTasks s.caps) _ _ (brief_send _ _ fun o => within_smode _ _ 4 fun b => within_screated _ _ 2))
  | elicit r =>
    exact brief_gate _ _ _ (brief_gate (fun s => s.caps.elicitation.isSome) _ _ (brief_fitting _ _ (brief_send _ _ fun o => within_smode _ _ 4 fun b => within_sgive _ _ 3)))
  | elicitTask r ttl =>
    exact brief_gate _ _ _ (brief_gate (fun s => elicitsTasks s.caps) _ _ (brief_fitting _ _ (brief_send _ _ fun o => within_smode _ _ 4 fun b => within_screated _ _ 2)))
  | ping =>
    refine brief_gate _ _ _ (brief_send _ _ fun o => within_smode _ _ 4 fun b => ?_)
    split <;> exact Nat.succ_le_succ (Nat.zero_le _)
  | callToolTask name args ttl => exact brief_send _ _ fun o => within_smode _ _ 4 fun b => within_screated _ _ 2
  | getTask id => exact brief_send _ _ fun o => within_smode _ _ 4 fun b => within_sgive _ _ 3
  | cancelTask id => exact brief_send _ _ fun o => within_smode _ _ 4 fun b => within_sgive _ _ 3
  | taskResult id =>
    refine brief_send _ _ fun o => ?_
    split
    · exact ⟨by decide, by decide, fun _ => ⟨by decide, fun _ => within_sgive _ _ 1⟩⟩
    · exact within_sgive _ _ _
  | listTasks => exact brief_send _ _ fun o => within_smode _ _ 4 fun b => within_sgive _ _ 3
  | listTasksPaged c l => exact brief_send _ _ fun o => within_smode _ _ 4 fun b => within_sgive _ _ 3

/-- Once the transport has ended the future of its request, a call gives its result after six further steps of its thread, whatever the
other threads do in between and whatever changes (unless something it needs is gone). -/
theorem C113_finishes (s0 : SSelf D) (ops more : List (SOp D)) (hops : ∀ b, Op.call b ∈ ops → ∃ api, b = sbody api) (i c : Nat) (x : SCall D)
    (k : Outcome D → SBody D) (hx : ((Sys.init s0).run ops).calls[i]? = some x) (hst : x.st = .check c k ∨ x.st = .wait c k)
    (o : Outcome D) (ho : ((Sys.init s0).run ops).cells[c]? = some (some o)) (hm : 6 ≤ goes i more) :
    ((Sys.init s0).run (ops ++ more)).ub = true ∨
      ∃ (y : SCall D) (r : SOut D), ((Sys.init s0).run (ops ++ more)).calls[i]? = some y ∧ y.st = .over r := by
  rw [run_append]
  have hb := stHas_run brief_closed s0 ops (fun b hb => by obtain ⟨api, rfl⟩ := hops _ hb; exact brief_sbody api) i x hx
  have hw : Within 5 (k o) := by rcases hst with hst | hst <;> rw [hst] at hb <;> exact hb o
  exact answered_run more _ i 5 c k x o hx hst ho hw hm

/-! ### Nothing is asked that was not announced -/

/-- The body sends nothing before it has seen members that satisfy `P`. -/
def Looks {S Q A R : Type} (P : S → Prop) : Body S Q A R → Prop
  | .ret _ => True
  | .arg k => Looks P k
  | .own _ k => ∀ s, ¬ P s → Looks P (k s)
  | .ask _ _ => False

theorem looks_ends {S Q A R : Type} {P : S → Prop} {b : Body S Q A R} : ∀ {p : List (Ev S Q A)} {r : R}, Looks P b → Ends b p r →
    ∀ p1 c q p2, p = p1 ++ Ev.sent c q :: p2 → ∃ s', Ev.saw s' ∈ p1 ∧ P s' := by
  induction b with
  | ret r' => intro p r _ h p1 c q p2 hp; rw [h.1] at hp; simp at hp
  | arg k ih => intro p r hl h p1 c q p2 hp; exact ih hl h p1 c q p2 hp
  | own u k ih =>
    intro p r hl h p1 c q p2 hp
    obtain ⟨s, rest, rfl, h⟩ := h
    cases p1 with
    | nil => simp at hp
    | cons e p1 =>
      simp only [List.cons_append, List.cons.injEq] at hp
      obtain ⟨rfl, hp⟩ := hp
      by_cases hP : P s
      · exact ⟨s, List.mem_cons_self, hP⟩
      · obtain ⟨s', h1, h2⟩ := ih s (hl s hP) h p1 c q p2 hp
        exact ⟨s', List.mem_cons_of_mem _ h1, h2⟩
  | ask q k ih => intro p r hl; exact hl.elim

/-- Every body can come to an end. -/
theorem ends_some {S Q A R : Type} (s : S) (a : A) (b : Body S Q A R) : ∃ evs r, Ends b evs r := by
  induction b with
  | ret r => exact ⟨[], r, rfl, rfl⟩
  | arg k ih => exact ih
  | own u k ih => obtain ⟨evs, r, h⟩ := ih s; exact ⟨_, r, s, evs, rfl, h⟩
  | ask q k ih => obtain ⟨evs, r, h⟩ := ih a; exact ⟨_, r, 0, a, evs, rfl, h⟩

/-- What a call must have seen of the server before it sends anything. -/
def announced : SApi D → SSelf D → Prop
  | .roots, s => s.caps.roots ≠ none
  | .sampleTask _ _, s => ∃ t, s.caps.tasks = some t ∧ t.createMessage = true
  | .elicit _, s => s.caps.elicitation ≠ none
  | .elicitTask _ _, s => ∃ t, s.caps.tasks = some t ∧ t.elicitationCreate = true
  | _, s => s.transport = true

theorem looks_gate {P : SSelf D → Prop} (c : SSelf D → Bool) (no : SOut D) (k : SBody D) (h : ∀ s, c s = true → ¬ P s → Looks P k) :
    Looks P (.own id fun s => if c s then k else .ret no : SBody D) := by
  intro s hP
  dsimp only
  split
  · rename_i hc; exact h s hc hP
  · trivial

theorem looks_sbody (api : SApi D) : Looks (announced api) (sbody api) := by
  have snd : ∀ (P : SSelf D → Prop) (q : SReq D) (k : Outcome D → SBody D), (∀ s, s.transport = true → P s) → Looks P (send q k) := by
    intro P q k hP s hs
    dsimp only
    split
    · rename_i ht; exact hs (hP s ht)
    · trivial
  cases api with
  | roots =>
    refine looks_gate _ _ _ fun _ _ _ => looks_gate (fun s => s.caps.roots.isSome) _ _ fun s hc hP => absurd ?_ hP
    intro hn; simp [hn] at hc
  | sample p id => exact looks_gate _ _ _ fun s hc hP => absurd hc hP
  | sampleTask p ttl =>
    refine looks_gate _ _ _ fun _ _ _ => looks_gate (fun s => samplesTasks s.caps) _ _ fun s hc hP => absurd ?_ hP
    unfold samplesTasks at hc
    split at hc
    · rename_i t ht; exact ⟨t, ht, hc⟩
    · cases hc
  | elicit r =>
    refine looks_gate _ _ _ fun _ _ _ => looks_gate (fun s => s.caps.elicitation.isSome) _ _ fun s hc hP => absurd ?_ hP
    intro hn; simp [hn] at hc
  | elicitTask r ttl =>
    refine looks_gate _ _ _ fun _ _ _ => looks_gate (fun s => elicitsTasks s.caps) _ _ fun s hc hP => absurd ?_ hP
    unfold elicitsTasks at hc
    split at hc
    · rename_i t ht; exact ⟨t, ht, hc⟩
    · cases hc
  | ping => exact looks_gate _ _ _ fun s hc hP => absurd hc hP
  | _ => exact snd _ _ _ fun _ h => h

/-- Whatever else happens, and whatever changes meanwhile: when a call has sent its request it has before that seen the client announce
roots, elicitation, or tasks for what it asks. What is missing: the other calls look at no capability, see the counterexample. -/
theorem C113_announced_partial (s0 : SSelf D) (ops : List (SOp D)) (i : Nat) (x : SCall D) (hx : ((Sys.init s0).run ops).calls[i]? = some x)
    (api : SApi D) (hp : x.prog = sbody api) (p1 p2 : List (SEv D)) (c : Nat) (q : SReq D) (hs : x.path = p1 ++ Ev.sent c q :: p2) :
    ∃ s', Ev.saw s' ∈ p1 ∧ announced api s' := by
  have htr := ((inv_run s0 ops).tr i x hx).tail
  have hfull : ∃ evs r, Ends (sbody api) (x.path ++ evs) r := by
    rw [hp] at htr
    cases hst : x.st with
    | run b =>
      rw [hst] at htr
      obtain ⟨evs, r, h⟩ := ends_some s0 (Outcome.nul : Outcome D) b
      exact ⟨evs, r, htr evs r h⟩
    | check c' k =>
      rw [hst] at htr
      obtain ⟨evs, r, h⟩ := ends_some s0 (Outcome.nul : Outcome D) (k .nul)
      exact ⟨_, r, htr .nul evs r h⟩
    | wait c' k =>
      rw [hst] at htr
      obtain ⟨evs, r, h⟩ := ends_some s0 (Outcome.nul : Outcome D) (k .nul)
      exact ⟨_, r, htr .nul evs r h⟩
    | over r => rw [hst] at htr; exact ⟨[], r, by rw [List.append_nil]; exact htr⟩
  obtain ⟨evs, r, h⟩ := hfull
  exact looks_ends (looks_sbody api) h p1 c q (p2 ++ evs) (by rw [hs]; simp)

/-- The sampling request goes to every client, also to one that announced nothing; so do the requests about tasks. -/
theorem C113_sampling_counterexample (s0 : SSelf D) (ht : s0.transport = true) (hc : s0.caps = ClientCaps.none_) (p : SampleReq D) (id : Option Bytes)
    (more : List (SOp D)) :
    ∃ x : SCall D, ((Sys.init s0).run ([.call (sbody (.sample p id)), .go 0, .go 0, .go 0, .go 0] ++ more)).calls[0]? = some x ∧
      Ev.sent 0 (enquiry (.sample p id)) ∈ x.path ∧ ((Sys.init s0).run [.call (sbody (.sample p id)), .go 0, .go 0, .go 0, .go 0]).own.caps.sampling = false := by
  have grow : ∀ (ops : List (SOp D)) (s : SSys D) (x : SCall D), s.calls[0]? = some x → Ev.sent 0 (enquiry (.sample p id)) ∈ x.path →
      ∃ y : SCall D, (s.run ops).calls[0]? = some y ∧ Ev.sent 0 (enquiry (.sample p id)) ∈ y.path := by
    intro ops
    induction ops with
    | nil => intro s x h1 h2; exact ⟨x, h1, h2⟩
    | cons op ops ih =>
      intro s x h1 h2
      have : ∃ y : SCall D, (s.step op).calls[0]? = some y ∧ Ev.sent 0 (enquiry (.sample p id)) ∈ y.path := by
        rcases step_call s op 0 x h1 with h | ⟨_, _, h⟩ | ⟨_, _, h⟩
        · exact ⟨x, h, h2⟩
        · exact ⟨_, h, h2⟩
        · have hlt : 0 < s.calls.length := by
            cases hh : s.calls with
            | nil => rw [hh] at h1; cases h1
            | cons a l => simp
          rw [h]
          unfold Sys.go
          split <;> (try split) <;> first
            | exact ⟨x, h1, h2⟩
            | exact ⟨_, List.getElem?_set_self hlt, h2⟩
            | exact ⟨_, List.getElem?_set_self hlt, List.mem_append_left _ h2⟩
      obtain ⟨y, h3, h4⟩ := this
      exact ih _ y h3 h4
  rw [run_append]
  have h : ∃ x : SCall D, ((Sys.init s0).run [.call (sbody (.sample p id)), .go 0, .go 0, .go 0, .go 0]).calls[0]? = some x ∧ Ev.sent 0 (enquiry (.sample p id)) ∈ x.path := by
    unfold Sys.run
    simp [Sys.step, Sys.go, Sys.init, sbody, wired, send, ht, enquiry]
  obtain ⟨x, h1, h2⟩ := h
  obtain ⟨y, h3, h4⟩ := grow more _ x h1 h2
  refine ⟨y, h3, h4, ?_⟩
  unfold Sys.run
  simp [Sys.step, Sys.go, Sys.init, sbody, wired, send, ht, hc, ClientCaps.none_]

end Verif
