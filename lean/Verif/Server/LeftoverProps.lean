import Verif.Server.CancelProps
import Verif.Task.Props

/-!
C127: what the server keeps for the requests and tasks it has dealt with. `cancelMap` and `stopSources` of src/mcp/Server.cpp 218-221 (the client has the same
code, src/mcp/Client.cpp 209-210, 243-308), and the task records of src/mcp/TaskSupport.h.
-/

namespace Verif.Cancel

open Verif.Stdio (idText)

variable {D : Type}

/-! ### Who runs -/

theorem calls_start (s : St) (id : RpcId) : ∃ t, (s.start id).calls = s.calls ++ [⟨idText id, true, t, none⟩] := by
  unfold St.start
  simp only
  split
  · exact ⟨_, rfl⟩
  · split <;> exact ⟨_, rfl⟩

theorem cancel_calls (s : St) (i : Bytes) : (s.cancelById i).calls = s.calls := by
  unfold St.cancelById; simp only; split <;> rfl

/-- The calls the machine has as running are the ones that have started and not ended. -/
theorem live_running : ∀ h : List (Op D), (after h).calls.length = starts h ∧
    ∀ n i, Running h n i ↔ ∃ c, (after h).calls[n]? = some c ∧ c.live = true ∧ c.id = i
  | [] => ⟨rfl, by intro n i; simp [Running, after, St.run, St.init]⟩
  | op :: h => by
    obtain ⟨hl, hr⟩ := live_running h
    rw [after_cons]
    generalize after h = s at *
    cases op with
    | start id =>
      obtain ⟨t, e⟩ := calls_start s id
      simp only [St.step]
      rw [e]
      refine ⟨by simp [hl, starts], fun n i => ?_⟩
      rw [running_start, hr, get_app, hl]
      by_cases hn : n = starts h
      · subst hn
        simp only [true_and, if_true]
        constructor
        · rintro (rfl | ⟨c, hc, -, -⟩)
          · exact ⟨_, rfl, rfl, rfl⟩
          · have := lt_calls hc; omega
        · rintro ⟨c, hc, -, h2⟩; cases hc; exact .inl h2.symm
      · simp [hn]
    | openSource n =>
      refine ⟨?_, fun m i => ?_⟩
      · simp only [St.step, St.open, starts]; split
        · exact hl
        · split
          · simpa using hl
          · exact hl
      · rw [running_other (by simp) (by simp), hr]
        simp only [St.step, St.open]; split
        · rfl
        · rename_i c hc
          split
          · exact (run_set hc (c' := { c with src := some s.srcs.length }) rfl rfl m i).symm
          · rfl
    | closeSource n =>
      refine ⟨?_, fun m i => ?_⟩
      · simp only [St.step, St.close, starts]; split
        · exact hl
        · split
          · exact hl
          · simpa using hl
      · rw [running_other (by simp) (by simp), hr]
        simp only [St.step, St.close]; split
        · rfl
        · rename_i c hc
          split
          · rfl
          · exact (run_set hc (c' := { c with src := none }) rfl rfl m i).symm
    | finish n =>
      have h1 : (s.close n).calls.length = starts h ∧ ∀ m i, Running h m i ↔ ∃ c, (s.close n).calls[m]? = some c ∧ c.live = true ∧ c.id = i := by
        unfold St.close; split
        · exact ⟨hl, hr⟩
        · rename_i c hc
          split
          · exact ⟨hl, hr⟩
          · exact ⟨by simpa using hl, fun m i => (hr m i).trans (run_set hc (c' := { c with src := none }) rfl rfl m i).symm⟩
      have hst : starts (.finish n :: h) = starts h := rfl
      simp only [St.step]
      generalize s.close n = s1 at h1 ⊢
      obtain ⟨h1, h2⟩ := h1
      have key : ∀ s' : St, (s'.calls = s1.calls ∧ ∀ c, s1.calls[n]? = some c → c.live = false) ∨
          (∃ c, s1.calls[n]? = some c ∧ s'.calls = s1.calls.set n { c with live := false }) →
          s'.calls.length = starts (.finish n :: h) ∧
            ∀ m i, Running (.finish n :: h) m i ↔ ∃ c, s'.calls[m]? = some c ∧ c.live = true ∧ c.id = i := by
        rintro s' (⟨e, hd⟩ | ⟨c, hc, e⟩)
        · rw [e]
          refine ⟨h1, fun m i => ?_⟩
          rw [running_finish, h2]
          constructor
          · exact fun h => h.2
          · rintro ⟨c, hc, hv, hi⟩
            refine ⟨?_, c, hc, hv, hi⟩
            rintro rfl
            rw [hd c hc] at hv; cases hv
        · rw [e]
          refine ⟨by rw [hst]; simpa using h1, fun m i => ?_⟩
          rw [running_finish, h2, get_set_call _ _ _ _ _ hc]
          by_cases hm : m = n
          · simp [hm]
          · simp [hm]
      apply key
      unfold St.release
      split
      · rename_i hc
        exact .inl ⟨rfl, fun c h => by rw [hc] at h; cases h⟩
      · rename_i c hc
        split
        · refine .inr ⟨c, hc, ?_⟩
          split <;> rfl
        · rename_i hv
          refine .inl ⟨rfl, fun d hd => ?_⟩
          rw [hc] at hd; cases hd
          simpa using hv
    | cancel p =>
      have e : (s.step (.cancel p)).calls = s.calls := by
        simp only [St.step]; split
        · rfl
        · exact cancel_calls s _
      rw [e]
      exact ⟨hl, fun n i => (running_other (by simp) (by simp)).trans (hr n i)⟩

/-! ### Tokens -/

/-- Specification: id `i` was cancelled when no call with that id was running, and no call with that id has ended since. -/
def Stray : List (Op D) → Bytes → Prop
  | [], _ => False
  | op :: h, i => (∃ p, op = .cancel p ∧ Names p i ∧ ∀ n, ¬ Running h n i) ∨ (Stray h i ∧ ¬ ∃ n, op = .finish n ∧ Running h n i)

theorem close_map (s : St) (n : Nat) : (s.close n).cancelMap = s.cancelMap := by
  unfold St.close; split
  · rfl
  · split <;> rfl

theorem open_map (s : St) (n : Nat) : (s.open n).cancelMap = s.cancelMap := by
  unfold St.open; split
  · rfl
  · split <;> rfl

theorem close_live (s : St) (n m : Nat) (i : Bytes) :
    (∃ c, (s.close n).calls[m]? = some c ∧ c.live = true ∧ c.id = i) ↔ ∃ c, s.calls[m]? = some c ∧ c.live = true ∧ c.id = i := by
  unfold St.close; split
  · rfl
  · rename_i c hc
    split
    · rfl
    · exact run_set hc (c' := { c with src := none }) rfl rfl m i

/-- Every token that is kept is that of a running call or was left by a stray cancellation. -/
theorem kept_token : ∀ (h : List (Op D)) (i : Bytes) (t : Nat), AMap.get (after h).cancelMap i = some t → (∃ n, Running h n i) ∨ Stray h i
  | [], i, t, hg => by cases hg
  | op :: h, i, t, hg => by
    have ih := kept_token h i
    have hr := (live_running h).2
    have hsep := sep_after h
    rw [after_cons] at hg
    generalize after h = s at *
    cases op with
    | start id =>
      have keep : (∃ n, Running h n i) ∨ Stray h i → (∃ n, Running (.start id :: h) n i) ∨ Stray (.start id :: h) i := by
        rintro (⟨n, hn⟩ | hs)
        · exact .inl ⟨n, running_start.2 (.inr hn)⟩
        · exact .inr (.inr ⟨hs, by rintro ⟨n, e, -⟩; cases e⟩)
      simp only [St.step, St.start] at hg
      split at hg
      · exact keep (ih t hg)
      · split at hg
        · exact keep (ih t hg)
        · rw [AMap.get_put] at hg
          split at hg
          · rename_i e
            exact .inl ⟨starts h, running_start.2 (.inl ⟨rfl, e⟩)⟩
          · exact keep (ih t hg)
    | openSource n =>
      simp only [St.step, open_map] at hg
      rcases ih t hg with ⟨m, hm⟩ | hs
      · exact .inl ⟨m, (running_other (by simp) (by simp)).2 hm⟩
      · exact .inr (.inr ⟨hs, by rintro ⟨n, e, -⟩; cases e⟩)
    | closeSource n =>
      simp only [St.step, close_map] at hg
      rcases ih t hg with ⟨m, hm⟩ | hs
      · exact .inl ⟨m, (running_other (by simp) (by simp)).2 hm⟩
      · exact .inr (.inr ⟨hs, by rintro ⟨n, e, -⟩; cases e⟩)
    | finish n =>
      simp only [St.step] at hg
      have hc1 := close_live s n n
      have hmap := close_map s n
      generalize s.close n = s1 at *
      have same : AMap.get s.cancelMap i = some t → (¬ Running h n i) → (∃ m, Running (.finish n :: h) m i) ∨ Stray (.finish n :: h) i := by
        intro hg hn
        rcases ih t hg with ⟨m, hm⟩ | hs
        · exact .inl ⟨m, running_finish.2 ⟨fun e => hn (e ▸ hm), hm⟩⟩
        · refine .inr (.inr ⟨hs, ?_⟩)
          rintro ⟨m, e, hm⟩; cases e; exact hn hm
      unfold St.release at hg
      split at hg
      · rename_i hc
        rw [hmap] at hg
        refine same hg (fun hn => ?_)
        obtain ⟨c, h1, -, -⟩ := (hc1 i).2 ((hr n i).1 hn)
        rw [hc] at h1; cases h1
      · rename_i c hc
        split at hg
        · split at hg
          · rename_i hid
            rw [hmap] at hg
            refine same hg (fun hn => ?_)
            obtain ⟨d, h1, -, h3⟩ := (hc1 i).2 ((hr n i).1 hn)
            rw [hc] at h1; cases h1
            rw [hid] at h3; subst h3
            rw [hsep.mapNil] at hg; cases hg
          · simp only [hmap] at hg
            rw [AMap.get_del] at hg
            split at hg
            · cases hg
            · rename_i hne
              refine same hg (fun hn => ?_)
              obtain ⟨d, h1, -, h3⟩ := (hc1 i).2 ((hr n i).1 hn)
              rw [hc] at h1; cases h1
              exact hne h3.symm
        · rename_i hv
          rw [hmap] at hg
          refine same hg (fun hn => ?_)
          obtain ⟨d, h1, h2, -⟩ := (hc1 i).2 ((hr n i).1 hn)
          rw [hc] at h1; cases h1
          exact hv h2
    | cancel p =>
      have keep : (∃ n, Running h n i) ∨ Stray h i → (∃ n, Running (.cancel p :: h) n i) ∨ Stray (.cancel p :: h) i := by
        rintro (⟨n, hn⟩ | hs)
        · exact .inl ⟨n, (running_other (by simp) (by simp)).2 hn⟩
        · exact .inr (.inr ⟨hs, by rintro ⟨n, e, -⟩; cases e⟩)
      simp only [St.step] at hg
      split at hg
      · exact keep (ih t hg)
      · rename_i hid
        unfold St.cancelById at hg
        simp only at hg
        cases hm : AMap.get s.cancelMap (idFromParams p) with
        | some u =>
          simp only [hm] at hg
          exact keep (ih t hg)
        | none =>
          simp only [hm] at hg
          rw [AMap.get_put] at hg
          split at hg
          · rename_i e
            rcases Classical.em (∃ n, Running h n i) with hx | hx
            · exact keep (.inl hx)
            · exact .inr (.inl ⟨p, rfl, (names_iff p i).2 ⟨e.symm, e ▸ hid⟩, fun n hn => hx ⟨n, hn⟩⟩)
          · exact keep (ih t hg)

/-! ### Stop sources -/

/-- Every stop source that is kept is that of a handler that is running. -/
def SrcKept (s : St) : Prop := ∀ i l, AMap.get s.stopSources i = some l →
  l ≠ [] ∧ ∀ k ∈ l, ∃ (n : Nat) (c : Call), s.calls[n]? = some c ∧ c.id = i ∧ c.src = some k ∧ c.live = true

/-- ... and only running calls have one. -/
def SrcLive (s : St) : Prop := ∀ (n : Nat) (c : Call) k, s.calls[n]? = some c → c.src = some k → c.live = true

theorem srcKept_of {s s' : St} (h : SrcKept s) (e : s'.stopSources = s.stopSources)
    (hc : ∀ (n : Nat) (c : Call) k, s.calls[n]? = some c → c.src = some k → s'.calls[n]? = some c) : SrcKept s' := by
  intro i l hg
  rw [e] at hg
  obtain ⟨h1, h2⟩ := h i l hg
  refine ⟨h1, fun k hk => ?_⟩
  obtain ⟨n, c, a, b, d, v⟩ := h2 k hk
  exact ⟨n, c, hc n c k a d, b, d, v⟩

theorem src_start {s : St} (h : SrcKept s ∧ SrcLive s) (id : RpcId) : SrcKept (s.start id) ∧ SrcLive (s.start id) := by
  obtain ⟨t, e⟩ := calls_start s id
  have es : (s.start id).stopSources = s.stopSources := by
    unfold St.start; simp only; split
    · rfl
    · split <;> rfl
  constructor
  · refine srcKept_of h.1 es (fun n c k hc _ => ?_)
    rw [e, List.getElem?_append_left (lt_calls hc)]; exact hc
  · intro n c k hc hs
    rw [e] at hc
    rcases app_call hc with ⟨-, rfl⟩ | hc
    · rfl
    · exact h.2 n c k hc hs

theorem src_open {s : St} (h : SrcKept s ∧ SrcLive s) (n : Nat) : SrcKept (s.open n) ∧ SrcLive (s.open n) := by
  unfold St.open
  split
  · exact h
  · rename_i c hc
    split
    · rename_i hv
      constructor
      · intro i l hg
        simp only [AMap.get_put] at hg
        have old : ∀ k, (∃ (m : Nat) (d : Call), s.calls[m]? = some d ∧ d.id = i ∧ d.src = some k ∧ d.live = true) →
            ∃ (m : Nat) (d : Call), (s.calls.set n { c with src := some s.srcs.length })[m]? = some d ∧ d.id = i ∧ d.src = some k ∧ d.live = true := by
          rintro k ⟨m, d, a, b, e, v⟩
          refine ⟨m, d, ?_, b, e, v⟩
          rw [get_set_call _ _ _ _ _ hc]
          rw [if_neg]
          · exact a
          · rintro rfl
            rw [hc] at a; cases a
            rw [hv.2] at e; cases e
        split at hg
        · rename_i ei
          injection hg with hg
          subst hg
          refine ⟨by simp, fun k hk => ?_⟩
          rcases List.mem_append.1 hk with hk | hk
          · have : AMap.get s.stopSources c.id = some (s.sources c.id) := by
              unfold St.sources at hk ⊢
              cases hx : AMap.get s.stopSources c.id with
              | none => rw [hx] at hk; cases hk
              | some _ => rfl
            exact old k (by rw [ei]; exact (h.1 _ _ this).2 k hk)
          · simp only [List.mem_singleton] at hk
            subst hk
            refine ⟨n, { c with src := some s.srcs.length }, ?_, ei.symm, rfl, hv.1⟩
            rw [get_set_call _ _ _ _ _ hc, if_pos rfl]
        · obtain ⟨h1, h2⟩ := h.1 i l hg
          exact ⟨h1, fun k hk => old k (h2 k hk)⟩
      · intro m d k hd hk
        rcases set_call hd with ⟨-, rfl⟩ | ⟨-, hd⟩
        · exact hv.1
        · exact h.2 m d k hd hk
    · exact h

theorem src_close {s : St} (h : SrcKept s ∧ SrcLive s) (n : Nat) : SrcKept (s.close n) ∧ SrcLive (s.close n) := by
  unfold St.close
  split
  · exact h
  · rename_i c hc
    split
    · exact h
    · rename_i k0 hk0
      constructor
      · intro i l hg
        have other : ∀ k, k ≠ k0 ∨ i ≠ c.id → (∃ (m : Nat) (d : Call), s.calls[m]? = some d ∧ d.id = i ∧ d.src = some k ∧ d.live = true) →
            ∃ (m : Nat) (d : Call), (s.calls.set n { c with src := none })[m]? = some d ∧ d.id = i ∧ d.src = some k ∧ d.live = true := by
          rintro k hk ⟨m, d, a, b, e, v⟩
          refine ⟨m, d, ?_, b, e, v⟩
          rw [get_set_call _ _ _ _ _ hc, if_neg]
          · exact a
          · rintro rfl
            rw [hc] at a; cases a
            rcases hk with hk | hk
            · rw [hk0] at e; cases e; exact hk rfl
            · exact hk b.symm
        have keep : i ≠ c.id → AMap.get s.stopSources i = some l → l ≠ [] ∧ ∀ k ∈ l, ∃ (m : Nat) (d : Call),
            (s.calls.set n { c with src := none })[m]? = some d ∧ d.id = i ∧ d.src = some k ∧ d.live = true := by
          intro hi hg
          obtain ⟨h1, h2⟩ := h.1 i l hg
          exact ⟨h1, fun k hk => other k (.inr hi) (h2 k hk)⟩
        simp only [St.unregister] at hg
        cases hx : AMap.get s.stopSources c.id with
        | none =>
          simp only [hx] at hg
          refine keep ?_ hg
          rintro rfl
          rw [hx] at hg; cases hg
        | some l0 =>
          simp only [hx] at hg
          split at hg
          · rw [AMap.get_del] at hg
            split at hg
            · cases hg
            · rename_i hi; exact keep hi hg
          · rename_i hne
            rw [AMap.get_put] at hg
            split at hg
            · rename_i hi
              injection hg with hg
              subst hg
              refine ⟨fun e => hne (by rw [e]; rfl), fun k hk => ?_⟩
              obtain ⟨hk1, hk2⟩ := List.mem_filter.1 hk
              exact other k (.inl (by simpa using hk2)) (by rw [hi]; exact (h.1 _ _ hx).2 k hk1)
            · rename_i hi; exact keep hi hg
      · intro m d k hd hk
        rcases set_call hd with ⟨-, rfl⟩ | ⟨-, hd⟩
        · cases hk
        · exact h.2 m d k hd hk

theorem src_release {s : St} (h : SrcKept s ∧ SrcLive s) (n : Nat) (hn : ∀ c, s.calls[n]? = some c → c.src = none) :
    SrcKept (s.release n) ∧ SrcLive (s.release n) := by
  unfold St.release
  split
  · exact h
  · rename_i c hc
    have hset : ∀ (m : Nat) (d : Call) k, s.calls[m]? = some d → d.src = some k → (s.calls.set n { c with live := false })[m]? = some d := by
      intro m d k hd hk
      rw [get_set_call _ _ _ _ _ hc, if_neg]
      · exact hd
      · rintro rfl
        rw [hn d hd] at hk; cases hk
    have hlive : ∀ (m : Nat) (d : Call) k, (s.calls.set n { c with live := false })[m]? = some d → d.src = some k → d.live = true := by
      intro m d k hd hk
      rcases set_call hd with ⟨-, rfl⟩ | ⟨-, hd⟩
      · simp only at hk; rw [hn c hc] at hk; cases hk
      · exact h.2 m d k hd hk
    split
    · split
      · exact ⟨srcKept_of h.1 rfl hset, hlive⟩
      · refine ⟨?_, hlive⟩
        intro i l hg
        simp only [AMap.get_del] at hg
        split at hg
        · cases hg
        · obtain ⟨h1, h2⟩ := h.1 i l hg
          refine ⟨h1, fun k hk => ?_⟩
          obtain ⟨m, d, a, b, e, v⟩ := h2 k hk
          exact ⟨m, d, hset m d k a e, b, e, v⟩
    · exact h

theorem src_after (h : List (Op D)) : SrcKept (after h) ∧ SrcLive (after h) := by
  induction h with
  | nil =>
    constructor
    · intro i l hg; cases hg
    · intro n c k hc; simp [after, St.run, St.init] at hc
  | cons op h ih =>
    rw [after_cons]
    generalize after h = s at *
    cases op with
    | start id => exact src_start ih id
    | openSource n => exact src_open ih n
    | closeSource n => exact src_close ih n
    | finish n => exact src_release (src_close ih n) n (fun c hc => close_src hc)
    | cancel p =>
      simp only [St.step]; split
      · exact ih
      · have e : (s.cancelById (idFromParams p)).stopSources = s.stopSources := by unfold St.cancelById; simp only; split <;> rfl
        constructor
        · exact srcKept_of ih.1 e (fun n c k hc _ => by rw [cancel_calls]; exact hc)
        · intro n c k hc hk; rw [cancel_calls] at hc; exact ih.2 n c k hc hk

/-- Specification: a handler of call `n` has been given a stop source and has not returned. -/
def Handling : List (Op D) → Nat → Prop
  | [], _ => False
  | op :: h, n => (op = .openSource n ∧ ∃ i, Running h n i) ∨ (Handling h n ∧ op ≠ .closeSource n ∧ op ≠ .finish n)

theorem handling_of_src : ∀ (h : List (Op D)) (n : Nat) (c : Call) (k : Nat), (after h).calls[n]? = some c → c.src = some k → Handling h n
  | [], n, c, k, hc, _ => by simp [after, St.run, St.init] at hc
  | op :: h, n, c, k, hc, hk => by
    have ih := handling_of_src h n
    have hr := (live_running h).2
    rw [after_cons] at hc
    generalize after h = s at *
    have keep : op ≠ .closeSource n → op ≠ .finish n → ∀ d, s.calls[n]? = some d → d.src = some k → Handling (op :: h) n :=
      fun h1 h2 d hd hk => .inr ⟨ih d k hd hk, h1, h2⟩
    cases op with
    | start id =>
      obtain ⟨t, e⟩ := calls_start s id
      simp only [St.step] at hc
      rw [e] at hc
      rcases app_call hc with ⟨-, rfl⟩ | hc
      · cases hk
      · exact keep (by simp) (by simp) c hc hk
    | openSource m =>
      simp only [St.step, St.open] at hc
      split at hc
      · exact keep (by simp) (by simp) c hc hk
      · rename_i d hd
        split at hc
        · rename_i hv
          rcases set_call hc with ⟨rfl, -⟩ | ⟨-, hc⟩
          · exact .inl ⟨rfl, d.id, (hr _ _).2 ⟨d, hd, hv.1, rfl⟩⟩
          · exact keep (by simp) (by simp) c hc hk
        · exact keep (by simp) (by simp) c hc hk
    | closeSource m =>
      simp only [St.step] at hc
      by_cases e : m = n
      · subst e
        rw [close_src hc] at hk; cases hk
      · refine keep (by simp [e]) (by simp) c ?_ hk
        unfold St.close at hc
        split at hc
        · exact hc
        · split at hc
          · exact hc
          · rcases set_call hc with ⟨rfl, -⟩ | ⟨-, hc⟩
            · exact absurd rfl e
            · exact hc
    | finish m =>
      simp only [St.step] at hc
      have h1 : ∀ c, (s.close m).calls[n]? = some c → c.src = some k → m ≠ n ∧ s.calls[n]? = some c := by
        intro c hc hk
        by_cases e : m = n
        · subst e
          rw [close_src hc] at hk; cases hk
        · refine ⟨e, ?_⟩
          unfold St.close at hc
          split at hc
          · exact hc
          · split at hc
            · exact hc
            · rcases set_call hc with ⟨rfl, -⟩ | ⟨-, hc⟩
              · exact absurd rfl e
              · exact hc
      have h2 : ∃ d, (s.close m).calls[n]? = some d ∧ d.src = some k := by
        unfold St.release at hc
        split at hc
        · exact ⟨c, hc, hk⟩
        · rename_i d hd
          have : ∀ x, (({ s.close m with calls := (s.close m).calls.set m { d with live := false } } : St)).calls[n]? = some x → x.src = some k → ∃ d, (s.close m).calls[n]? = some d ∧ d.src = some k := by
            intro x hx hxk
            rcases set_call hx with ⟨rfl, rfl⟩ | ⟨-, hx⟩
            · exact ⟨d, hd, hxk⟩
            · exact ⟨x, hx, hxk⟩
          split at hc
          · split at hc
            · exact this c hc hk
            · exact this c hc hk
          · exact ⟨c, hc, hk⟩
      obtain ⟨d, hd, hdk⟩ := h2
      obtain ⟨e, hd⟩ := h1 d hd hdk
      exact keep (by simp) (by simpa using e) d hd hdk
    | cancel p =>
      have e : (s.step (.cancel p)).calls = s.calls := by
        simp only [St.step]; split
        · rfl
        · exact cancel_calls s _
      rw [e] at hc
      exact keep (by simp) (by simp) c hc hk

/-! ### Theorems -/

/-- In every execution, also one in which ids are used by several requests at once: each entry the server keeps for cancellation is under the id of a request that is running, or under
one whose cancellation came when no such request was running, and of which none has ended since. Missing to the claim: entries of the second kind stay. -/
theorem C127_tokens_partial (h : List (Op D)) (i : Bytes) (hi : i ∈ AMap.keys (after h).cancelMap) : (∃ n, Running h n i) ∨ Stray h i := by
  cases hg : AMap.get (after h).cancelMap i with
  | none => exact absurd hi (AMap.get_none_iff.1 hg)
  | some t => exact kept_token h i t hg

/-- Request 7 is running, and a cancellation of request 8 has come too early or too late. -/
example : let h : List (Op Empty) := [.cancel (some (.obj [(lit "id", .int 8)])), .start (.int 7)]
    AMap.keys (after h).cancelMap = [lit "7", lit "8"] := by decide +kernel

/-- In every execution: the stop sources the server keeps under an id are those of handlers that are running, one for each source, for requests with that id that are running. -/
theorem C127_sources (h : List (Op D)) (i : Bytes) (l : List Nat) (hg : AMap.get (after h).stopSources i = some l) :
    l ≠ [] ∧ ∀ k ∈ l, ∃ (n : Nat) (c : Call), (after h).calls[n]? = some c ∧ c.src = some k ∧ Running h n i ∧ Handling h n := by
  obtain ⟨h1, h2⟩ := (src_after h).1 i l hg
  refine ⟨h1, fun k hk => ?_⟩
  obtain ⟨n, c, a, b, e, v⟩ := h2 k hk
  exact ⟨n, c, a, e, ((live_running h).2 n i).2 ⟨c, a, v, b⟩, handling_of_src h n c k a e⟩

example : AMap.keys (after ([.openSource 0, .start (.int 7)] : List (Op Empty))).stopSources = [lit "7"] := by decide +kernel

theorem keys_nil {V : Type} {m : List (Bytes × V)} (h : ∀ k, k ∉ AMap.keys m) : m = [] := by
  cases m with
  | nil => rfl
  | cons p m => exact absurd (by simp [AMap.keys]) (h p.1)

/-- When all requests are over and every cancellation came while the request it names was running, the server keeps nothing of them. -/
theorem C127_settled_partial (h : List (Op D)) (hr : ∀ n i, ¬ Running h n i) (hs : ∀ i, ¬ Stray h i) :
    (after h).cancelMap = [] ∧ (after h).stopSources = [] := by
  constructor
  · refine keys_nil (fun i hi => ?_)
    rcases C127_tokens_partial h i hi with ⟨n, hn⟩ | h1
    · exact hr n i hn
    · exact hs i h1
  · refine keys_nil (fun i hi => ?_)
    cases hg : AMap.get (after h).stopSources i with
    | none => exact AMap.get_none_iff.1 hg hi
    | some l =>
      obtain ⟨h1, h2⟩ := C127_sources h i l hg
      cases l with
      | nil => exact h1 rfl
      | cons k l =>
        obtain ⟨n, -, -, -, hn, -⟩ := h2 k List.mem_cons_self
        exact hr n i hn

/-- Two requests that share an id, cancelled while they run. -/
example : let h : List (Op Empty) := [.finish 1, .finish 0, .cancel (some (.obj [(lit "id", .int 7)])), .openSource 1, .start (.int 7), .openSource 0, .start (.int 7)]
    (∀ n i, ¬ Running h n i) ∧ (∀ i, ¬ Stray h i) ∧ Named h (lit "7") := by
  refine ⟨?_, ?_, _, List.mem_cons_of_mem _ (List.mem_cons_of_mem _ List.mem_cons_self), (names_iff _ _).2 (by decide)⟩
  · intro n i h
    rw [(live_running _).2] at h
    obtain ⟨c, hc, hl, -⟩ := h
    have e : (after ([.finish 1, .finish 0, .cancel (some (.obj [(lit "id", .int 7)])), .openSource 1, .start (.int 7), .openSource 0, .start (.int 7)] : List (Op Empty))).calls =
        [⟨lit "7", false, 0, none⟩, ⟨lit "7", false, 0, none⟩] := by decide +kernel
    rw [e] at hc
    have := List.mem_of_getElem? hc
    simp at this
    rw [this] at hl; cases hl
  · intro i h
    simp only [Stray, Op.cancel.injEq, reduceCtorEq, false_and, exists_false, false_or, not_false_eq_true, and_true, or_false, exists_eq_left'] at h
    obtain ⟨⟨hn, hr⟩, -⟩ := h.1
    rw [names_iff] at hn
    refine hr 1 ?_
    rw [← hn.1, (live_running _).2]
    exact ⟨⟨lit "7", true, 0, some 1⟩, by decide +kernel, rfl, by decide +kernel⟩

/-- `n` requests, each of which is cancelled just after it has ended. -/
def lateCancels : Nat → List (Op D)
  | 0 => []
  | n + 1 => lateCancels n ++ [.start (.int n), .finish n, .cancel (some (.obj [(lit "id", .int n)]))]

theorem intDec_nat (n : Nat) : intDec (n : Int) = natDec n := rfl

theorem late_round (s : St) (n : Nat) (h1 : natDec n ∉ AMap.keys s.cancelMap) (h2 : s.calls.length = n) (h3 : ∀ c ∈ s.calls, c.live = false) :
    let t := s.run ([.start (.int n), .finish n, .cancel (some (.obj [(lit "id", .int n)]))] : List (Op D))
    AMap.keys t.cancelMap = AMap.keys s.cancelMap ++ [natDec n] ∧ t.calls.length = n + 1 ∧ ∀ c ∈ t.calls, c.live = false := by
  have hne : natDec n ≠ [] := by have := intDec_ne (n : Int); rwa [intDec_nat] at this
  have hg : AMap.get s.cancelMap (natDec n) = none := AMap.get_none_iff.2 h1
  have hid : idText (.int (n : Int)) = natDec n := rfl
  have hput : AMap.del (AMap.put s.cancelMap (natDec n) s.toks.length) (natDec n) = s.cancelMap := by
    unfold AMap.put
    rw [AMap.del_of_not_mem h1]
    have e : AMap.del s.cancelMap (natDec n) = s.cancelMap := AMap.del_of_not_mem h1
    unfold AMap.del at e ⊢
    rw [List.filter_append, e]; simp
  have hc : (s.calls ++ [(⟨natDec n, true, s.toks.length, none⟩ : Call)])[n]? = some ⟨natDec n, true, s.toks.length, none⟩ := by
    rw [← h2]; simp
  have e1 : ∃ t, s.start (.int n) = t ∧ t.cancelMap = AMap.put s.cancelMap (natDec n) s.toks.length ∧
      t.calls = s.calls ++ [⟨natDec n, true, s.toks.length, none⟩] := by
    refine ⟨_, rfl, ?_, ?_⟩ <;> simp only [St.start, hid, if_neg hne, hg]
  obtain ⟨s1, e1, m1, c1⟩ := e1
  have e2 : s1.close n = s1 := by simp only [St.close, c1, hc]
  have e3 : ∃ t, s1.release n = t ∧ t.cancelMap = s.cancelMap ∧
      t.calls = (s.calls ++ [(⟨natDec n, true, s.toks.length, none⟩ : Call)]).set n ⟨natDec n, false, s.toks.length, none⟩ := by
    refine ⟨_, rfl, ?_, ?_⟩
    · simp only [St.release, c1, hc, if_true, if_neg hne, m1, hput]
    · simp only [St.release, c1, hc, if_true, if_neg hne]
  obtain ⟨s2, e3, m2, c2⟩ := e3
  intro t
  have hp : idFromParams (some (.obj [(lit "id", .int n)]) : Option (JVal D)) = natDec n := rfl
  have et : t = s2.cancelById (natDec n) := by
    show St.step ((((s.start (.int n))).close n).release n) (Op.cancel (some (.obj [(lit "id", .int n)]) : Option (JVal D))) = _
    rw [e1, e2, e3]
    simp only [St.step, hp, if_neg hne]
  rw [et]
  refine ⟨?_, ?_, ?_⟩
  · unfold St.cancelById
    simp only [m2, hg]
    rw [AMap.keys_put, AMap.del_of_not_mem h1]
  · rw [cancel_calls, c2]; simp [h2]
  · rw [cancel_calls, c2]
    intro c hx
    rw [List.set_append_right _ _ (by omega)] at hx
    rcases List.mem_append.1 hx with hx | hx
    · exact h3 c hx
    · rw [h2] at hx
      simp at hx
      rw [hx]

theorem late_run (n : Nat) : let t := St.init.run (lateCancels n : List (Op D))
    AMap.keys t.cancelMap = (List.range n).map natDec ∧ t.calls.length = n ∧ ∀ c ∈ t.calls, c.live = false := by
  induction n with
  | zero => exact ⟨rfl, rfl, by intro c hc; cases hc⟩
  | succ n ih =>
    obtain ⟨h1, h2, h3⟩ := ih
    have e : St.init.run (lateCancels (n + 1) : List (Op D)) =
        (St.init.run (lateCancels n : List (Op D))).run ([.start (.int n), .finish n, .cancel (some (.obj [(lit "id", .int n)]))] : List (Op D)) := by
      unfold St.run; rw [lateCancels, List.foldl_append]
    intro t
    have hx : natDec n ∉ AMap.keys (St.init.run (lateCancels n : List (Op D))).cancelMap := by
      rw [h1]
      intro hm
      obtain ⟨k, hk, he⟩ := List.mem_map.1 hm
      have := Tasks.natDec_inj he
      have := List.mem_range.1 hk
      omega
    obtain ⟨a, b, c⟩ := late_round (D := D) _ n hx h2 h3
    refine ⟨?_, ?_, ?_⟩
    · show AMap.keys (St.init.run (lateCancels (n + 1) : List (Op D))).cancelMap = _
      rw [e, a, h1, List.range_succ, List.map_append]; rfl
    · show (St.init.run (lateCancels (n + 1) : List (Op D))).calls.length = _
      rw [e, b]
    · show ∀ c ∈ (St.init.run (lateCancels (n + 1) : List (Op D))).calls, _
      rw [e]; exact c

/-- Cancellations that come after their request has ended are kept for ever: after `n` such requests, none of which is running, there are `n` entries. -/
theorem C127_late_cancellations_counterexample (n : Nat) :
    (St.init.run (lateCancels n : List (Op D))).cancelMap.length = n ∧ ∀ m i, ¬ Running (lateCancels n : List (Op D)).reverse m i := by
  obtain ⟨h1, -, h3⟩ := late_run (D := D) n
  constructor
  · have := congrArg List.length h1
    simpa [AMap.keys] using this
  · intro m i hr
    rw [(live_running _).2] at hr
    obtain ⟨c, hc, hl, -⟩ := hr
    unfold after at hc
    rw [List.reverse_reverse] at hc
    rw [h3 c (List.mem_of_getElem? hc)] at hl; cases hl

example : (lateCancels 3 : List (Op Empty)).length = 9 := by decide

end Verif.Cancel

namespace Verif.Tasks

variable {D : Type}

/-- A server or client keeps every task it has ever made, ended or not, and whatever time to live it was given: there are as many records as tasks were created, and every one of
them can still be asked for. -/
theorem C127_tasks_counterexample (ops : List (SOp D)) (h : creates ops + 1 < 2 ^ 64) :
    (Store.init.run ops).order.length = creates ops ∧ ∀ id ∈ (Store.init.run ops).order, (Store.init.run ops).getTask id ≠ none := by
  have hi := inv_of_run ops h
  refine ⟨by rw [hi.order]; simp, fun id hid => ?_⟩
  have := (hi.keys id).2 hid
  unfold Store.getTask
  cases hg : AMap.get (Store.init.run ops).records id with
  | none => rw [hg] at this; cases this
  | some r => simp

/-- A task that was to live for one millisecond and has been cancelled, seen at a later time. -/
example : let ops : List (SOp Empty) := [.create .toolCall (some 1) (lit "2025-01-01T00:00:00Z"), .cancel (lit "task-1") .null (lit "2026-01-01T00:00:00Z")]
    creates ops = 1 ∧ ((Store.init.run ops).getTask (lit "task-1")).map (fun t => (t.status, t.ttl)) = some (lit "cancelled", some 1) := by decide +kernel

end Verif.Tasks
