import Verif.Server.CancelModel
import Verif.Stdio.PendingLemmas

/-! Specification vocabulary for C26 and the invariants of the cancellation tables. Histories are written newest first. -/

namespace Verif.Cancel

open Verif.Stdio (idText)

variable {D : Type}

/-- Specification: the parameters of a cancellation name the request id with this text. -/
inductive Names : Option (JVal D) → Bytes → Prop
  | str {m s} : AMap.get m (lit "id") = some (.str s) → s ≠ [] → Names (some (.obj m)) s
  | int {m i} : AMap.get m (lit "id") = some (.int i) → Names (some (.obj m)) (intDec i)

/-- Specification: number of calls started. -/
def starts : List (Op D) → Nat
  | [] => 0
  | .start _ :: h => starts h + 1
  | _ :: h => starts h

/-- Specification: call `n`, with id text `i`, has started and not ended. -/
def Running : List (Op D) → Nat → Bytes → Prop
  | [], _, _ => False
  | op :: h, n, i => (∃ id, op = .start id ∧ n = starts h ∧ i = idText id) ∨ (op ≠ .finish n ∧ Running h n i)

/-- Specification: id `i` has been cancelled, and no call with that id has ended since. -/
def Poisoned : List (Op D) → Bytes → Prop
  | [], _ => False
  | op :: h, i => (∃ p, op = .cancel p ∧ Names p i) ∨ (Poisoned h i ∧ ¬ ∃ n, op = .finish n ∧ Running h n i)

/-- Specification: the id of call `n` was cancelled while it ran, or before, with no call of that id ending in between. -/
def Hit : List (Op D) → Nat → Prop
  | [], _ => False
  | op :: h, n =>
    (∃ id, op = .start id ∧ n = starts h ∧ Poisoned h (idText id)) ∨
    (∃ p i, op = .cancel p ∧ Names p i ∧ Running h n i) ∨ Hit h n

/-- Specification: no two calls run at the same time under the same (non-empty) id, as JSON-RPC demands. -/
def Distinct : List (Op D) → Prop
  | [] => True
  | op :: h => Distinct h ∧ ∀ id, op = .start id → idText id ≠ [] → ∀ n, ¬ Running h n (idText id)

/-- Specification: some cancellation in the history names id `i`. -/
def Named (h : List (Op D)) (i : Bytes) : Prop := ∃ p, Op.cancel p ∈ h ∧ Names p i

/-- The state after a history. -/
def after (h : List (Op D)) : St := St.init.run h.reverse

theorem after_cons (op : Op D) (h : List (Op D)) : after (op :: h) = (after h).step op := by
  simp [after, St.run, List.foldl_append]

theorem intDec_ne (i : Int) : intDec i ≠ [] := Verif.Stdio.chooseKey_ne_nil (.int i) 0

theorem names_iff (p : Option (JVal D)) (i : Bytes) : Names p i ↔ idFromParams p = i ∧ i ≠ [] := by
  constructor
  · rintro (⟨hg, hs⟩ | hg)
    · simp [idFromParams, JVal.get?, hg, hs]
    · simp [idFromParams, JVal.get?, hg, intDec_ne]
  · rintro ⟨h, hi⟩
    unfold idFromParams at h
    split at h
    · rename_i v
      cases v with
      | obj m =>
        simp only [JVal.get?] at h
        split at h
        · rename_i s hs; subst h; exact .str hs hi
        · rename_i k hk; subst h; exact .int hk
        · exact absurd h.symm hi
      | _ => exact absurd h.symm hi
    · exact absurd h.symm hi

/-! ### Flags -/

theorem set_true (l : List Bool) (t u : Nat) : (l.set t true)[u]? = some true ↔ (u = t ∧ t < l.length) ∨ l[u]? = some true := by
  rw [List.getElem?_set]
  by_cases h : t = u
  · subst h
    by_cases h2 : t < l.length
    · simp [h2]
    · simp [h2]
  · rw [if_neg h]
    exact ⟨.inr, fun h' => h'.elim (fun e => absurd e.1.symm h) id⟩

theorem foldl_set_length (ks : List Nat) : ∀ (l : List Bool), (ks.foldl (fun l k => l.set k true) l).length = l.length := by
  induction ks with
  | nil => intro l; rfl
  | cons k ks ih => intro l; simp [ih]

theorem foldl_set (ks : List Nat) : ∀ (l : List Bool) (u : Nat),
    (ks.foldl (fun l k => l.set k true) l)[u]? = some true ↔ (u ∈ ks ∧ u < l.length) ∨ l[u]? = some true := by
  induction ks with
  | nil => intro l u; simp
  | cons k ks ih =>
    intro l u
    rw [List.foldl_cons, ih, set_true, List.length_set, List.mem_cons]
    constructor
    · rintro (h | ⟨rfl, h⟩ | h)
      · exact .inl ⟨.inr h.1, h.2⟩
      · exact .inl ⟨.inl rfl, h⟩
      · exact .inr h
    · rintro (⟨rfl | h, h2⟩ | h)
      · exact .inr (.inl ⟨rfl, h2⟩)
      · exact .inl ⟨h, h2⟩
      · exact .inr (.inr h)

theorem app_true (l : List Bool) (b : Bool) (u : Nat) : (l ++ [b])[u]? = some true ↔ (u = l.length ∧ b = true) ∨ l[u]? = some true := by
  rw [List.getElem?_append]
  by_cases h : u < l.length
  · rw [if_pos h]
    constructor
    · intro h'; exact .inr h'
    · rintro (⟨h1, -⟩ | h')
      · omega
      · exact h'
  · rw [if_neg h]
    have h0 : l[u]? = none := by simp; omega
    rw [h0]
    by_cases h1 : u = l.length
    · subst h1; simp
    · have : u - l.length ≠ 0 := by omega
      simp [h1, this]

theorem lt_of_some {l : List Bool} {u : Nat} {b : Bool} (h : l[u]? = some b) : u < l.length := by
  rw [List.getElem?_eq_some_iff] at h; exact h.1

/-! ### Calls -/

theorem app_call {l : List Call} {c c' : Call} {n : Nat} (h : (l ++ [c])[n]? = some c') :
    (n = l.length ∧ c' = c) ∨ l[n]? = some c' := by
  rw [List.getElem?_append] at h
  split at h
  · exact .inr h
  · rw [List.getElem?_singleton] at h
    split at h
    · cases h; exact .inl ⟨by omega, rfl⟩
    · cases h

theorem set_call {l : List Call} {c c' : Call} {m n : Nat} (h : (l.set m c)[n]? = some c') :
    (n = m ∧ c' = c) ∨ (n ≠ m ∧ l[n]? = some c') := by
  rw [List.getElem?_set] at h
  split at h
  · split at h
    · cases h; exact .inl ⟨by omega, rfl⟩
    · cases h
  · exact .inr ⟨by omega, h⟩

/-! ### Separation: holds in every execution -/

structure Sep (N : Bytes → Prop) (s : St) : Prop where
  mapNil : AMap.get s.cancelMap [] = none
  mapLt : ∀ {i t}, AMap.get s.cancelMap i = some t → t < s.toks.length
  mapInj : ∀ {i j t}, AMap.get s.cancelMap i = some t → AMap.get s.cancelMap j = some t → i = j
  tokLt : ∀ {n : Nat} {c : Call}, s.calls[n]? = some c → c.tok < s.toks.length
  tokId : ∀ {n : Nat} {c : Call} {i}, s.calls[n]? = some c → AMap.get s.cancelMap i = some c.tok → c.id = i
  mapN : ∀ {i t}, AMap.get s.cancelMap i = some t → s.toks[t]? = some true → N i
  tokN : ∀ {n : Nat} {c : Call}, s.calls[n]? = some c → s.toks[c.tok]? = some true → N c.id
  srcLt : ∀ {i k}, k ∈ s.sources i → k < s.srcs.length
  ownLt : ∀ {n : Nat} {c : Call} {k}, s.calls[n]? = some c → c.src = some k → k < s.srcs.length
  srcId : ∀ {n : Nat} {c : Call} {k i}, s.calls[n]? = some c → c.src = some k → k ∈ s.sources i → c.id = i
  srcN : ∀ {n : Nat} {c : Call} {k}, s.calls[n]? = some c → c.src = some k → s.srcs[k]? = some true → N c.id

theorem Sep.mono {N M : Bytes → Prop} {s : St} (h : Sep N s) (hm : ∀ i, N i → M i) : Sep M s :=
  ⟨h.mapNil, h.mapLt, h.mapInj, h.tokLt, h.tokId, fun a b => hm _ (h.mapN a b), fun a b => hm _ (h.tokN a b), h.srcLt, h.ownLt,
    h.srcId, fun a b c => hm _ (h.srcN a b c)⟩

theorem sep_init : Sep (fun _ => False) St.init := by
  constructor <;> simp [St.init, AMap.get, St.sources]

theorem marked_iff (s : St) (i : Bytes) :
    s.marked i = true ↔ ∃ t, AMap.get s.cancelMap i = some t ∧ s.toks[t]? = some true := by
  unfold St.marked
  split
  · rename_i t ht
    rw [ht]
    cases h : s.toks[t]? with
    | none => simp [h]
    | some b => simp [h]
  · rename_i h; simp [h]

theorem sep_start {N : Bytes → Prop} {s : St} (h : Sep N s) (id : RpcId) : Sep N (s.start id) := by
  unfold St.start
  simp only
  split
  · rename_i hi
    refine ⟨h.mapNil, ?_, h.mapInj, ?_, ?_, ?_, ?_, h.srcLt, ?_, ?_, ?_⟩
    · intro i t ht; have := h.mapLt ht; simp; omega
    · intro n c hc
      rcases app_call hc with ⟨-, rfl⟩ | hc
      · simp
      · have := h.tokLt hc; simp; omega
    · intro n c i hc hm
      rcases app_call hc with ⟨-, rfl⟩ | hc
      · have := h.mapLt hm; simp at this
      · exact h.tokId hc hm
    · intro i t ht htt
      rcases (app_true _ _ _).1 htt with ⟨-, hf⟩ | htt
      · cases hf
      · exact h.mapN ht htt
    · intro n c hc htt
      rcases (app_true _ _ _).1 htt with ⟨-, hf⟩ | htt
      · cases hf
      · rcases app_call hc with ⟨-, rfl⟩ | hc
        · have := lt_of_some htt; simp at this
        · exact h.tokN hc htt
    · intro n c k hc hk
      rcases app_call hc with ⟨-, rfl⟩ | hc
      · cases hk
      · exact h.ownLt (c := c) hc hk
    · intro n c k i hc hk
      rcases app_call hc with ⟨-, rfl⟩ | hc
      · cases hk
      · exact h.srcId (c := c) hc hk
    · intro n c k hc hk
      rcases app_call hc with ⟨-, rfl⟩ | hc
      · cases hk
      · exact h.srcN (c := c) hc hk
  · rename_i hi
    split
    · rename_i t ht
      refine ⟨h.mapNil, h.mapLt, h.mapInj, ?_, ?_, h.mapN, ?_, h.srcLt, ?_, ?_, ?_⟩
      · intro n c hc
        rcases app_call hc with ⟨-, rfl⟩ | hc
        · exact h.mapLt ht
        · exact h.tokLt (c := c) hc
      · intro n c i hc hm
        rcases app_call hc with ⟨-, rfl⟩ | hc
        · exact h.mapInj ht hm
        · exact h.tokId hc hm
      · intro n c hc htt
        rcases app_call hc with ⟨-, rfl⟩ | hc
        · exact h.mapN ht htt
        · exact h.tokN hc htt
      · intro n c k hc hk
        rcases app_call hc with ⟨-, rfl⟩ | hc
        · cases hk
        · exact h.ownLt (c := c) hc hk
      · intro n c k i hc hk
        rcases app_call hc with ⟨-, rfl⟩ | hc
        · cases hk
        · exact h.srcId (c := c) hc hk
      · intro n c k hc hk
        rcases app_call hc with ⟨-, rfl⟩ | hc
        · cases hk
        · exact h.srcN (c := c) hc hk
    · rename_i hn
      refine ⟨?_, ?_, ?_, ?_, ?_, ?_, ?_, h.srcLt, ?_, ?_, ?_⟩
      · simp only [AMap.get_put_ne _ _ (fun h' : ([] : Bytes) = idText id => hi h'.symm)]; exact h.mapNil
      · intro i t ht
        simp only [AMap.get_put] at ht
        split at ht
        · cases ht; simp
        · have := h.mapLt ht; simp; omega
      · intro i j t hti htj
        simp only [AMap.get_put] at hti htj
        split at hti <;> split at htj
        · rename_i a b; rw [a, b]
        · cases hti; have := h.mapLt htj; omega
        · cases htj; have := h.mapLt hti; omega
        · exact h.mapInj hti htj
      · intro n c hc
        rcases app_call hc with ⟨-, rfl⟩ | hc
        · simp
        · have := h.tokLt hc; simp; omega
      · intro n c i hc hm
        simp only [AMap.get_put] at hm
        rcases app_call hc with ⟨-, rfl⟩ | hc
        · split at hm
          · rename_i e; exact e.symm
          · have := h.mapLt hm; simp at this
        · split at hm
          · have := h.tokLt hc; have := Option.some.inj hm; omega
          · exact h.tokId hc hm
      · intro i t ht htt
        simp only [AMap.get_put] at ht
        rcases (app_true _ _ _).1 htt with ⟨-, hf⟩ | htt
        · cases hf
        · split at ht
          · cases ht; have := lt_of_some htt; simp at this
          · exact h.mapN ht htt
      · intro n c hc htt
        rcases (app_true _ _ _).1 htt with ⟨-, hf⟩ | htt
        · cases hf
        · rcases app_call hc with ⟨-, rfl⟩ | hc
          · have := lt_of_some htt; simp at this
          · exact h.tokN hc htt
      · intro n c k hc hk
        rcases app_call hc with ⟨-, rfl⟩ | hc
        · cases hk
        · exact h.ownLt (c := c) hc hk
      · intro n c k i hc hk
        rcases app_call hc with ⟨-, rfl⟩ | hc
        · cases hk
        · exact h.srcId (c := c) hc hk
      · intro n c k hc hk
        rcases app_call hc with ⟨-, rfl⟩ | hc
        · cases hk
        · exact h.srcN (c := c) hc hk

theorem sep_open {N : Bytes → Prop} {s : St} (h : Sep N s) (n : Nat) : Sep N (s.open n) := by
  unfold St.open
  split
  · exact h
  · rename_i c hc
    split
    · rename_i hl
      have hsrc : ∀ i, St.sources { s with stopSources := AMap.put s.stopSources c.id (s.sources c.id ++ [s.srcs.length]) } i =
          if i = c.id then s.sources c.id ++ [s.srcs.length] else s.sources i := by
        intro i
        simp only [St.sources, AMap.get_put]
        split <;> rfl
      refine ⟨h.mapNil, h.mapLt, h.mapInj, ?_, ?_, h.mapN, ?_, ?_, ?_, ?_, ?_⟩
      · intro m d hd
        rcases set_call hd with ⟨-, rfl⟩ | ⟨-, hd⟩
        · exact h.tokLt (c := c) hc
        · exact h.tokLt hd
      · intro m d i hd
        rcases set_call hd with ⟨-, rfl⟩ | ⟨-, hd⟩
        · exact h.tokId (c := c) hc
        · exact h.tokId hd
      · intro m d hd
        rcases set_call hd with ⟨-, rfl⟩ | ⟨-, hd⟩
        · exact h.tokN (c := c) hc
        · exact h.tokN hd
      · intro i k hk
        have hk' : k ∈ if i = c.id then s.sources c.id ++ [s.srcs.length] else s.sources i := by rw [← hsrc]; exact hk
        simp only [List.length_append, List.length_singleton]
        split at hk'
        · simp only [List.mem_append, List.mem_singleton] at hk'
          rcases hk' with hk' | rfl
          · have := h.srcLt hk'; omega
          · omega
        · have := h.srcLt hk'; omega
      · intro m d k hd hk
        simp only [List.length_append, List.length_singleton]
        rcases set_call hd with ⟨-, rfl⟩ | ⟨-, hd⟩
        · cases hk; omega
        · have := h.ownLt hd hk; omega
      · intro m d k i hd hk hm
        have hm' : k ∈ if i = c.id then s.sources c.id ++ [s.srcs.length] else s.sources i := by rw [← hsrc]; exact hm
        rcases set_call hd with ⟨-, rfl⟩ | ⟨-, hd⟩
        · cases hk
          split at hm'
          · rename_i e; exact e.symm
          · have := h.srcLt hm'; omega
        · have := h.ownLt hd hk
          split at hm'
          · rename_i e
            simp only [List.mem_append, List.mem_singleton] at hm'
            rcases hm' with hm' | rfl
            · rw [e]; exact h.srcId hd hk hm'
            · omega
          · exact h.srcId hd hk hm'
      · intro m d k hd hk ht
        rcases (app_true _ _ _).1 ht with ⟨rfl, hb⟩ | ht
        · rcases set_call hd with ⟨-, rfl⟩ | ⟨-, hd⟩
          · obtain ⟨t, ht1, ht2⟩ := (marked_iff s c.id).1 hb
            exact h.mapN ht1 ht2
          · have := h.ownLt hd hk; omega
        · rcases set_call hd with ⟨-, rfl⟩ | ⟨-, hd⟩
          · cases hk; have := lt_of_some ht; omega
          · exact h.srcN hd hk ht
    · exact h

theorem unregister_sources (s : St) (i : Bytes) (k : Nat) (calls : List Call) (j : Bytes) :
    St.sources { s with stopSources := s.unregister i k, calls := calls } j =
      if j = i then (s.sources i).filter (fun x => decide (x ≠ k)) else s.sources j := by
  unfold St.unregister St.sources
  simp only
  split
  · rename_i hn
    split
    · rename_i e; rw [e, hn]; rfl
    · rfl
  · rename_i l hl
    rw [hl]
    simp only [Option.getD_some]
    split
    · rename_i he
      rw [AMap.get_del]
      split
      · rw [List.isEmpty_iff] at he; rw [he]; rfl
      · rfl
    · rw [AMap.get_put]
      split <;> rfl

theorem sep_close {N : Bytes → Prop} {s : St} (h : Sep N s) (n : Nat) : Sep N (s.close n) := by
  unfold St.close
  split
  · exact h
  · rename_i c hc
    split
    · exact h
    · rename_i k0 hk0
      have hsub : ∀ {j k}, k ∈ St.sources { s with stopSources := s.unregister c.id k0, calls := s.calls.set n { c with src := none } } j →
          k ∈ s.sources j := by
        intro j k hk
        rw [unregister_sources] at hk
        split at hk
        · rename_i e; rw [e]; exact (List.mem_filter.1 hk).1
        · exact hk
      refine ⟨h.mapNil, h.mapLt, h.mapInj, ?_, ?_, h.mapN, ?_, ?_, ?_, ?_, ?_⟩
      · intro m d hd
        rcases set_call hd with ⟨-, rfl⟩ | ⟨-, hd⟩
        · exact h.tokLt (c := c) hc
        · exact h.tokLt hd
      · intro m d i hd
        rcases set_call hd with ⟨-, rfl⟩ | ⟨-, hd⟩
        · exact h.tokId (c := c) hc
        · exact h.tokId hd
      · intro m d hd
        rcases set_call hd with ⟨-, rfl⟩ | ⟨-, hd⟩
        · exact h.tokN (c := c) hc
        · exact h.tokN hd
      · intro i k hk; exact h.srcLt (hsub hk)
      · intro m d k hd hk
        rcases set_call hd with ⟨-, rfl⟩ | ⟨-, hd⟩
        · cases hk
        · exact h.ownLt hd hk
      · intro m d k i hd hk hm
        rcases set_call hd with ⟨-, rfl⟩ | ⟨-, hd⟩
        · cases hk
        · exact h.srcId hd hk (hsub hm)
      · intro m d k hd hk
        rcases set_call hd with ⟨-, rfl⟩ | ⟨-, hd⟩
        · cases hk
        · exact h.srcN hd hk

theorem sep_setLive {N : Bytes → Prop} {s : St} (h : Sep N s) {n : Nat} {c : Call} (hc : s.calls[n]? = some c) (b : Bool) :
    Sep N { s with calls := s.calls.set n { c with live := b } } := by
  refine ⟨h.mapNil, h.mapLt, h.mapInj, ?_, ?_, h.mapN, ?_, h.srcLt, ?_, ?_, ?_⟩
  · intro m d hd
    rcases set_call hd with ⟨-, rfl⟩ | ⟨-, hd⟩
    · exact h.tokLt (c := c) hc
    · exact h.tokLt hd
  · intro m d i hd
    rcases set_call hd with ⟨-, rfl⟩ | ⟨-, hd⟩
    · exact h.tokId (c := c) hc
    · exact h.tokId hd
  · intro m d hd
    rcases set_call hd with ⟨-, rfl⟩ | ⟨-, hd⟩
    · exact h.tokN (c := c) hc
    · exact h.tokN hd
  · intro m d k hd hk
    rcases set_call hd with ⟨-, rfl⟩ | ⟨-, hd⟩
    · exact h.ownLt (c := c) hc hk
    · exact h.ownLt hd hk
  · intro m d k i hd hk
    rcases set_call hd with ⟨-, rfl⟩ | ⟨-, hd⟩
    · exact h.srcId (c := c) hc hk
    · exact h.srcId hd hk
  · intro m d k hd hk
    rcases set_call hd with ⟨-, rfl⟩ | ⟨-, hd⟩
    · exact h.srcN (c := c) hc hk
    · exact h.srcN hd hk

theorem sep_delId {N : Bytes → Prop} {s : St} (h : Sep N s) (i : Bytes) :
    Sep N { s with cancelMap := AMap.del s.cancelMap i, stopSources := AMap.del s.stopSources i } := by
  have hg : ∀ {j t}, AMap.get (AMap.del s.cancelMap i) j = some t → AMap.get s.cancelMap j = some t := by
    intro j t ht
    rw [AMap.get_del] at ht
    split at ht
    · cases ht
    · exact ht
  have hs : ∀ {j k}, k ∈ St.sources { s with cancelMap := AMap.del s.cancelMap i, stopSources := AMap.del s.stopSources i } j →
      k ∈ s.sources j := by
    intro j k hk
    simp only [St.sources, AMap.get_del] at hk
    split at hk
    · cases hk
    · exact hk
  refine ⟨?_, fun a => h.mapLt (hg a), fun a b => h.mapInj (hg a) (hg b), h.tokLt, fun a b => h.tokId a (hg b),
    fun a b => h.mapN (hg a) b, h.tokN, fun a => h.srcLt (hs a), h.ownLt, fun a b c => h.srcId a b (hs c), h.srcN⟩
  simp only [AMap.get_del]
  split
  · rfl
  · exact h.mapNil

theorem sep_release {N : Bytes → Prop} {s : St} (h : Sep N s) (n : Nat) : Sep N (s.release n) := by
  unfold St.release
  split
  · exact h
  · rename_i c hc
    split
    · split
      · exact sep_setLive h hc false
      · exact sep_delId (sep_setLive h hc false) c.id
    · exact h

theorem sep_cancel {N : Bytes → Prop} {s : St} (h : Sep N s) {i : Bytes} (hi : i ≠ []) :
    Sep (fun j => N j ∨ j = i) (s.cancelById i) := by
  have hsrc : ∀ (s1 : St) , s1.calls = s.calls → s1.stopSources = s.stopSources →
      ∀ {n : Nat} {c : Call} {k}, s1.calls[n]? = some c → c.src = some k →
      ((s.sources i).foldl (fun l k => l.set k true) s.srcs)[k]? = some true → N c.id ∨ c.id = i := by
    intro s1 h1 h2 n c k hc hk ht
    rw [h1] at hc
    rcases (foldl_set _ _ _).1 ht with ⟨hm, -⟩ | ht
    · exact .inr (h.srcId hc hk hm)
    · exact .inl (h.srcN hc hk ht)
  unfold St.cancelById
  cases hg : AMap.get s.cancelMap i with
  | none =>
    refine ⟨?_, ?_, ?_, ?_, ?_, ?_, ?_, ?_, ?_, ?_, ?_⟩
    · simp only [AMap.get_put_ne _ _ (fun h' : ([] : Bytes) = i => hi h'.symm)]; exact h.mapNil
    · intro j t ht
      simp only [AMap.get_put] at ht
      split at ht
      · cases ht; simp
      · have := h.mapLt ht; simp; omega
    · intro j j' t hti htj
      simp only [AMap.get_put] at hti htj
      split at hti <;> split at htj
      · rename_i a b; rw [a, b]
      · cases hti; have := h.mapLt htj; omega
      · cases htj; have := h.mapLt hti; omega
      · exact h.mapInj hti htj
    · intro n c hc; have := h.tokLt hc; simp; omega
    · intro n c j hc hm
      simp only [AMap.get_put] at hm
      split at hm
      · have := h.tokLt hc; have := Option.some.inj hm; omega
      · exact h.tokId hc hm
    · intro j t ht htt
      simp only [AMap.get_put] at ht
      split at ht
      · rename_i e; exact .inr e
      · have := h.mapLt ht
        rcases (app_true _ _ _).1 htt with ⟨h1, -⟩ | htt
        · omega
        · exact .inl (h.mapN ht htt)
    · intro n c hc htt
      have := h.tokLt (c := c) hc
      rcases (app_true _ _ _).1 htt with ⟨h1, -⟩ | htt
      · omega
      · exact .inl (h.tokN hc htt)
    · intro j k hk; simp only [foldl_set_length]; exact h.srcLt hk
    · intro n c k hc hk; simp only [foldl_set_length]; exact h.ownLt (c := c) hc hk
    · intro n c k j hc hk hm; exact h.srcId hc hk hm
    · exact hsrc { s with toks := s.toks ++ [true], cancelMap := AMap.put s.cancelMap i s.toks.length } rfl rfl
  | some t0 =>
    refine ⟨h.mapNil, ?_, h.mapInj, ?_, h.tokId, ?_, ?_, ?_, ?_, ?_, ?_⟩
    · intro j t ht; simp only [List.length_set]; exact h.mapLt ht
    · intro n c hc; simp only [List.length_set]; exact h.tokLt (c := c) hc
    · intro j t ht htt
      rcases (set_true _ _ _).1 htt with ⟨rfl, -⟩ | htt
      · exact .inr (h.mapInj ht hg)
      · exact .inl (h.mapN ht htt)
    · intro n c hc htt
      rcases (set_true _ _ _).1 htt with ⟨e, -⟩ | htt
      · rw [← e] at hg; exact .inr (h.tokId hc hg)
      · exact .inl (h.tokN hc htt)
    · intro j k hk; simp only [foldl_set_length]; exact h.srcLt hk
    · intro n c k hc hk; simp only [foldl_set_length]; exact h.ownLt (c := c) hc hk
    · intro n c k j hc hk hm; exact h.srcId hc hk hm
    · exact hsrc { s with toks := s.toks.set t0 true } rfl rfl

theorem named_cons {op : Op D} {h : List (Op D)} {i : Bytes} (hn : Named h i) : Named (op :: h) i := by
  obtain ⟨p, hp, hq⟩ := hn
  exact ⟨p, List.mem_cons_of_mem _ hp, hq⟩

theorem sep_after (h : List (Op D)) : Sep (Named h) (after h) := by
  induction h with
  | nil => exact sep_init.mono (fun _ hf => hf.elim)
  | cons op h ih =>
    rw [after_cons]
    have ih' : Sep (Named (op :: h)) (after h) := ih.mono (fun _ => named_cons)
    cases op with
    | start id => exact sep_start ih' id
    | openSource n => exact sep_open ih' n
    | closeSource n => exact sep_close ih' n
    | finish n => exact sep_release (sep_close ih' n) n
    | cancel p =>
      show Sep _ (if idFromParams p = [] then after h else (after h).cancelById (idFromParams p))
      split
      · exact ih'
      · rename_i hp
        refine (sep_cancel ih hp).mono ?_
        rintro j (hj | rfl)
        · exact named_cons hj
        · exact ⟨p, List.mem_cons_self, (names_iff p _).2 ⟨rfl, hp⟩⟩

end Verif.Cancel
