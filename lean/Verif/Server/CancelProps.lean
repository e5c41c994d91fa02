import Verif.Server.CancelLemmas

/-! C26: cancellation reaches exactly the requests it names. -/

namespace Verif.Cancel

open Verif.Stdio (idText)

variable {D : Type}

theorem running_lt {h : List (Op D)} {n : Nat} {i : Bytes} (hr : Running h n i) : n < starts h := by
  induction h with
  | nil => exact hr.elim
  | cons op h ih =>
    rcases hr with ⟨id, rfl, rfl, -⟩ | ⟨-, hr⟩
    · exact Nat.lt_succ_self _
    · have := ih hr
      cases op <;> simp only [starts] <;> omega

theorem hit_lt {h : List (Op D)} {n : Nat} (hr : Hit h n) : n < starts h := by
  induction h with
  | nil => exact hr.elim
  | cons op h ih =>
    rcases hr with ⟨id, rfl, rfl, -⟩ | ⟨p, i, rfl, -, hr⟩ | hr
    · exact Nat.lt_succ_self _
    · exact (running_lt hr : n < starts h)
    · have := ih hr
      cases op <;> simp only [starts] <;> omega

/-- What the tables look like after a history in which no two calls ran under one id. -/
structure Fine (h : List (Op D)) (s : St) : Prop where
  len : s.calls.length = starts h
  run : ∀ n i, Running h n i ↔ ∃ c, s.calls[n]? = some c ∧ c.live = true ∧ c.id = i
  map : ∀ {n : Nat} {c : Call}, s.calls[n]? = some c → c.live = true → c.id ≠ [] → AMap.get s.cancelMap c.id = some c.tok
  own : ∀ {n : Nat} {c : Call} {i}, s.calls[n]? = some c → AMap.get s.cancelMap i = some c.tok → c.live = true
  poison : ∀ i, Poisoned h i ↔ ∃ t, AMap.get s.cancelMap i = some t ∧ s.toks[t]? = some true
  hit : ∀ {n : Nat} {c : Call}, s.calls[n]? = some c → (s.toks[c.tok]? = some true ↔ Hit h n)
  live : ∀ {n : Nat} {c : Call} {k}, s.calls[n]? = some c → c.src = some k → c.live = true
  src : ∀ {n : Nat} {c : Call} {k}, s.calls[n]? = some c → c.src = some k →
    k ∈ s.sources c.id ∧ (s.srcs[k]? = some true ↔ s.toks[c.tok]? = some true)
  inj : ∀ {n m : Nat} {c d : Call} {k}, s.calls[n]? = some c → s.calls[m]? = some d → c.src = some k → d.src = some k → n = m

theorem lt_calls {l : List Call} {n : Nat} {c : Call} (h : l[n]? = some c) : n < l.length := by
  rw [List.getElem?_eq_some_iff] at h; exact h.1

theorem running_start {h : List (Op D)} {id : RpcId} {n : Nat} {i : Bytes} :
    Running (.start id :: h) n i ↔ (n = starts h ∧ i = idText id) ∨ Running h n i := by
  simp only [Running]
  constructor
  · rintro (⟨id', e, h1, h2⟩ | ⟨-, h1⟩)
    · cases e; exact .inl ⟨h1, h2⟩
    · exact .inr h1
  · rintro (⟨h1, h2⟩ | h1)
    · exact .inl ⟨id, rfl, h1, h2⟩
    · exact .inr ⟨by simp, h1⟩

theorem running_other {h : List (Op D)} {op : Op D} {n : Nat} {i : Bytes} (h1 : ∀ id, op ≠ .start id) (h2 : ∀ n, op ≠ .finish n) :
    Running (op :: h) n i ↔ Running h n i := by
  simp only [Running]
  constructor
  · rintro (⟨id, e, -⟩ | ⟨-, hr⟩)
    · exact absurd e (h1 id)
    · exact hr
  · intro hr; exact .inr ⟨h2 n, hr⟩

theorem running_finish {h : List (Op D)} {m n : Nat} {i : Bytes} :
    Running (.finish m :: h) n i ↔ n ≠ m ∧ Running h n i := by
  simp only [Running]
  constructor
  · rintro (⟨id, e, -⟩ | ⟨h1, hr⟩)
    · cases e
    · exact ⟨fun e => h1 (by rw [e]), hr⟩
  · rintro ⟨h1, hr⟩
    exact .inr ⟨fun e => h1 (by cases e; rfl), hr⟩

theorem poisoned_keep {h : List (Op D)} {op : Op D} {i : Bytes} (h1 : ∀ p, op ≠ .cancel p) (h2 : ∀ n, op ≠ .finish n) :
    Poisoned (op :: h) i ↔ Poisoned h i := by
  simp only [Poisoned]
  constructor
  · rintro (⟨p, e, -⟩ | ⟨hp, -⟩)
    · exact absurd e (h1 p)
    · exact hp
  · intro hp; exact .inr ⟨hp, fun ⟨n, e, _⟩ => h2 n e⟩

theorem poisoned_finish {h : List (Op D)} {n : Nat} {i : Bytes} :
    Poisoned (.finish n :: h) i ↔ Poisoned h i ∧ ¬ Running h n i := by
  simp only [Poisoned]
  constructor
  · rintro (⟨p, e, -⟩ | ⟨hp, hq⟩)
    · cases e
    · exact ⟨hp, fun hr => hq ⟨n, rfl, hr⟩⟩
  · rintro ⟨hp, hq⟩
    refine .inr ⟨hp, ?_⟩
    rintro ⟨m, e, hr⟩
    cases e; exact hq hr

theorem poisoned_cancel {h : List (Op D)} {p : Option (JVal D)} {i : Bytes} :
    Poisoned (.cancel p :: h) i ↔ Names p i ∨ Poisoned h i := by
  simp only [Poisoned]
  constructor
  · rintro (⟨q, e, hq⟩ | ⟨hp, -⟩)
    · cases e; exact .inl hq
    · exact .inr hp
  · rintro (hq | hp)
    · exact .inl ⟨p, rfl, hq⟩
    · exact .inr ⟨hp, fun ⟨n, e, _⟩ => by cases e⟩

theorem hit_start {h : List (Op D)} {id : RpcId} {n : Nat} :
    Hit (.start id :: h) n ↔ (n = starts h ∧ Poisoned h (idText id)) ∨ Hit h n := by
  simp only [Hit]
  constructor
  · rintro (⟨q, e, h1, h2⟩ | ⟨p, i, e, -⟩ | hh)
    · cases e; exact .inl ⟨h1, h2⟩
    · cases e
    · exact .inr hh
  · rintro (⟨h1, h2⟩ | hh)
    · exact .inl ⟨id, rfl, h1, h2⟩
    · exact .inr (.inr hh)

theorem hit_cancel {h : List (Op D)} {p : Option (JVal D)} {n : Nat} :
    Hit (.cancel p :: h) n ↔ (∃ i, Names p i ∧ Running h n i) ∨ Hit h n := by
  simp only [Hit]
  constructor
  · rintro (⟨q, e, h1, h2⟩ | ⟨q, i, e, h1, h2⟩ | hh)
    · cases e
    · cases e; exact .inl ⟨i, h1, h2⟩
    · exact .inr hh
  · rintro (⟨i, h1, h2⟩ | hh)
    · exact .inr (.inl ⟨p, i, rfl, h1, h2⟩)
    · exact .inr (.inr hh)

theorem hit_keep {h : List (Op D)} {op : Op D} {n : Nat} (h1 : ∀ p, op ≠ .cancel p) (h2 : ∀ id, op ≠ .start id) :
    Hit (op :: h) n ↔ Hit h n := by
  simp only [Hit]
  constructor
  · rintro (⟨q, e, -⟩ | ⟨q, i, e, -⟩ | hh)
    · exact absurd e (h2 q)
    · exact absurd e (h1 q)
    · exact hh
  · intro hh; exact .inr (.inr hh)

theorem get_app (l : List Call) (c : Call) (n : Nat) :
    (l ++ [c])[n]? = if n = l.length then some c else l[n]? := by
  rw [List.getElem?_append]
  by_cases h : n < l.length
  · rw [if_pos h, if_neg (by omega)]
  · rw [if_neg h, List.getElem?_singleton]
    by_cases h2 : n = l.length
    · subst h2; simp
    · rw [if_neg h2, if_neg (by omega)]; simp; omega

theorem app_true_lt {l : List Bool} {b : Bool} {u : Nat} (h : u < l.length) : (l ++ [b])[u]? = some true ↔ l[u]? = some true := by
  rw [List.getElem?_append, if_pos h]

theorem fine_start {h : List (Op D)} {s : St} (hs : Sep (Named h) s) (hf : Fine h s) (id : RpcId)
    (hd : idText id ≠ [] → ∀ n, ¬ Running h n (idText id)) : Fine (.start id :: h) (s.start id) := by
  have hp : ∀ i, Poisoned (.start id :: h) i ↔ Poisoned h i := fun i => poisoned_keep (by simp) (by simp)
  -- the shape of the state
  have key : ∀ (toks : List Bool) (m : List (Bytes × Nat)) (t : Nat),
      (∀ (n : Nat) (c : Call), s.calls[n]? = some c → (toks[c.tok]? = some true ↔ s.toks[c.tok]? = some true)) →
      (∀ i, (∃ u, AMap.get m i = some u ∧ toks[u]? = some true) ↔ ∃ u, AMap.get s.cancelMap i = some u ∧ s.toks[u]? = some true) →
      (idText id ≠ [] → AMap.get m (idText id) = some t) →
      (∀ (n : Nat) (c : Call), s.calls[n]? = some c → ∀ i : Bytes, AMap.get m i = some c.tok → c.live = true) →
      (∀ (i : Bytes) (u : Nat), i ≠ idText id → AMap.get s.cancelMap i = some u → AMap.get m i = some u) →
      (toks[t]? = some true ↔ Poisoned h (idText id)) →
      Fine (.start id :: h) { s with toks := toks, cancelMap := m, calls := s.calls ++ [⟨idText id, true, t, none⟩] } := by
    intro toks m t h1 h2 h3 h4 h5 h6
    refine ⟨by simp [starts, hf.len], ?_, ?_, ?_, ?_, ?_, ?_, ?_, ?_⟩
    · intro n i
      rw [running_start, hf.run n i]
      simp only [get_app, hf.len]
      constructor
      · rintro (⟨rfl, rfl⟩ | ⟨c, hc, hl, hi⟩)
        · exact ⟨_, by rw [if_pos rfl], rfl, rfl⟩
        · have := lt_calls hc
          rw [hf.len] at this
          exact ⟨c, by rw [if_neg (by omega)]; exact hc, hl, hi⟩
      · rintro ⟨c, hc, hl, hi⟩
        split at hc
        · rename_i e; cases hc; exact .inl ⟨e, hi.symm⟩
        · exact .inr ⟨c, hc, hl, hi⟩
    · intro n c hc hl hi
      rcases app_call hc with ⟨-, rfl⟩ | hc
      · exact h3 hi
      · refine h5 _ _ ?_ (hf.map hc hl hi)
        intro e
        exact hd (e ▸ hi) n ((hf.run n (idText id)).2 ⟨c, hc, hl, e⟩)
    · intro n c i hc hm
      rcases app_call hc with ⟨-, rfl⟩ | hc
      · rfl
      · exact h4 n c hc i hm
    · intro i; rw [hp, hf.poison, h2]
    · intro n c hc
      rw [hit_start]
      rcases app_call hc with ⟨rfl, rfl⟩ | hc
      · show toks[t]? = some true ↔ _
        rw [h6]
        constructor
        · intro hpp; exact .inl ⟨hf.len, hpp⟩
        · rintro (⟨-, hpp⟩ | hh)
          · exact hpp
          · have := hit_lt hh; rw [hf.len] at this; omega
      · rw [h1 n c hc, hf.hit hc]
        constructor
        · exact .inr
        · rintro (⟨rfl, -⟩ | hh)
          · have := lt_calls hc; rw [hf.len] at this; omega
          · exact hh
    · intro n c k hc hk
      rcases app_call hc with ⟨rfl, rfl⟩ | hc
      · rfl
      · exact hf.live hc hk
    · intro n c k hc hk
      rcases app_call hc with ⟨rfl, rfl⟩ | hc
      · cases hk
      · refine ⟨(hf.src hc hk).1, ?_⟩
        rw [h1 n c hc]; exact (hf.src hc hk).2
    · intro n m c d k hc hd' hk hk'
      rcases app_call hc with ⟨rfl, rfl⟩ | hc
      · cases hk
      · rcases app_call hd' with ⟨rfl, rfl⟩ | hd'
        · cases hk'
        · exact hf.inj hc hd' hk hk'
  have htok : ∀ (b : Bool) n (c : Call), s.calls[n]? = some c → ((s.toks ++ [b])[c.tok]? = some true ↔ s.toks[c.tok]? = some true) :=
    fun b n c hc => app_true_lt (hs.tokLt hc)
  have hmap : ∀ (b : Bool) i, (∃ u, AMap.get s.cancelMap i = some u ∧ (s.toks ++ [b])[u]? = some true) ↔
      ∃ u, AMap.get s.cancelMap i = some u ∧ s.toks[u]? = some true := by
    intro b i
    constructor
    · rintro ⟨u, h1, h2⟩; exact ⟨u, h1, (app_true_lt (hs.mapLt h1)).1 h2⟩
    · rintro ⟨u, h1, h2⟩; exact ⟨u, h1, (app_true_lt (hs.mapLt h1)).2 h2⟩
  unfold St.start
  simp only
  split
  · rename_i hi
    refine key (s.toks ++ [false]) s.cancelMap s.toks.length (htok false) (hmap false) (fun h' => absurd hi h')
      (fun n c hc i => hf.own hc) (fun i u _ hu => hu) ?_
    rw [app_true, hi, hf.poison]
    constructor
    · rintro (⟨-, h'⟩ | h')
      · cases h'
      · have := lt_of_some h'; omega
    · rintro ⟨t, h1, -⟩; rw [hs.mapNil] at h1; cases h1
  · rename_i hi
    split
    · rename_i t ht
      refine key s.toks s.cancelMap t (fun _ _ _ => Iff.rfl) (fun _ => Iff.rfl) (fun _ => ht) (fun n c hc i => hf.own hc)
        (fun i u _ hu => hu) ?_
      rw [hf.poison]
      constructor
      · intro h'; exact ⟨t, ht, h'⟩
      · rintro ⟨u, h1, h2⟩; rw [ht] at h1; cases h1; exact h2
    · rename_i hn
      refine key (s.toks ++ [false]) (AMap.put s.cancelMap (idText id) s.toks.length) s.toks.length (htok false) ?_
        (fun _ => AMap.get_put_self _ _ _) ?_ ?_ ?_
      · intro i
        rw [AMap.get_put]
        split
        · rename_i e
          subst e
          rw [hn]
          constructor
          · rintro ⟨u, h1, h2⟩
            cases h1
            rcases (app_true _ _ _).1 h2 with ⟨-, h'⟩ | h'
            · cases h'
            · have := lt_of_some h'; omega
          · rintro ⟨u, h1, -⟩; cases h1
        · exact hmap false i
      · intro n c hc i hm
        rw [AMap.get_put] at hm
        split at hm
        · have := hs.tokLt hc; have := Option.some.inj hm; omega
        · exact hf.own (c := c) hc hm
      · intro i u hne hu
        rw [AMap.get_put_ne _ _ hne]; exact hu
      · rw [app_true, hf.poison, hn]
        constructor
        · rintro (⟨-, h'⟩ | h')
          · cases h'
          · have := lt_of_some h'; omega
        · rintro ⟨u, h1, -⟩; cases h1

theorem get_set_call (l : List Call) (n m : Nat) (c c0 : Call) (h : l[n]? = some c0) :
    (l.set n c)[m]? = if m = n then some c else l[m]? := by
  rw [List.getElem?_set]
  have := lt_calls h
  by_cases e : n = m
  · subst e; simp [this]
  · rw [if_neg e, if_neg (fun e' => e e'.symm)]

theorem run_set {s : St} {n : Nat} {c c' : Call} (hc : s.calls[n]? = some c) (hl : c'.live = c.live) (hi : c'.id = c.id) (m : Nat) (i : Bytes) :
    (∃ d, (s.calls.set n c')[m]? = some d ∧ d.live = true ∧ d.id = i) ↔ ∃ d, s.calls[m]? = some d ∧ d.live = true ∧ d.id = i := by
  rw [get_set_call _ _ _ _ _ hc]
  by_cases e : m = n
  · rw [if_pos e, e, hc]
    constructor
    · rintro ⟨d, hd, h1, h2⟩; cases hd; exact ⟨c, rfl, hl ▸ h1, hi ▸ h2⟩
    · rintro ⟨d, hd, h1, h2⟩; cases hd; exact ⟨c', rfl, hl ▸ h1, hi ▸ h2⟩
  · rw [if_neg e]

theorem fine_open {h : List (Op D)} {s : St} (hs : Sep (Named h) s) (hf : Fine h s) (n : Nat) :
    Fine (.openSource n :: h) (s.open n) := by
  have hr : ∀ m i, Running (.openSource n :: h) m i ↔ Running h m i := fun m i => running_other (by simp) (by simp)
  have hp : ∀ i, Poisoned (.openSource n :: h) i ↔ Poisoned h i := fun i => poisoned_keep (by simp) (by simp)
  have hh : ∀ m, Hit (.openSource n :: h) m ↔ Hit h m := fun m => hit_keep (by simp) (by simp)
  have same : Fine (.openSource n :: h) s :=
    ⟨hf.len, fun m i => by rw [hr]; exact hf.run m i, hf.map, hf.own, fun i => by rw [hp]; exact hf.poison i,
      fun hc => by rw [hh]; exact hf.hit hc, hf.live, hf.src, hf.inj⟩
  unfold St.open
  split
  · exact same
  · rename_i c hc
    split
    · rename_i hl
      generalize hs' : ({ s with srcs := s.srcs ++ [s.marked c.id]
                                 stopSources := AMap.put s.stopSources c.id (s.sources c.id ++ [s.srcs.length])
                                 calls := s.calls.set n { c with src := some s.srcs.length } } : St) = s'
      have e1 : s'.toks = s.toks := by rw [← hs']
      have e2 : s'.cancelMap = s.cancelMap := by rw [← hs']
      have e3 : s'.calls = s.calls.set n { c with src := some s.srcs.length } := by rw [← hs']
      have e4 : s'.srcs = s.srcs ++ [s.marked c.id] := by rw [← hs']
      have hsrc : ∀ i, s'.sources i = if i = c.id then s.sources c.id ++ [s.srcs.length] else s.sources i := by
        intro i
        rw [← hs']
        simp only [St.sources, AMap.get_put]
        split <;> rfl
      clear hs'
      have hmk : s.marked c.id = true ↔ s.toks[c.tok]? = some true := by
        rw [marked_iff]
        by_cases hi : c.id = []
        · rw [hi, hs.mapNil]
          constructor
          · rintro ⟨t, h1, -⟩; cases h1
          · intro ht
            obtain ⟨p, hp1, hp2⟩ := hs.tokN hc ht
            rw [hi] at hp2
            exact absurd rfl ((names_iff p []).1 hp2).2
        · rw [hf.map hc hl.1 hi]
          constructor
          · rintro ⟨t, h1, h2⟩; cases h1; exact h2
          · intro ht; exact ⟨_, rfl, ht⟩
      constructor <;> simp only [e1, e2, e3, e4]
      · simp [hf.len, starts]
      · intro m i
        rw [hr, hf.run]; exact (run_set (c' := { c with src := some s.srcs.length }) hc rfl rfl m i).symm
      · intro m d hd hl' hi
        rcases set_call hd with ⟨-, rfl⟩ | ⟨-, hd⟩
        · exact hf.map (c := c) hc hl' hi
        · exact hf.map hd hl' hi
      · intro m d i hd hm
        rcases set_call hd with ⟨-, rfl⟩ | ⟨-, hd⟩
        · exact hl.1
        · exact hf.own hd hm
      · intro i; rw [hp]; exact hf.poison i
      · intro m d hd
        rw [hh]
        rcases set_call hd with ⟨rfl, rfl⟩ | ⟨-, hd⟩
        · exact hf.hit (c := c) hc
        · exact hf.hit hd
      · intro m d k hd hk
        rcases set_call hd with ⟨rfl, rfl⟩ | ⟨-, hd⟩
        · exact hl.1
        · exact hf.live hd hk
      · intro m d k hd hk
        rw [hsrc]
        rcases set_call hd with ⟨rfl, rfl⟩ | ⟨-, hd⟩
        · cases hk
          rw [if_pos rfl]
          refine ⟨by simp, ?_⟩
          show (s.srcs ++ [s.marked c.id])[s.srcs.length]? = some true ↔ s.toks[c.tok]? = some true
          rw [app_true, hmk]
          constructor
          · rintro (⟨-, h'⟩ | h')
            · exact h'
            · have := lt_of_some h'; omega
          · intro h'; exact .inl ⟨rfl, h'⟩
        · have h1 := hf.src hd hk
          refine ⟨?_, ?_⟩
          · split
            · rename_i e; rw [e] at h1; exact List.mem_append_left _ h1.1
            · exact h1.1
          · show (s.srcs ++ [s.marked c.id])[k]? = some true ↔ _
            rw [app_true_lt (hs.ownLt hd hk)]; exact h1.2
      · intro m m' d d' k hd hd' hk hk'
        rcases set_call hd with ⟨rfl, rfl⟩ | ⟨-, hd1⟩
        · cases hk
          rcases set_call hd' with ⟨rfl, rfl⟩ | ⟨-, hd'⟩
          · rfl
          · have := hs.ownLt hd' hk'; omega
        · have hd0 := hd1
          rcases set_call hd' with ⟨rfl, rfl⟩ | ⟨-, hd'⟩
          · cases hk'; have := hs.ownLt hd0 hk; omega
          · exact hf.inj hd1 hd' hk hk'
    · exact same

/-- Closing a source does not change what a history means. -/
theorem fine_close {h : List (Op D)} {s : St} (hf : Fine h s) (n : Nat) : Fine h (s.close n) := by
  unfold St.close
  split
  · exact hf
  · rename_i c hc
    split
    · exact hf
    · rename_i k0 hk0
      refine ⟨by simp [hf.len], ?_, ?_, ?_, hf.poison, ?_, ?_, ?_, ?_⟩
      · intro m i
        rw [hf.run]; exact (run_set (c' := { c with src := none }) hc rfl rfl m i).symm
      · intro m d hd hl' hi
        rcases set_call hd with ⟨-, rfl⟩ | ⟨-, hd⟩
        · exact hf.map (c := c) hc hl' hi
        · exact hf.map hd hl' hi
      · intro m d i hd hm
        rcases set_call hd with ⟨-, rfl⟩ | ⟨-, hd⟩
        · exact hf.own (c := c) hc hm
        · exact hf.own hd hm
      · intro m d hd
        rcases set_call hd with ⟨rfl, rfl⟩ | ⟨-, hd⟩
        · exact hf.hit (c := c) hc
        · exact hf.hit hd
      · intro m d k hd hk
        rcases set_call hd with ⟨rfl, rfl⟩ | ⟨-, hd⟩
        · cases hk
        · exact hf.live hd hk
      · intro m d k hd hk
        rcases set_call hd with ⟨rfl, rfl⟩ | ⟨hne, hd⟩
        · cases hk
        · have h1 := hf.src hd hk
          refine ⟨?_, h1.2⟩
          rw [unregister_sources]
          split
          · rename_i e
            rw [e] at h1
            refine List.mem_filter.2 ⟨h1.1, ?_⟩
            simp only [decide_eq_true_eq]
            intro e'
            rw [e'] at hk
            exact hne (hf.inj hd hc hk hk0)
          · exact h1.1
      · intro m m' d d' k hd hd' hk hk'
        rcases set_call hd with ⟨rfl, rfl⟩ | ⟨-, hd⟩
        · cases hk
        · rcases set_call hd' with ⟨rfl, rfl⟩ | ⟨-, hd'⟩
          · cases hk'
          · exact hf.inj hd hd' hk hk'

theorem close_src {s : St} {n : Nat} {c : Call} (h : (s.close n).calls[n]? = some c) : c.src = none := by
  unfold St.close at h
  split at h
  · rename_i hn; rw [hn] at h; cases h
  · rename_i d hd
    split at h
    · rename_i hk; rw [hd] at h; cases h; exact hk
    · rcases set_call h with ⟨-, rfl⟩ | ⟨hne, -⟩
      · rfl
      · exact absurd rfl hne

theorem fine_release {h : List (Op D)} {s : St} (hs : Sep (Named h) s) (hf : Fine h s) (hd : Distinct h) {n : Nat}
    (hc0 : ∀ c, s.calls[n]? = some c → c.src = none) : Fine (.finish n :: h) (s.release n) := by
  have hh : ∀ m, Hit (.finish n :: h) m ↔ Hit h m := fun m => hit_keep (by simp) (by simp)
  -- two live calls with one non-empty id are the same call
  have uniq : ∀ {m m' : Nat} {d d' : Call}, s.calls[m]? = some d → s.calls[m']? = some d' → d.live = true → d'.live = true →
      d.id = d'.id → d.id ≠ [] → m = m' := by
    intro m m' d d' h1 h2 h3 h4 h5 h6
    have r1 := (hf.run m d.id).2 ⟨d, h1, h3, rfl⟩
    have r2 := (hf.run m' d.id).2 ⟨d', h2, h4, h5.symm⟩
    clear hf hh hs hc0 h1 h2 h3 h4 h5
    generalize d.id = i at *
    induction h with
    | nil => exact r1.elim
    | cons op h ih =>
      rcases r1 with ⟨id, rfl, h1, rfl⟩ | ⟨e1, r1⟩
      · rcases running_start.1 r2 with ⟨h2, -⟩ | r2
        · omega
        · exact absurd r2 (hd.2 id rfl h6 m')
      · rcases r2 with ⟨id, rfl, h1, rfl⟩ | ⟨e2, r2⟩
        · exact absurd r1 (hd.2 id rfl h6 m)
        · exact ih hd.1 r1 r2
  unfold St.release
  split
  · -- no such call
    rename_i hn
    have nr : ∀ i, ¬ Running h n i := by
      intro i hr
      obtain ⟨c, hc, -⟩ := (hf.run n i).1 hr
      rw [hn] at hc; cases hc
    refine ⟨hf.len, ?_, hf.map, hf.own, ?_, ?_, hf.live, hf.src, hf.inj⟩
    · intro m i
      rw [running_finish, ← hf.run]
      exact ⟨fun a => a.2, fun a => ⟨fun e => nr i (e ▸ a), a⟩⟩
    · intro i
      rw [poisoned_finish, ← hf.poison]
      exact ⟨fun a => a.1, fun a => ⟨a, nr i⟩⟩
    · intro m d hd'; rw [hh]; exact hf.hit hd'
  · rename_i c hc
    have hcs := hc0 c hc
    by_cases hl : c.live = true
    · rw [if_pos hl]
      have hrun : ∀ m i, Running (.finish n :: h) m i ↔
          ∃ d, (s.calls.set n { c with live := false })[m]? = some d ∧ d.live = true ∧ d.id = i := by
        intro m i
        rw [running_finish, hf.run, get_set_call _ _ _ _ _ hc]
        by_cases e : m = n
        · rw [if_pos e]
          constructor
          · rintro ⟨h1, -⟩; exact absurd e h1
          · rintro ⟨d, hd', h1, -⟩; cases hd'; cases h1
        · rw [if_neg e]; simp [e]
      have rn : ∀ i, Running h n i ↔ i = c.id := by
        intro i
        rw [hf.run]
        constructor
        · rintro ⟨d, hd', -, rfl⟩; rw [hc] at hd'; cases hd'; rfl
        · rintro rfl; exact ⟨c, hc, hl, rfl⟩
      have hhit : ∀ {m : Nat} {d : Call}, (s.calls.set n { c with live := false })[m]? = some d →
          (s.toks[d.tok]? = some true ↔ Hit (.finish n :: h) m) := by
        intro m d hd'
        rw [hh]
        rcases set_call hd' with ⟨rfl, rfl⟩ | ⟨-, hd'⟩
        · exact hf.hit (c := c) hc
        · exact hf.hit hd'
      have hlive : ∀ {m : Nat} {d : Call} {k}, (s.calls.set n { c with live := false })[m]? = some d → d.src = some k → d.live = true := by
        intro m d k hd' hk
        rcases set_call hd' with ⟨rfl, rfl⟩ | ⟨-, hd'⟩
        · have hk' : c.src = some k := hk
          rw [hcs] at hk'; cases hk'
        · exact hf.live hd' hk
      have hinj : ∀ {m m' : Nat} {d d' : Call} {k}, (s.calls.set n { c with live := false })[m]? = some d →
          (s.calls.set n { c with live := false })[m']? = some d' → d.src = some k → d'.src = some k → m = m' := by
        intro m m' d d' k hd1 hd2 hk hk'
        rcases set_call hd1 with ⟨rfl, rfl⟩ | ⟨-, hd1⟩
        · have hk0 : c.src = some k := hk
          rw [hcs] at hk0; cases hk0
        · rcases set_call hd2 with ⟨rfl, rfl⟩ | ⟨-, hd2⟩
          · have hk0 : c.src = some k := hk'
            rw [hcs] at hk0; cases hk0
          · exact hf.inj hd1 hd2 hk hk'
      split
      · rename_i hi
        refine ⟨by simp [hf.len, starts], hrun, ?_, ?_, ?_, hhit, hlive, ?_, hinj⟩
        · intro m d hd' hl' hi'
          rcases set_call hd' with ⟨rfl, rfl⟩ | ⟨-, hd'⟩
          · cases hl'
          · exact hf.map hd' hl' hi'
        · intro m d i hd' hm
          rcases set_call hd' with ⟨rfl, rfl⟩ | ⟨-, hd'⟩
          · have := hs.tokId hc hm
            rw [hi] at this; subst this
            rw [hs.mapNil] at hm; cases hm
          · exact hf.own hd' hm
        · intro i
          rw [poisoned_finish, rn, hf.poison, hi]
          constructor
          · exact fun a => a.1
          · rintro ⟨t, h1, h2⟩
            refine ⟨⟨t, h1, h2⟩, ?_⟩
            rintro rfl
            rw [hs.mapNil] at h1; cases h1
        · intro m d k hd' hk
          rcases set_call hd' with ⟨rfl, rfl⟩ | ⟨-, hd'⟩
          · have hk' : c.src = some k := hk
            rw [hcs] at hk'; cases hk'
          · exact hf.src hd' hk
      · rename_i hi
        refine ⟨by simp [hf.len, starts], hrun, ?_, ?_, ?_, hhit, hlive, ?_, hinj⟩
        · intro m d hd' hl' hi'
          rcases set_call hd' with ⟨rfl, rfl⟩ | ⟨hne, hd'⟩
          · cases hl'
          · simp only [AMap.get_del]
            rw [if_neg]
            · exact hf.map hd' hl' hi'
            · intro e; exact hne (uniq hd' hc hl' hl e hi')
        · intro m d i hd' hm
          simp only [AMap.get_del] at hm
          split at hm
          · cases hm
          · rename_i hne
            rcases set_call hd' with ⟨rfl, rfl⟩ | ⟨-, hd'⟩
            · exact absurd (hs.tokId hc hm).symm hne
            · exact hf.own hd' hm
        · intro i
          rw [poisoned_finish, rn, hf.poison]
          simp only [AMap.get_del]
          by_cases e : i = c.id
          · rw [if_pos e]; simp [e]
          · rw [if_neg e]; simp [e]
        · intro m d k hd' hk
          rcases set_call hd' with ⟨rfl, rfl⟩ | ⟨hne, hd'⟩
          · have hk' : c.src = some k := hk
            rw [hcs] at hk'; cases hk'
          · have h1 := hf.src hd' hk
            refine ⟨?_, h1.2⟩
            simp only [St.sources, AMap.get_del]
            rw [if_neg]
            · exact h1.1
            · intro e
              exact hne (uniq hd' hc (hf.live hd' hk) hl e (e ▸ hi))
    · rw [if_neg hl]
      have nr : ∀ i, ¬ Running h n i := by
        intro i hr
        obtain ⟨d, hd', h1, -⟩ := (hf.run n i).1 hr
        rw [hc] at hd'; cases hd'; exact hl h1
      refine ⟨hf.len, ?_, hf.map, hf.own, ?_, ?_, hf.live, hf.src, hf.inj⟩
      · intro m i
        rw [running_finish, ← hf.run]
        exact ⟨fun a => a.2, fun a => ⟨fun e => nr i (e ▸ a), a⟩⟩
      · intro i
        rw [poisoned_finish, ← hf.poison]
        exact ⟨fun a => a.1, fun a => ⟨a, nr i⟩⟩
      · intro m d hd'; rw [hh]; exact hf.hit hd'

theorem fine_cancel {h : List (Op D)} {s : St} (hs : Sep (Named h) s) (hf : Fine h s) (p : Option (JVal D)) :
    Fine (.cancel p :: h) (s.step (.cancel p)) := by
  have hr : ∀ m i, Running (.cancel p :: h) m i ↔ Running h m i := fun m i => running_other (by simp) (by simp)
  show Fine _ (if idFromParams p = [] then s else s.cancelById (idFromParams p))
  split
  · rename_i he
    have nn : ∀ i, ¬ Names p i := by
      intro i hn
      have := (names_iff p i).1 hn
      exact this.2 (this.1 ▸ he)
    refine ⟨hf.len, fun m i => by rw [hr]; exact hf.run m i, hf.map, hf.own, ?_, ?_, hf.live, hf.src, hf.inj⟩
    · intro i
      rw [poisoned_cancel, ← hf.poison]
      exact ⟨fun a => a.resolve_left (nn i), .inr⟩
    · intro m d hd
      rw [hit_cancel, hf.hit hd]
      constructor
      · exact .inr
      · rintro (⟨i, hn, -⟩ | a)
        · exact absurd hn (nn i)
        · exact a
  · rename_i he
    generalize hq : idFromParams p = q at *
    have nn : ∀ i, Names p i ↔ i = q := by
      intro i
      rw [names_iff, hq]
      exact ⟨fun a => a.1.symm, fun a => ⟨a.symm, a ▸ he⟩⟩
    -- the token flags after the step
    have key : ∀ (toks : List Bool) (m : List (Bytes × Nat)),
        (∀ i, (∃ t, AMap.get m i = some t ∧ toks[t]? = some true) ↔ i = q ∨ ∃ t, AMap.get s.cancelMap i = some t ∧ s.toks[t]? = some true) →
        (∀ {n : Nat} {c : Call}, s.calls[n]? = some c → (toks[c.tok]? = some true ↔ (c.live = true ∧ c.id = q) ∨ s.toks[c.tok]? = some true)) →
        (∀ {n : Nat} {c : Call} {i}, s.calls[n]? = some c → AMap.get m i = some c.tok → AMap.get s.cancelMap i = some c.tok) →
        (∀ {n : Nat} {c : Call}, s.calls[n]? = some c → AMap.get s.cancelMap c.id = some c.tok → AMap.get m c.id = some c.tok) →
        Fine (.cancel p :: h) { s with toks := toks, cancelMap := m,
                                       srcs := (s.sources q).foldl (fun l k => l.set k true) s.srcs } := by
      intro toks m h1 h2 h3 h4
      refine ⟨hf.len, fun m i => by rw [hr]; exact hf.run m i, fun a b c => h4 a (hf.map a b c), fun a b => hf.own a (h3 a b),
        ?_, ?_, hf.live, ?_, hf.inj⟩
      · intro i
        rw [poisoned_cancel, nn, hf.poison, h1]
      · intro n c hc
        rw [hit_cancel, h2 hc, hf.hit hc]
        constructor
        · rintro (⟨hl, hi⟩ | a)
          · exact .inl ⟨q, (nn q).2 rfl, (hf.run n q).2 ⟨c, hc, hl, hi⟩⟩
          · exact .inr a
        · rintro (⟨i, hn, hru⟩ | a)
          · obtain ⟨d, hd, h5, h6⟩ := (hf.run n i).1 hru
            rw [hc] at hd; cases hd
            exact .inl ⟨h5, h6.trans ((nn i).1 hn)⟩
          · exact .inr a
      · intro n c k hc hk
        have h5 := hf.src hc hk
        refine ⟨h5.1, ?_⟩
        rw [foldl_set, h2 hc, ← h5.2]
        constructor
        · rintro (⟨hm, -⟩ | a)
          · exact .inl ⟨hf.live hc hk, hs.srcId hc hk hm⟩
          · exact .inr a
        · rintro (⟨-, hi⟩ | a)
          · exact .inl ⟨hi ▸ h5.1, hs.ownLt hc hk⟩
          · exact .inr a
    unfold St.cancelById
    cases hg : AMap.get s.cancelMap q with
    | none =>
      refine key (s.toks ++ [true]) (AMap.put s.cancelMap q s.toks.length) ?_ ?_ ?_ ?_
      · intro i
        rw [AMap.get_put]
        split
        · rename_i e
          constructor
          · intro _; exact .inl e
          · intro _; exact ⟨_, rfl, (app_true _ _ _).2 (.inl ⟨rfl, rfl⟩)⟩
        · rename_i e
          constructor
          · rintro ⟨t, h1, h2⟩; exact .inr ⟨t, h1, (app_true_lt (hs.mapLt h1)).1 h2⟩
          · rintro (e' | ⟨t, h1, h2⟩)
            · exact absurd e' e
            · exact ⟨t, h1, (app_true_lt (hs.mapLt h1)).2 h2⟩
      · intro n c hc
        rw [app_true_lt (hs.tokLt hc)]
        constructor
        · exact .inr
        · rintro (⟨hl, hi⟩ | a)
          · have := hf.map hc hl (hi ▸ he)
            rw [hi, hg] at this; cases this
          · exact a
      · intro n c i hc hm
        rw [AMap.get_put] at hm
        split at hm
        · have := hs.tokLt hc; have := Option.some.inj hm; omega
        · exact hm
      · intro n c hc hm
        rw [AMap.get_put_ne]
        · exact hm
        · rintro rfl; rw [hg] at hm; cases hm
    | some t0 =>
      refine key (s.toks.set t0 true) s.cancelMap ?_ ?_ (fun _ a => a) (fun _ a => a)
      · intro i
        constructor
        · rintro ⟨t, h1, h2⟩
          rcases (set_true _ _ _).1 h2 with ⟨rfl, -⟩ | h2
          · exact .inl (hs.mapInj h1 hg)
          · exact .inr ⟨t, h1, h2⟩
        · rintro (rfl | ⟨t, h1, h2⟩)
          · exact ⟨t0, hg, (set_true _ _ _).2 (.inl ⟨rfl, hs.mapLt hg⟩)⟩
          · exact ⟨t, h1, (set_true _ _ _).2 (.inr h2)⟩
      · intro n c hc
        rw [set_true]
        constructor
        · rintro (⟨e, -⟩ | a)
          · rw [← e] at hg
            exact .inl ⟨hf.own hc hg, hs.tokId hc hg⟩
          · exact .inr a
        · rintro (⟨hl, hi⟩ | a)
          · have := hf.map hc hl (hi ▸ he)
            rw [hi, hg] at this
            exact .inl ⟨(Option.some.inj this).symm, hs.mapLt hg⟩
          · exact .inr a

theorem fine_init : Fine ([] : List (Op D)) St.init := by
  refine ⟨rfl, ?_, ?_, ?_, ?_, ?_, ?_, ?_, ?_⟩ <;> simp [St.init, Running, Poisoned, AMap.get]

theorem fine_after : ∀ (h : List (Op D)), Distinct h → Fine h (after h)
  | [], _ => fine_init
  | op :: h, hd => by
    have ih := fine_after h hd.1
    have hs := sep_after h
    rw [after_cons]
    cases op with
    | start id => exact fine_start hs ih id (hd.2 id rfl)
    | openSource n => exact fine_open hs ih n
    | closeSource n =>
      have h1 := fine_close ih n
      show Fine _ ((after h).close n)
      exact ⟨h1.len, fun m i => by rw [running_other (by simp) (by simp)]; exact h1.run m i, h1.map, h1.own,
        fun i => by rw [poisoned_keep (by simp) (by simp)]; exact h1.poison i,
        fun hc => by rw [hit_keep (by simp) (by simp)]; exact h1.hit hc, h1.live, h1.src, h1.inj⟩
    | finish n => exact fine_release (sep_close hs n) (fine_close ih n) hd.1 (fun c hc => close_src hc)
    | cancel p => exact fine_cancel hs ih p

theorem cancelled_iff (s : St) (n : Nat) : s.cancelled n = true ↔ ∃ c, s.calls[n]? = some c ∧ s.toks[c.tok]? = some true := by
  unfold St.cancelled
  split
  · rename_i c hc
    rw [hc]
    cases h : s.toks[c.tok]? with
    | none => simp [h]
    | some b => simp [h]
  · rename_i h; simp [h]

theorem call_exists {h : List (Op D)} (hd : Distinct h) {n : Nat} (hn : n < starts h) : ∃ c, (after h).calls[n]? = some c := by
  rw [← (fine_after h hd).len] at hn
  exact ⟨_, List.getElem?_eq_getElem hn⟩

/-- Specification: the id texts of the calls started, in order. -/
def startedIds : List (Op D) → List Bytes
  | [] => []
  | .start id :: h => startedIds h ++ [idText id]
  | _ :: h => startedIds h

theorem map_set_id {l : List Call} {n : Nat} {c c' : Call} (hc : l[n]? = some c) (h : c'.id = c.id) :
    (l.set n c').map Call.id = l.map Call.id := by
  rw [List.map_set, h]
  apply List.ext_getElem?
  intro m
  rw [List.getElem?_set]
  split
  · rename_i e
    subst e
    rw [List.length_map, if_pos (lt_calls hc), List.getElem?_map, hc]; rfl
  · rfl

theorem close_ids (s : St) (n : Nat) : (s.close n).calls.map Call.id = s.calls.map Call.id := by
  unfold St.close
  split
  · rfl
  · rename_i c hc
    split
    · rfl
    · exact map_set_id hc rfl

theorem ids_after (h : List (Op D)) : (after h).calls.map Call.id = startedIds h := by
  induction h with
  | nil => rfl
  | cons op h ih =>
    rw [after_cons]
    cases op with
    | start id =>
      show ((after h).start id).calls.map Call.id = startedIds h ++ [idText id]
      rw [← ih]
      unfold St.start
      simp only
      split
      · simp
      · split <;> simp
    | openSource n =>
      show ((after h).open n).calls.map Call.id = startedIds h
      rw [← ih]
      unfold St.open
      split
      · rfl
      · rename_i c hc
        split
        · exact map_set_id hc rfl
        · rfl
    | closeSource n => exact (close_ids _ n).trans ih
    | finish n =>
      show (((after h).close n).release n).calls.map Call.id = startedIds h
      rw [← ih, ← close_ids (after h) n]
      unfold St.release
      split
      · rfl
      · rename_i c hc
        split
        · split <;> exact map_set_id hc rfl
        · rfl
    | cancel p =>
      show (if idFromParams p = [] then after h else (after h).cancelById (idFromParams p)).calls.map Call.id = startedIds h
      split
      · exact ih
      · unfold St.cancelById
        cases AMap.get (after h).cancelMap (idFromParams p) <;> exact ih

end Verif.Cancel

namespace Verif
open Cancel
open Stdio (idText)

variable {D : Type}

/-- **C26, isolation.** In every interleaving: if a call reads its token as cancelled, some cancellation named the id the call was
started with. -/
theorem C26_only_named (h : List (Op D)) (n : Nat) (hc : (after h).cancelled n = true) :
    ∃ i p, (startedIds h)[n]? = some i ∧ Op.cancel p ∈ h ∧ Names p i := by
  obtain ⟨c, h1, h2⟩ := (cancelled_iff _ _).1 hc
  obtain ⟨p, hp, hq⟩ := (sep_after h).tokN h1 h2
  refine ⟨c.id, p, ?_, hp, hq⟩
  rw [← ids_after, List.getElem?_map, h1]; rfl

/-- **C26, isolation for stop tokens.** The same for the stop token a running handler was given. -/
theorem C26_stop_only_named (h : List (Op D)) (n : Nat) (hc : (after h).stopRequested n = some true) :
    ∃ i p, (startedIds h)[n]? = some i ∧ Op.cancel p ∈ h ∧ Names p i := by
  unfold St.stopRequested at hc
  split at hc
  · rename_i c h1
    rw [Option.map_eq_some_iff] at hc
    obtain ⟨k, hk, ht⟩ := hc
    have ht' : (after h).srcs[k]? = some true := by
      cases e : (after h).srcs[k]? with
      | none => rw [e] at ht; cases ht
      | some b => rw [e] at ht; simp at ht; rw [ht]
    obtain ⟨p, hp, hq⟩ := (sep_after h).srcN h1 hk ht'
    refine ⟨c.id, p, ?_, hp, hq⟩
    rw [← ids_after, List.getElem?_map, h1]; rfl
  · cases hc

/-- **C26 (partial).** When no two calls run under one id at the same time, a call reads its token as cancelled exactly when its id was
cancelled while it ran, or earlier with no call of that id ending in between. Missing: calls that run concurrently under one id, see
`C26_shared_id_counterexample`. -/
theorem C26_exact_partial (h : List (Op D)) (hd : Distinct h) (n : Nat) : (after h).cancelled n = true ↔ Hit h n := by
  rw [cancelled_iff]
  constructor
  · rintro ⟨c, h1, h2⟩; exact ((fine_after h hd).hit h1).1 h2
  · intro hh
    obtain ⟨c, hc⟩ := call_exists hd (hit_lt hh)
    exact ⟨c, hc, ((fine_after h hd).hit hc).2 hh⟩

theorem hit_append {h : List (Op D)} {n : Nat} (hh : Hit h n) : ∀ l : List (Op D), Hit (l ++ h) n
  | [] => hh
  | _ :: l => .inr (.inr (hit_append hh l))

/-- **C26 (partial).** A call that is running when its id is cancelled sees the cancellation from then on. -/
theorem C26_observed_partial (l h : List (Op D)) (p : Option (JVal D)) (n : Nat) (i : Bytes) (hd : Distinct (l ++ .cancel p :: h))
    (hr : Running h n i) (hn : Names p i) : (after (l ++ .cancel p :: h)).cancelled n = true :=
  (C26_exact_partial _ hd n).2 (hit_append (hit_cancel.2 (.inl ⟨i, hn, hr⟩)) l)

/-- **C26 (partial).** While a handler runs, its stop token agrees with the cancellation token of its call, whichever came first. -/
theorem C26_stop_agrees_partial (h : List (Op D)) (hd : Distinct h) (n : Nat) (b : Bool) (hb : (after h).stopRequested n = some b) :
    b = (after h).cancelled n := by
  unfold St.stopRequested at hb
  split at hb
  · rename_i c h1
    rw [Option.map_eq_some_iff] at hb
    obtain ⟨k, hk, ht⟩ := hb
    have h2 := ((fine_after h hd).src h1 hk).2
    have h3 := cancelled_iff (after h) n
    rw [h1] at h3
    have h4 : (∃ d, some c = some d ∧ (after h).toks[d.tok]? = some true) ↔ (after h).srcs[k]? = some true := by
      rw [h2]
      constructor
      · rintro ⟨d, hd', h5⟩; cases hd'; exact h5
      · intro h5; exact ⟨c, rfl, h5⟩
    rw [h4] at h3
    rw [← ht]
    cases e : (after h).srcs[k]? with
    | none => rw [e] at h3; simp at h3; simp [h3]
    | some b' => rw [e] at h3; cases b' <;> simp at h3 <;> simp [h3]
  · cases hb

/-- The parameters of a cancellation of the request with text id `s`. -/
def Cancel.cancelOf (s : Bytes) : Option (JVal D) := some (.obj [(lit "id", .str s)])

example : Distinct (D := Empty) [.cancel (cancelOf (lit "a")), .openSource 0, .start (.int 7), .start (.str (lit "a"))] ∧
    Running (D := Empty) [.openSource 0, .start (.int 7), .start (.str (lit "a"))] 0 (lit "a") ∧
    Names (D := Empty) (cancelOf (lit "a")) (lit "a") ∧
    (after (D := Empty) [.cancel (cancelOf (lit "a")), .openSource 0, .start (.int 7), .start (.str (lit "a"))]).stopRequested 0 = some true ∧
    (after (D := Empty) [.cancel (cancelOf (lit "a")), .openSource 0, .start (.int 7), .start (.str (lit "a"))]).cancelled 1 = false := by
  refine ⟨?_, ?_, .str rfl (by decide), by decide +kernel, by decide +kernel⟩
  · simp [Distinct, Running, idText, lit, intDec, starts]
    decide
  · simp [Running, idText, lit, starts]

/-- **C26 fails** for two calls running under one id: when one ends, a later cancellation of the id no longer reaches the other, whatever
the (non-empty) id. -/
theorem C26_shared_id_counterexample (i : Bytes) (hi : i ≠ []) :
    Running (D := D) [.finish 1, .start (.str i), .start (.str i)] 0 i ∧ Names (D := D) (cancelOf i) i ∧
    (after (D := D) [.cancel (cancelOf i), .finish 1, .start (.str i), .start (.str i)]).cancelled 0 = false := by
  refine ⟨?_, .str rfl hi, ?_⟩
  · simp [Running, idText, starts]
  · simp [after, St.run, St.step, St.init, St.start, idText, hi, AMap.get, AMap.put, AMap.del, St.close, St.release, cancelOf,
      idFromParams, JVal.get?, lit, St.cancelById, St.sources, St.cancelled]

/-- **C26 fails** between ids of different types: cancelling the string id `"7"` cancels the call with the number id 7. -/
theorem C26_text_id_counterexample (k : Int) :
    (after (D := D) [.cancel (cancelOf (intDec k)), .start (.int k)]).cancelled 0 = true := by
  have hi := intDec_ne k
  simp [after, St.run, St.step, St.init, St.start, idText, hi, AMap.get, AMap.put, AMap.del, cancelOf,
      idFromParams, JVal.get?, lit, St.cancelById, St.sources, St.cancelled]

/-- The parenthesis of C26: a cancellation that comes when no call has the id hits the next call that uses it. -/
theorem C26_late_cancel_hits_reuse (i : Bytes) (hi : i ≠ []) :
    (after (D := D) [.start (.str i), .cancel (cancelOf i), .finish 0, .start (.str i)]).cancelled 1 = true := by
  simp [after, St.run, St.step, St.init, St.start, idText, hi, AMap.get, AMap.put, AMap.del, St.close, St.release, cancelOf,
      idFromParams, JVal.get?, lit, St.cancelById, St.sources, St.cancelled]

end Verif
