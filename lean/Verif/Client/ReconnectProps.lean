import Verif.Client.Reconnect
import Verif.Client.CacheProps

/-! C128: what a client lists comes from the server it is connected to. -/

namespace Verif

open Client

variable {D : Type}

namespace Reconnect

/-! ### Specification -/

/-- `d` is what a reply says to call `j`, a listing of `k`. -/
def Said (s : Rc D) (j : Nat) (k : Kind) (d : List (Item D)) : Prop :=
  ∃ c o, s.cache.calls[j]? = some c ∧ c.kind = k ∧ (j, o) ∈ s.replies ∧ k.listing s.cache.strict o = some d

/-- Call `i` lists `k` and has returned `d`. -/
def Returned (s : Rc D) (i : Nat) (k : Kind) (d : List (Item D)) : Prop := s.cache.calls[i]? = some ⟨k, .done (some d)⟩

/-- Every list call has returned. -/
def Quiet (s : Rc D) : Prop := ∀ (i : Nat) c, s.cache.calls[i]? = some c → ∃ r, c.stage = .done r

/-- Nothing cached for `k` may be used after this. -/
def Forgets (k : Kind) : RcOp D → Prop
  | .cache op => Drops k op
  | _ => False

/-- This is not a `Connect`. -/
def Stays : RcOp D → Prop
  | .connect _ => False
  | _ => True

/-! ### Invariants -/

/-- From call `lo` on. -/
def From (s : Rc D) (lo : Nat) (k : Kind) (d : List (Item D)) : Prop := ∃ j, lo ≤ j ∧ Said s j k d

/-- What holds when all before call `lo` have returned and nothing cached before is left for `k`; with `u`, when there is no caching. -/
structure Inv (u : Bool) (lo hi : Nat) (k : Kind) (s : Rc D) : Prop where
  off : u = true → s.cache.ttl = none
  len : lo ≤ s.cache.calls.length
  old : ∀ (i : Nat) c, i < lo → s.cache.calls[i]? = some c → ∃ r, c.stage = .done r
  own : ∀ (i : Nat) k d, s.cache.calls[i]? = some ⟨k, .fetched d⟩ → Said s i k d
  slot : (s.cache.slots k).set = true → u = false ∧ From s lo k (s.cache.slots k).data
  done : ∀ (i : Nat) d, hi ≤ i → Returned s i k d → ∃ j, lo ≤ j ∧ j ≤ i ∧ (u = true → j = i) ∧ Said s j k d

theorem said_mono {s s' : Rc D} (hc : ∀ (j : Nat) c, s.cache.calls[j]? = some c → ∃ c', s'.cache.calls[j]? = some c' ∧ c'.kind = c.kind)
    (hr : ∀ p ∈ s.replies, p ∈ s'.replies) (hs : s'.cache.strict = s.cache.strict) {j : Nat} {k : Kind} {d : List (Item D)} (h : Said s j k d) : Said s' j k d := by
  obtain ⟨c, o, h1, h2, h3, h4⟩ := h
  obtain ⟨c', h5, h6⟩ := hc j c h1
  exact ⟨c', o, h5, h6.trans h2, hr _ h3, by rw [hs]; exact h4⟩

/-- Steps that leave the calls alone and at most clear slots. -/
theorem inv_same {u : Bool} {lo hi : Nat} {k : Kind} {s s' : Rc D} (h : Inv u lo hi k s) (hc : s'.cache.calls = s.cache.calls) (hr : s'.replies = s.replies) (hs : s'.cache.strict = s.cache.strict)
    (ht : u = true → s'.cache.ttl = s.cache.ttl) (hl : (s'.cache.slots k).set = true → s'.cache.slots k = s.cache.slots k) : Inv u lo hi k s' := by
  have mono : ∀ {j k d}, Said s j k d → Said s' j k d := said_mono (by rw [hc]; exact fun j c h => ⟨c, h, rfl⟩) (by rw [hr]; exact fun _ h => h) hs
  refine ⟨fun e => (ht e).trans (h.off e), by rw [hc]; exact h.len, by rw [hc]; exact h.old, by rw [hc]; exact fun i k d hi => mono (h.own i k d hi), fun he => ?_, ?_⟩
  · have e := hl he
    rw [e] at he ⊢
    obtain ⟨hu, j, h1, h2⟩ := h.slot he
    exact ⟨hu, j, h1, mono h2⟩
  · unfold Returned; rw [hc]
    intro i d hi hd
    obtain ⟨j, h1, h2, h4, h3⟩ := h.done i d hi hd
    exact ⟨j, h1, h2, h4, mono h3⟩

theorem inv_list {u : Bool} {lo hi : Nat} {k : Kind} {s : Rc D} (h : Inv u lo hi k s) (q : Kind) : Inv u lo hi k (s.list q) := by
  unfold Rc.list
  split
  · exact inv_same h rfl rfl rfl (fun _ => rfl) (fun _ => rfl)
  · have base : ∀ (x : Call D) (sent : List Kind), (∀ d, x ≠ ⟨x.kind, .fetched d⟩) → 
        (∀ d, x = ⟨k, .done (some d)⟩ → (s.cache.slots k).set = true ∧ d = (s.cache.slots k).data) →
        Inv u lo hi k { s with cache := { s.cache with calls := s.cache.calls ++ [x], sent := sent }, via := s.via ++ [s.cur] } := by
      intro x sent hf hd
      have get : ∀ (i : Nat) c, (s.cache.calls ++ [x])[i]? = some c → (s.cache.calls[i]? = some c) ∨ (i = s.cache.calls.length ∧ c = x) := by
        intro i c hi
        rw [List.getElem?_append] at hi
        split at hi
        · exact .inl hi
        · rename_i hlt
          have : i - s.cache.calls.length = 0 := by
            cases hx : i - s.cache.calls.length with
            | zero => rfl
            | succ n => rw [hx] at hi; simp at hi
          rw [this] at hi
          simp at hi
          exact .inr ⟨by omega, hi.symm⟩
      have mono : ∀ {j k d}, Said s j k d → Said { s with cache := { s.cache with calls := s.cache.calls ++ [x], sent := sent }, via := s.via ++ [s.cur] } j k d :=
        fun {j k d} hsd => by
          refine said_mono (s := s) ?_ ?_ ?_ hsd
          rotate_left
          · exact fun _ h => h
          · rfl
          intro j c hj
          refine ⟨c, ?_, rfl⟩
          show (s.cache.calls ++ [x])[j]? = some c
          rw [List.getElem?_append_left (List.getElem?_eq_some_iff.1 hj).1]; exact hj
      refine ⟨h.off, ?_, ?_, ?_, ?_, ?_⟩
      · have := h.len
        show lo ≤ (s.cache.calls ++ [x]).length
        simp; omega
      · intro i c hi hc
        rcases get i c hc with hc | ⟨rfl, rfl⟩
        · exact h.old i c hi hc
        · have := h.len; omega
      · intro i q' d hc
        rcases get i _ hc with hc | ⟨rfl, hx⟩
        · exact mono (h.own i q' d hc)
        · exact absurd (by rw [← hx]) (hf d)
      · intro he
        obtain ⟨hu, j, h1, h2⟩ := h.slot he
        exact ⟨hu, j, h1, mono h2⟩
      · intro i d hi hc
        rcases get i _ hc with hc | ⟨rfl, hx⟩
        · obtain ⟨j, h1, h2, h4, h3⟩ := h.done i d hi hc
          exact ⟨j, h1, h2, h4, mono h3⟩
        · obtain ⟨e1, e2⟩ := hd d hx.symm
          obtain ⟨hu, j, h1, h2⟩ := h.slot e1
          have hj : j < s.cache.calls.length := by
            obtain ⟨c, o, h3, -⟩ := h2
            exact (List.getElem?_eq_some_iff.1 h3).1
          exact ⟨j, h1, Nat.le_of_lt hj, (by rw [hu]; intro h; cases h), mono (e2 ▸ h2)⟩
    simp only [Cache.step, Cache.call]
    split
    · rename_i d hd
      refine base ⟨q, .done (some d)⟩ s.cache.sent (by intro d h; cases h) ?_
      intro d' he
      cases he
      unfold Cache.hit at hd
      split at hd
      · rename_i hh
        simp only [Bool.and_eq_true] at hh
        cases hd
        exact ⟨hh.1.2, rfl⟩
      · cases hd
    · exact base ⟨q, .waiting⟩ (s.cache.sent ++ [q]) (by intro d h; cases h) (by intro d h; cases h)

theorem inv_reply {u : Bool} {lo hi : Nat} {k : Kind} {s : Rc D} (h : Inv u lo hi k s) (i : Nat) (o : Outcome D) : Inv u lo hi k (s.reply i o) := by
  unfold Rc.reply
  simp only [Cache.step, Cache.reply]
  split
  · rename_i q hw
    have hw' : s.waits i = true := by unfold Rc.waits; rw [hw]
    rw [if_pos hw']
    have hlt := (List.getElem?_eq_some_iff.1 hw).1
    have mono : ∀ {j k d}, Said s j k d →
        Said { s with cache := { s.cache with calls := s.cache.calls.set i ⟨q, afterReply s.cache.strict q o⟩ }, replies := s.replies ++ [(i, o)] } j k d :=
      fun {j k d} hsd => by
        refine said_mono (s := s) ?_ ?_ ?_ hsd
        rotate_left
        · exact fun _ h => List.mem_append_left _ h
        · rfl
        intro j c hj
        show ∃ c', (s.cache.calls.set i ⟨q, afterReply s.cache.strict q o⟩)[j]? = some c' ∧ c'.kind = c.kind
        by_cases e : i = j
        · subst e
          rw [hw] at hj; cases hj
          exact ⟨⟨q, afterReply s.cache.strict q o⟩, List.getElem?_set_self hlt, rfl⟩
        · exact ⟨c, by rw [List.getElem?_set_ne e]; exact hj, rfl⟩
    have get : ∀ (j : Nat) c, (s.cache.calls.set i ⟨q, afterReply s.cache.strict q o⟩)[j]? = some c →
        (j = i ∧ c = ⟨q, afterReply s.cache.strict q o⟩) ∨ s.cache.calls[j]? = some c := by
      intro j c hj
      by_cases e : i = j
      · subst e
        rw [List.getElem?_set_self hlt] at hj
        exact .inl ⟨rfl, (Option.some.inj hj).symm⟩
      · rw [List.getElem?_set_ne e] at hj; exact .inr hj
    refine ⟨h.off, ?_, ?_, ?_, ?_, ?_⟩
    · show lo ≤ (s.cache.calls.set i _).length
      rw [List.length_set]; exact h.len
    · intro j c hj hc
      rcases get j c hc with ⟨rfl, -⟩ | hc
      · obtain ⟨r, hr⟩ := h.old j _ hj hw; cases hr
      · exact h.old j c hj hc
    · intro j q' d hc
      rcases get j _ hc with ⟨rfl, e⟩ | hc
      · injection e with e1 e2
        subst e1
        refine ⟨⟨q', afterReply s.cache.strict q' o⟩, o, ?_, rfl, List.mem_append_right _ List.mem_cons_self, ?_⟩
        · exact List.getElem?_set_self hlt
        · unfold afterReply at e2
          split at e2
          · rename_i d' hd; injection e2 with e2; rw [e2]; exact hd
          · cases e2
      · exact mono (h.own j q' d hc)
    · intro he
      obtain ⟨hu, j, h1, h2⟩ := h.slot he
      exact ⟨hu, j, h1, mono h2⟩
    · intro j d hj hc
      rcases get j _ hc with ⟨rfl, e⟩ | hc
      · injection e with e1 e2
        unfold afterReply at e2
        split at e2 <;> cases e2
      · obtain ⟨m, h1, h2, h4, h3⟩ := h.done j d hj hc
        exact ⟨m, h1, h2, h4, mono h3⟩
  · rename_i hw
    have hw' : s.waits i = false := by
      unfold Rc.waits
      split
      · rename_i q e; exact absurd e (hw q)
      · rfl
    rw [hw']
    exact h

theorem inv_store {u : Bool} {lo hi : Nat} {k : Kind} {s : Rc D} (h : Inv u lo hi k s) (i : Nat) : Inv u lo hi k { s with cache := s.cache.step (.store i) } := by
  simp only [Cache.step, Cache.store]
  split
  · rename_i q items hw
    have hlt := (List.getElem?_eq_some_iff.1 hw).1
    have hlo : lo ≤ i := by
      refine Nat.le_of_not_lt fun hi => ?_
      obtain ⟨r, hr⟩ := h.old i _ hi hw; cases hr
    have mono : ∀ {j k d}, Said s j k d →
        Said { s with cache := { s.cache with slots := s.cache.stored q items, calls := s.cache.calls.set i ⟨q, .done (some items)⟩ } } j k d :=
      fun {j k d} hsd => by
        refine said_mono (s := s) ?_ ?_ ?_ hsd
        rotate_left
        · exact fun _ h => h
        · rfl
        intro j c hj
        show ∃ c', (s.cache.calls.set i ⟨q, .done (some items)⟩)[j]? = some c' ∧ c'.kind = c.kind
        by_cases e : i = j
        · subst e
          rw [hw] at hj; cases hj
          exact ⟨⟨q, .done (some items)⟩, List.getElem?_set_self hlt, rfl⟩
        · exact ⟨c, by rw [List.getElem?_set_ne e]; exact hj, rfl⟩
    have get : ∀ (j : Nat) c, (s.cache.calls.set i ⟨q, .done (some items)⟩)[j]? = some c → (j = i ∧ c = ⟨q, .done (some items)⟩) ∨ s.cache.calls[j]? = some c := by
      intro j c hj
      by_cases e : i = j
      · subst e
        rw [List.getElem?_set_self hlt] at hj
        exact .inl ⟨rfl, (Option.some.inj hj).symm⟩
      · rw [List.getElem?_set_ne e] at hj; exact .inr hj
    refine ⟨h.off, ?_, ?_, ?_, ?_, ?_⟩
    · show lo ≤ (s.cache.calls.set i _).length
      rw [List.length_set]; exact h.len
    · intro j c hj hc
      rcases get j c hc with ⟨rfl, rfl⟩ | hc
      · exact ⟨_, rfl⟩
      · exact h.old j c hj hc
    · intro j q' d hc
      rcases get j _ hc with ⟨rfl, e⟩ | hc
      · cases e
      · exact mono (h.own j q' d hc)
    · show ((s.cache.stored q items k).set = true → u = false ∧ From _ lo k (s.cache.stored q items k).data)
      unfold Cache.stored
      by_cases he : enabled s.cache.ttl = true
      · rw [if_pos he]
        by_cases ek : k = q
        · subst ek
          rw [if_pos rfl]
          exact fun _ => ⟨(by cases u with | false => rfl | true => rw [h.off rfl] at he; cases he), i, hlo, by simpa [Cache.stored, he] using mono (h.own i k items hw)⟩
        · rw [if_neg ek]
          intro hs
          obtain ⟨hu, j, h1, h2⟩ := h.slot hs
          exact ⟨hu, j, h1, by simpa [Cache.stored, he] using mono h2⟩
      · rw [if_neg he]
        intro hs
        obtain ⟨hu, j, h1, h2⟩ := h.slot hs
        exact ⟨hu, j, h1, by simpa [Cache.stored, he] using mono h2⟩
    · intro j d hj hc
      rcases get j _ hc with ⟨rfl, e⟩ | hc
      · injection e with e1 e2
        injection e2 with e2
        injection e2 with e2
        subst e1 e2
        exact ⟨j, hlo, Nat.le_refl _, fun _ => rfl, mono (h.own j _ _ hw)⟩
      · obtain ⟨m, h1, h2, h4, h3⟩ := h.done j d hj hc
        exact ⟨m, h1, h2, h4, mono h3⟩
  · exact h

theorem inv_step {u : Bool} {lo hi : Nat} {k : Kind} {s : Rc D} (h : Inv u lo hi k s) (op : RcOp D) (ho : u = true → ∀ t, op ≠ .cache (.setTtl t)) : Inv u lo hi k (s.step op) := by
  unfold Rc.step
  split
  · exact h
  · match op with
    | .connect ok => exact inv_same h rfl rfl rfl (fun _ => rfl) (fun _ => rfl)
    | .disconnect =>
      show Inv u lo hi k s.disconnect
      unfold Rc.disconnect; split
      · exact h
      · exact inv_same h rfl rfl rfl (fun _ => rfl) (fun _ => rfl)
    | .lost l => exact inv_same h rfl rfl rfl (fun _ => rfl) (fun _ => rfl)
    | .cache (.call q) => exact inv_list h q
    | .cache (.reply i o) => exact inv_reply h i o
    | .cache (.store i) => exact inv_store h i
    | .cache (.tick ns) => exact inv_same h rfl rfl rfl (fun _ => rfl) (fun _ => rfl)
    | .cache (.setTtl t) =>
      simp only [Cache.step, Cache.setTtl]
      split
      · exact inv_same h rfl rfl rfl (fun e => absurd rfl (ho e t)) (fun _ => rfl)
      · exact inv_same h rfl rfl rfl (fun e => absurd rfl (ho e t)) (fun e => by cases e)
    | .cache (.note p t n) =>
      simp only [Cache.step, Cache.note]
      split
      · refine inv_same h rfl rfl rfl (fun _ => rfl) (fun e => ?_)
        show (if invalidates n.method k = true then (s.cache.slots k).clear else s.cache.slots k) = _
        have e' : (if invalidates n.method k = true then (s.cache.slots k).clear else s.cache.slots k).set = true := e
        by_cases hi : invalidates n.method k = true
        · rw [if_pos hi] at e'; cases e'
        · rw [if_neg hi]
      · exact inv_same h rfl rfl rfl (fun _ => rfl) (fun _ => rfl)

theorem inv_run {u : Bool} {lo hi : Nat} {k : Kind} (ops : List (RcOp D)) (ho : u = true → ∀ t, RcOp.cache (.setTtl t) ∉ ops) : ∀ {s : Rc D}, Inv u lo hi k s → Inv u lo hi k (s.run ops) := by
  induction ops with
  | nil => exact fun h => h
  | cons op ops ih => exact fun h => ih (fun e t hm => ho e t (List.mem_cons_of_mem _ hm)) (inv_step h op (fun e t he => ho e t (he ▸ List.mem_cons_self)))

theorem inv_init (u strict : Bool) (k : Kind) : Inv u 0 0 k (Rc.init strict : Rc D) :=
  ⟨fun _ => rfl, Nat.zero_le _, fun _ _ h => absurd h (Nat.not_lt_zero _), (by intro i k d h; simp [Rc.init, Cache.init] at h), (by intro h; cases h),
    (by intro i d _ h; simp [Returned, Rc.init, Cache.init] at h)⟩

/-! ### Which transport -/

/-- Every call has a transport, one that was given to `Connect`, and later calls have no earlier one. -/
structure Via (s : Rc D) : Prop where
  len : s.via.length = s.cache.calls.length
  cur : s.cur = if s.links = [] then none else some (s.links.length - 1)
  le : ∀ (i : Nat) l, s.via[i]? = some l → ∀ n, l = some n → n < s.links.length
  mono : ∀ (i j : Nat) a b, i ≤ j → s.via[i]? = some (some a) → s.via[j]? = some (some b) → a ≤ b

theorem step_len (s : Cache D) (op : CacheOp D) (h : ∀ k, op ≠ .call k) : (s.step op).calls.length = s.calls.length := by
  cases op with
  | tick ns => rfl
  | setTtl t => simp only [Cache.step, Cache.setTtl]; split <;> rfl
  | note p t n => simp only [Cache.step, Cache.note]; split <;> rfl
  | call k => exact absurd rfl (h k)
  | reply i o => simp only [Cache.step, Cache.reply]; split <;> simp
  | store i => simp only [Cache.step, Cache.store]; split <;> simp

theorem call_len (s : Cache D) (k : Kind) : (s.step (.call k)).calls.length = s.calls.length + 1 := by
  simp only [Cache.step, Cache.call]; split <;> simp

theorem via_step {s : Rc D} (h : Via s) (op : RcOp D) : Via (s.step op) := by
  have same : ∀ s' : Rc D, s'.via = s.via → s'.cache.calls.length = s.cache.calls.length → s'.cur = s.cur → s'.links.length = s.links.length → Via s' := by
    intro s' e1 e2 e3 e4
    refine ⟨by rw [e1, e2]; exact h.len, ?_, by rw [e1, e4]; exact h.le, by rw [e1]; exact h.mono⟩
    rw [e3, h.cur, e4]
    by_cases hl : s.links = []
    · have : s'.links = [] := List.length_eq_zero_iff.1 (by rw [e4, hl]; rfl)
      rw [if_pos hl, if_pos this]
    · have : s'.links ≠ [] := fun e => hl (List.length_eq_zero_iff.1 (by rw [← e4, e]; rfl))
      rw [if_neg hl, if_neg this]
  unfold Rc.step
  split
  · exact h
  · match op with
    | .connect ok =>
      refine ⟨h.len, by simp [Rc.connect], ?_, h.mono⟩
      intro i l hi n hn
      have := h.le i l hi n hn
      show n < (s.links ++ [ok]).length
      simp; omega
    | .disconnect =>
      show Via s.disconnect
      unfold Rc.disconnect; split
      · exact h
      · exact same _ rfl rfl rfl (by simp)
    | .lost l => exact same _ rfl rfl rfl (by simp)
    | .cache (.call q) =>
      show Via (s.list q)
      unfold Rc.list
      split
      · exact same _ rfl rfl rfl rfl
      · have last : ∀ (i : Nat) a, (s.via ++ [s.cur])[i]? = some a → s.via[i]? = some a ∨ (s.via.length ≤ i ∧ a = s.cur) := by
          intro i a hi
          rw [List.getElem?_append] at hi
          split at hi
          · exact .inl hi
          · refine .inr ⟨by omega, ?_⟩
            have := List.mem_of_getElem? hi
            simpa using this
        have hcur : ∀ n, s.cur = some n → n = s.links.length - 1 ∧ s.links ≠ [] := by
          intro n hn
          rw [h.cur] at hn
          split at hn
          · cases hn
          · rename_i hl; exact ⟨(Option.some.inj hn).symm, hl⟩
        have hpos : s.links ≠ [] → 0 < s.links.length := fun hl => List.length_pos_iff.2 hl
        refine ⟨by rw [call_len]; simp [h.len], h.cur, ?_, ?_⟩
        · intro i l hi n hn
          show n < s.links.length
          rcases last i l hi with hi | ⟨-, rfl⟩
          · exact h.le i l hi n hn
          · obtain ⟨rfl, hl⟩ := hcur n hn
            have := hpos hl; omega
        · intro i j a b hij ha hb
          rcases last i _ ha with ha | ⟨hi, ha⟩
          · rcases last j _ hb with hb | ⟨-, hb⟩
            · exact h.mono i j a b hij ha hb
            · obtain ⟨rfl, hl⟩ := hcur b hb.symm
              have := h.le i _ ha a rfl
              omega
          · rcases last j _ hb with hb | ⟨-, hb⟩
            · have := (List.getElem?_eq_some_iff.1 hb).1; omega
            · rw [← ha] at hb; cases hb; exact Nat.le_refl _
    | .cache (.reply i o) => exact same _ rfl (step_len _ _ (by simp)) rfl rfl
    | .cache (.store i) => exact same _ rfl (step_len _ _ (by simp)) rfl rfl
    | .cache (.tick ns) => exact same _ rfl (step_len _ _ (by simp)) rfl rfl
    | .cache (.setTtl t) => exact same _ rfl (step_len _ _ (by simp)) rfl rfl
    | .cache (.note p t n) => exact same _ rfl (step_len _ _ (by simp)) rfl rfl

theorem via_run (ops : List (RcOp D)) : ∀ {s : Rc D}, Via s → Via (s.run ops) := by
  induction ops with
  | nil => exact fun h => h
  | cons op ops ih => exact fun h => ih (via_step h op)

theorem via_init (strict : Bool) : Via (Rc.init strict : Rc D) :=
  ⟨rfl, rfl, (by intro i l h; simp [Rc.init] at h), (by intro i j a b _ h; simp [Rc.init] at h)⟩

/-- Without a `Connect` the transport stays, and the calls made are made over it. -/
theorem stay_step {s : Rc D} (op : RcOp D) (h : Stays op) (cur : Option Nat) (lo : Nat) (hc : s.cur = cur) (hv : ∀ (i : Nat) l, lo ≤ i → s.via[i]? = some l → l = cur)
    (hl : s.via.length = s.cache.calls.length) (hlo : lo ≤ s.via.length) :
    (s.step op).cur = cur ∧ (∀ (i : Nat) l, lo ≤ i → (s.step op).via[i]? = some l → l = cur) ∧ lo ≤ (s.step op).via.length := by
  unfold Rc.step
  split
  · exact ⟨hc, hv, hlo⟩
  · match op with
    | .connect ok => exact absurd h (by simp [Stays])
    | .disconnect =>
      show (s.disconnect).cur = cur ∧ _
      unfold Rc.disconnect; split <;> exact ⟨hc, hv, hlo⟩
    | .lost l => exact ⟨hc, hv, hlo⟩
    | .cache (.call q) =>
      show (s.list q).cur = cur ∧ (∀ (i : Nat) l, lo ≤ i → (s.list q).via[i]? = some l → l = cur) ∧ lo ≤ (s.list q).via.length
      unfold Rc.list
      split
      · exact ⟨hc, hv, hlo⟩
      · refine ⟨hc, fun i l hi hg => ?_, by simp; omega⟩
        have hg : (s.via ++ [s.cur])[i]? = some l := hg
        rw [List.getElem?_append] at hg
        split at hg
        · exact hv i l hi hg
        · have := List.mem_of_getElem? hg
          simp at this
          rw [this, hc]
    | .cache (.reply i o) => exact ⟨hc, hv, hlo⟩
    | .cache (.store i) => exact ⟨hc, hv, hlo⟩
    | .cache (.tick ns) => exact ⟨hc, hv, hlo⟩
    | .cache (.setTtl t) => exact ⟨hc, hv, hlo⟩
    | .cache (.note p t n) => exact ⟨hc, hv, hlo⟩

theorem stay_run (ops : List (RcOp D)) (cur : Option Nat) (lo : Nat) : ∀ {s : Rc D}, (∀ op ∈ ops, Stays op) → s.cur = cur → (∀ (i : Nat) l, lo ≤ i → s.via[i]? = some l → l = cur) → Via s →
    lo ≤ s.via.length → (s.run ops).cur = cur ∧ ∀ (i : Nat) l, lo ≤ i → (s.run ops).via[i]? = some l → l = cur := by
  induction ops with
  | nil => exact fun _ h1 h2 _ _ => ⟨h1, h2⟩
  | cons op ops ih =>
    intro s hs h1 h2 h3 h4
    obtain ⟨a, b, c⟩ := stay_step (s := s) op (hs op List.mem_cons_self) cur lo h1 h2 h3.len h4
    exact ih (fun o ho => hs o (List.mem_cons_of_mem _ ho)) a b (via_step h3 op) c

theorem run_append (s : Rc D) (a b : List (RcOp D)) : s.run (a ++ b) = (s.run a).run b := by unfold Rc.run; rw [List.foldl_append]

theorem said_via {s : Rc D} (h : Via s) {j : Nat} {k : Kind} {d : List (Item D)} (hs : Said s j k d) : ∃ l, s.via[j]? = some l := by
  obtain ⟨c, o, h1, -⟩ := hs
  have := (List.getElem?_eq_some_iff.1 h1).1
  rw [← h.len] at this
  exact ⟨s.via[j], List.getElem?_eq_getElem this⟩

theorem forgets_step {s : Rc D} (hu : s.undefined = false) (k : Kind) (op : RcOp D) (h : Forgets k op) : ((s.step op).cache.slots k).set = false ∧ (s.step op).cache.calls = s.cache.calls ∧
    (s.step op).replies = s.replies ∧ (s.step op).cache.strict = s.cache.strict := by
  match op with
  | .connect _ | .disconnect | .lost _ => exact absurd h (by simp [Forgets])
  | .cache op =>
    have hd : Drops k op := h
    cases op with
    | setTtl t =>
      refine ⟨?_, ?_, ?_, ?_⟩
      · simpa [Rc.step, hu] using slot_drop s.cache _ k hd
      all_goals simp only [Rc.step, hu, Cache.step, Cache.setTtl, Bool.false_eq_true, if_false] <;> split <;> rfl
    | note p t n =>
      refine ⟨?_, ?_, ?_, ?_⟩
      · simpa [Rc.step, hu] using slot_drop s.cache _ k hd
      all_goals simp only [Rc.step, hu, Cache.step, Cache.note, Bool.false_eq_true, if_false] <;> split <;> rfl
    | _ => exact absurd hd (by simp [Drops])

theorem cache_of_step (s : Rc D) (op : RcOp D) : (s.step op).cache = s.cache ∨ ∃ o, (s.step op).cache = s.cache.step o := by
  unfold Rc.step
  split
  · exact .inl rfl
  · match op with
    | .connect ok => exact .inl rfl
    | .disconnect =>
      show s.disconnect.cache = _ ∨ _
      unfold Rc.disconnect; split <;> exact .inl rfl
    | .lost l => exact .inl rfl
    | .cache (.call q) =>
      show (s.list q).cache = s.cache ∨ ∃ o, (s.list q).cache = s.cache.step o
      unfold Rc.list
      split
      · exact .inl rfl
      · exact .inr ⟨.call q, rfl⟩
    | .cache (.reply i o) => exact .inr ⟨.reply i o, rfl⟩
    | .cache (.store i) => exact .inr ⟨.store i, rfl⟩
    | .cache (.tick ns) => exact .inr ⟨.tick ns, rfl⟩
    | .cache (.setTtl t) => exact .inr ⟨.setTtl t, rfl⟩
    | .cache (.note p t n) => exact .inr ⟨.note p t n, rfl⟩

theorem done_keeps (ops : List (RcOp D)) : ∀ {s : Rc D} {i : Nat} {k : Kind} {r : Option (List (Item D))}, s.cache.calls[i]? = some ⟨k, .done r⟩ →
    (s.run ops).cache.calls[i]? = some ⟨k, .done r⟩ := by
  induction ops with
  | nil => exact fun h => h
  | cons op ops ih =>
    intro s i k r h
    refine ih (s := s.step op) ?_
    rcases cache_of_step s op with e | ⟨o, e⟩
    · rw [e]; exact h
    · rw [e]; exact done_stays [o] s.cache i k r h

theorem undefined_stays (l : List (RcOp D)) : ∀ s : Rc D, s.undefined = true → s.run l = s := by
  induction l with
  | nil => exact fun _ _ => rfl
  | cons o l ih =>
    intro s hs
    show (s.step o).run l = s
    have : s.step o = s := by simp [Rc.step, hs]
    rw [this]; exact ih s hs

end Reconnect

open Reconnect

/-- In every execution: what a list call returned is what a server said in reply to a list call of that kind, itself or one before it, over the transport in use or an earlier one. Missing to the
claim: that it is the one in use. -/
theorem C128_said_partial (strict : Bool) (ops : List (RcOp D)) (i : Nat) (k : Kind) (d : List (Item D)) (h : Returned ((Rc.init strict).run ops) i k d) :
    ∃ j, j ≤ i ∧ Said ((Rc.init strict).run ops) j k d ∧
      ∀ a b, ((Rc.init strict).run ops).via[j]? = some (some a) → ((Rc.init strict).run ops).via[i]? = some (some b) → a ≤ b := by
  obtain ⟨j, -, hj, -, hs⟩ := (inv_run (u := false) ops (fun e => nomatch e) (inv_init false strict k)).done i d (Nat.zero_le _) h
  exact ⟨j, hj, hs, fun a b ha hb => (via_run ops (via_init strict)).mono j i a b hj ha hb⟩

/-- Two listings, the second from the cache. -/
example : Returned ((Rc.init false : Rc Empty).run [.connect true, .cache (.setTtl (some 5)), .cache (.call .tools), .cache (.reply 0 (.resp ⟨.int 1, some (.obj [(lit "tools", .arr [])]), none⟩)),
    .cache (.store 0), .cache (.call .tools)]) 1 .tools [] := by rfl

/-- A client that waits for its list calls before it is connected anew gets listings of the new server, and of no server before it, as soon as something has made it drop what it had: caching
switched off, or the notification that the listing has changed, which a server of this library sends before it answers `initialize`. -/
theorem C128_current_partial (strict : Bool) (a b c : List (RcOp D)) (ok : Bool) (drop : RcOp D) (k : Kind)
    (hq : Quiet ((Rc.init strict).run a)) (hb : ∀ op ∈ b, Stays op) (hc : ∀ op ∈ c, Stays op) (hd : Forgets k drop)
    (hu : ((Rc.init strict).run (a ++ .connect ok :: b)).undefined = false) (i : Nat) (d : List (Item D))
    (hi : ((Rc.init strict).run (a ++ .connect ok :: b)).cache.calls.length ≤ i)
    (h : Returned ((Rc.init strict).run ((a ++ .connect ok :: b) ++ drop :: c)) i k d) :
    ∃ j n, Said ((Rc.init strict).run ((a ++ .connect ok :: b) ++ drop :: c)) j k d ∧ ((Rc.init strict).run ((a ++ .connect ok :: b) ++ drop :: c)).via[j]? = some (some n) ∧
      ((Rc.init strict).run ((a ++ .connect ok :: b) ++ drop :: c)).cur = some n ∧ n = ((Rc.init strict).run a).links.length := by
  have hua : ((Rc.init strict : Rc D).run a).undefined = false := by
    cases hx : ((Rc.init strict : Rc D).run a).undefined with
    | false => rfl
    | true => rw [run_append, undefined_stays _ _ hx, hx] at hu; cases hu
  have v0 := via_run a (via_init (D := D) strict)
  have g2 := inv_run (u := false) (a ++ .connect ok :: b) (fun e => nomatch e) (inv_init (D := D) false strict k)
  have v4 := via_run ((a ++ .connect ok :: b) ++ drop :: c) (via_init (D := D) strict)
  have hold : ∀ (i : Nat) x, ((Rc.init strict : Rc D).run a).cache.calls[i]? = some x → ((Rc.init strict : Rc D).run (a ++ .connect ok :: b)).cache.calls[i]? = some x := by
    intro i x hx
    obtain ⟨r, hr⟩ := hq i x hx
    rw [run_append]
    obtain ⟨q, st⟩ := x
    cases hr
    exact done_keeps _ hx
  have hlen : ((Rc.init strict : Rc D).run a).cache.calls.length ≤ ((Rc.init strict : Rc D).run (a ++ .connect ok :: b)).cache.calls.length := by
    refine Nat.le_of_not_lt fun hlt => ?_
    have h1 := hold _ _ (List.getElem?_eq_getElem hlt)
    have := (List.getElem?_eq_some_iff.1 h1).1
    omega
  -- the transport
  have hst : ∀ op ∈ b ++ drop :: c, Stays op := by
    intro op ho
    rcases List.mem_append.1 ho with ho | ho
    · exact hb op ho
    · rcases List.mem_cons.1 ho with rfl | ho
      · match op, hd with
        | .cache _, _ => trivial
      · exact hc op ho
  have hcur : ((Rc.init strict : Rc D).run ((a ++ .connect ok :: b) ++ drop :: c)).cur = some ((Rc.init strict : Rc D).run a).links.length ∧
      ∀ (i : Nat) l, ((Rc.init strict : Rc D).run a).cache.calls.length ≤ i → ((Rc.init strict : Rc D).run ((a ++ .connect ok :: b) ++ drop :: c)).via[i]? = some l →
        l = some ((Rc.init strict : Rc D).run a).links.length := by
    have e : (a ++ .connect ok :: b) ++ drop :: c = a ++ (.connect ok :: (b ++ drop :: c)) := by simp
    rw [e, run_append]
    generalize (Rc.init strict : Rc D).run a = s0 at *
    have e1 : s0.step (.connect ok) = s0.connect ok := by simp [Rc.step, hua]
    show ((s0.step (.connect ok)).run _).cur = _ ∧ (∀ (i : Nat) l, _ → ((s0.step (.connect ok)).run _).via[i]? = some l → _)
    rw [e1]
    refine stay_run _ _ _ hst rfl ?_ ?_ ?_
    · intro i l hi hl
      have hl : s0.via[i]? = some l := hl
      have := (List.getElem?_eq_some_iff.1 hl).1
      rw [v0.len] at this; omega
    · rw [← e1]; exact via_step v0 _
    · show _ ≤ s0.via.length
      rw [v0.len]; exact Nat.le_refl _
  -- the cache
  have key : Reconnect.Inv false ((Rc.init strict : Rc D).run a).cache.calls.length ((Rc.init strict : Rc D).run (a ++ .connect ok :: b)).cache.calls.length k
      ((Rc.init strict : Rc D).run ((a ++ .connect ok :: b) ++ drop :: c)) := by
    rw [run_append (Rc.init strict) (a ++ .connect ok :: b) (drop :: c)]
    refine inv_run (u := false) c (fun e => nomatch e) (s := ((Rc.init strict : Rc D).run (a ++ .connect ok :: b)).step drop) ?_
    obtain ⟨f1, f2, f3, f4⟩ := forgets_step hu k drop hd
    refine ⟨(fun e => nomatch e), by rw [f2]; exact hlen, ?_, ?_, ?_, ?_⟩
    · rw [f2]
      intro i x hlt hx
      have h1 := hold i _ (List.getElem?_eq_getElem hlt)
      rw [h1] at hx; cases hx
      exact hq i _ (List.getElem?_eq_getElem hlt)
    · rw [f2]
      intro i q d hx
      exact said_mono (by rw [f2]; exact fun j c h => ⟨c, h, rfl⟩) (by rw [f3]; exact fun _ h => h) f4 (g2.own i q d hx)
    · rw [f1]; intro h; cases h
    · unfold Returned; rw [f2]
      intro i d hi hx
      have := (List.getElem?_eq_some_iff.1 hx).1
      omega
  obtain ⟨j, h1, -, -, h3⟩ := key.done i d hi h
  obtain ⟨l, hl⟩ := said_via v4 h3
  have := hcur.2 j l h1 hl
  subst this
  exact ⟨j, _, h3, hl, hcur.1, rfl⟩

/-- Reconnected, announced, asked twice: the second answer is from the cache. -/
example : let a : List (RcOp Empty) := [.connect true, .cache (.setTtl (some 5)), .cache (.call .tools), .cache (.reply 0 (.resp ⟨.int 1, some (.obj [(lit "tools", .arr [])]), none⟩)),
      .cache (.store 0), .disconnect]
    let c : List (RcOp Empty) := [.cache (.call .tools), .cache (.reply 1 (.resp ⟨.int 2, some (.obj [(lit "tools", .arr [.null])]), none⟩)), .cache (.store 1), .cache (.call .tools)]
    let s := (Rc.init false).run ((a ++ .connect true :: []) ++ .cache (.note false false ⟨lit "notifications/tools/list_changed", none⟩) :: c)
    Forgets .tools (.cache (.note false false ⟨lit "notifications/tools/list_changed", none⟩) : RcOp Empty) ∧ Returned s 2 .tools [.tool (Items.readTool [])] ∧ s.via = [some 0, some 1, some 1] := by
  refine ⟨rfl, rfl, rfl⟩

/-- A client without caching gets each listing from the server it was connected to when it asked. -/
theorem C128_uncached_partial (strict : Bool) (ops : List (RcOp D)) (ho : ∀ t, RcOp.cache (.setTtl t) ∉ ops) (i : Nat) (k : Kind) (d : List (Item D))
    (h : Returned ((Rc.init strict).run ops) i k d) : Said ((Rc.init strict).run ops) i k d := by
  obtain ⟨j, -, -, h1, h2⟩ := (inv_run ops (fun _ => ho) (inv_init true strict k)).done i d (Nat.zero_le _) h
  rw [h1 rfl] at h2
  exact h2

/-- Asked over one connection, and again over the next. -/
example : let ops : List (RcOp Empty) := [.connect true, .cache (.call .tools), .cache (.reply 0 (.resp ⟨.int 1, some (.obj [(lit "tools", .arr [])]), none⟩)), .cache (.store 0), .disconnect,
      .connect true, .cache (.call .tools), .cache (.reply 1 (.resp ⟨.int 1, some (.obj [(lit "tools", .arr [.null])]), none⟩)), .cache (.store 1)]
    (∀ t, RcOp.cache (.setTtl t) ∉ ops) ∧ Returned ((Rc.init false).run ops) 1 .tools [.tool (Items.readTool [])] := by
  refine ⟨by simp, rfl⟩

/-- `IsConnected` is what the transport in use says: false before the first `Connect` and after `Disconnect`. -/
theorem C128_connected (strict : Bool) (ops : List (RcOp D)) (hu : ((Rc.init strict : Rc D).run ops).undefined = false) (ok : Bool) :
    ((Rc.init strict : Rc D).run (ops ++ [.connect ok])).isConnected = ok ∧ ((Rc.init strict : Rc D).run (ops ++ [.disconnect])).isConnected = false := by
  rw [run_append, run_append]
  have v := via_run ops (via_init (D := D) strict)
  generalize (Rc.init strict : Rc D).run ops = s at *
  constructor
  · show (s.step (.connect ok)).isConnected = ok
    simp [Rc.step, hu, Rc.connect, Rc.isConnected]
  · show (s.step .disconnect).isConnected = false
    simp only [Rc.step, hu, Rc.disconnect, Bool.false_eq_true, if_false]
    split
    · rename_i e; simp [Rc.isConnected, e]
    · rename_i l e
      simp only [Rc.isConnected, e]
      by_cases hl : l < s.links.length
      · rw [List.getElem?_set_self hl]; rfl
      · rw [List.getElem?_eq_none (by simp; omega)]; rfl

example : ((Rc.init false : Rc Empty).run [.connect true, .lost 0]).isConnected = false := by decide

/-- A listing that is cached outlives the connection it came over: a client that is connected to another server within the time to live is given the listing of the server before. -/
theorem C128_cached_counterexample (strict : Bool) (k : Kind) (t : Nat) (hp : 0 < t) (ht : t < 2 ^ 63) (o : Outcome D) (d : List (Item D)) (ho : k.listing strict o = some d) :
    let s := (Rc.init strict : Rc D).run [.connect true, .cache (.setTtl (some t)), .cache (.call k), .cache (.reply 0 o), .cache (.store 0), .disconnect, .connect true, .cache (.call k)]
    Returned s 1 k d ∧ s.via = [some 0, some 1] ∧ s.cur = some 1 ∧ s.replies = [(0, o)] := by
  have he : enabled (some t) = true := by simp [enabled, hp]
  have hf : fresh 0 0 (some t) = true := by
    rw [fresh_iff 0 0 t (by omega)]
    exact ⟨ht, by simp⟩
  have hh : (Cache.hit (D := D) ⟨strict, 0, none, fun _ => ⟨[], 0, false⟩, [], []⟩ k).isNone = true := by simp [Cache.hit]
  simp [Rc.run, Rc.step, Rc.init, Rc.connect, Rc.disconnect, Rc.list, Rc.reply, Rc.waits, Cache.init, Cache.step, Cache.setTtl, Cache.call, Cache.hit, Cache.reply, Cache.store, Cache.stored,
    afterReply, ho, he, hf, Returned]

/-- A listing that is cut off by `Disconnect` ends as an empty one and is cached, also when that comes after the next server has announced its listings: the client is then given an empty listing no
server has sent. -/
theorem C128_cut_off_counterexample (strict : Bool) (k : Kind) (t : Nat) (hp : 0 < t) (ht : t < 2 ^ 63) (id : RpcId) (e : JVal D) :
    let s := (Rc.init strict : Rc D).run [.connect true, .cache (.setTtl (some t)), .cache (.call k), .disconnect, .cache (.reply 0 (.resp ⟨id, none, some e⟩)), .connect true,
      .cache (.note false false ⟨changedMethod k, none⟩), .cache (.store 0), .cache (.call k)]
    Returned s 1 k [] ∧ s.via = [some 0, some 1] ∧ s.cur = some 1 := by
  have he : enabled (some t) = true := by simp [enabled, hp]
  have hf : fresh 0 0 (some t) = true := by
    rw [fresh_iff 0 0 t (by omega)]
    exact ⟨ht, by simp⟩
  have hl : k.listing strict (.resp ⟨id, none, some e⟩ : Outcome D) = some [] := rfl
  have hr : reaches false false (⟨changedMethod k, none⟩ : Notification D) = true := changed_reaches k _ _ _ rfl
  simp [Rc.run, Rc.step, Rc.init, Rc.connect, Rc.disconnect, Rc.list, Rc.reply, Rc.waits, Cache.init, Cache.step, Cache.setTtl, Cache.call, Cache.hit, Cache.reply, Cache.store, Cache.stored,
    Cache.note, hr, afterReply, hl, he, hf, Returned]

/-- A listing asked for before `Connect` goes through a null pointer. -/
theorem C128_unconnected_counterexample (strict : Bool) (k : Kind) : ((Rc.init strict : Rc D).run [.cache (.call k)]).undefined = true := by
  simp [Rc.run, Rc.step, Rc.init, Rc.list, Cache.init, Cache.hit, enabled]

end Verif
