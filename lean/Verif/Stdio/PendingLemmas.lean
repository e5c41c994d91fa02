import Verif.Base.Lemmas
import Verif.Stdio.PendingModel

/-! Helper lemmas for C13: invariants of the pending-request table. -/

namespace Verif.Stdio

variable {D : Type}

theorem map_snd_del {K V : Type} [DecidableEq K] {m : List (K × V)} {k : K} {v : V} (hn : (AMap.keys m).Nodup)
    (h : AMap.get m k = some v) : (m.map (·.2)).Perm (v :: (AMap.del m k).map (·.2)) := by
  induction m with
  | nil => cases h
  | cons p m ih =>
    simp only [AMap.keys, List.map_cons, List.nodup_cons] at hn
    rw [AMap.get_cons] at h
    split at h
    · rename_i hp
      simp only [Option.some.injEq] at h
      have hd : AMap.del (p :: m) k = m := by
        have : AMap.del m k = m := AMap.del_of_not_mem (by rw [← hp]; exact hn.1)
        unfold AMap.del at *
        rw [List.filter_cons, if_neg (by simp [hp]), this]
      rw [hd, List.map_cons, h]
    · rename_i hp
      have hd : AMap.del (p :: m) k = p :: AMap.del m k := by
        unfold AMap.del
        rw [List.filter_cons, if_pos (by simp [hp])]
      rw [hd, List.map_cons, List.map_cons]
      exact ((ih hn.2 h).cons _).trans (List.Perm.swap _ _ _)

theorem map_fst_del {V : Type} {m : List (Nat × V)} {k : Nat} {v : V} (hn : (AMap.keys m).Nodup)
    (h : AMap.get m k = some v) : (m.map (·.1)).Perm (k :: (AMap.del m k).map (·.1)) := by
  induction m with
  | nil => cases h
  | cons p m ih =>
    simp only [AMap.keys, List.map_cons, List.nodup_cons] at hn
    rw [AMap.get_cons] at h
    split at h
    · rename_i hp
      have hd : AMap.del (p :: m) k = m := by
        have : AMap.del m k = m := AMap.del_of_not_mem (by rw [← hp]; exact hn.1)
        unfold AMap.del at *
        rw [List.filter_cons, if_neg (by simp [hp]), this]
      rw [hd, List.map_cons, hp]
    · rename_i hp
      have hd : AMap.del (p :: m) k = p :: AMap.del m k := by
        unfold AMap.del
        rw [List.filter_cons, if_pos (by simp [hp])]
      rw [hd, List.map_cons, List.map_cons]
      exact ((ih hn.2 h).cons _).trans (List.Perm.swap _ _ _)

/-- Every future ever created is in exactly one place: waiting to insert, pending, or completed. -/
def P.all (s : P D) : List Nat := s.checked.map (·.1) ++ s.pending.map (·.2) ++ s.outcomes.map (·.1)

structure P.Inv (s : P D) : Prop where
  keys : (AMap.keys s.pending).Nodup
  conserve : s.all.Perm (List.range s.nextFut)
  /-- A pending future was sent under its key, and the deadline table holds its deadline. -/
  pend : ∀ k n, (k, n) ∈ s.pending → ∃ dl, (n, k, dl) ∈ s.sent ∧ AMap.get s.deadlines k = some dl
  sentBound : ∀ x ∈ s.sent, x.1 < s.nextFut
  sentFun : (s.sent.map (·.1)).Nodup
  sentChecked : ∀ x ∈ s.sent, x.1 ∉ s.checked.map (·.1)
  match_ : ∀ n r, (n, Outcome.response r) ∈ s.outcomes → ∃ dl, (n, idText r.id, dl) ∈ s.sent
  late : ∀ n k t, (n, Outcome.timeout k t) ∈ s.outcomes → ∃ dl, (n, k, dl) ∈ s.sent ∧ dl ≤ t
  closedId : ∀ n k, (n, Outcome.closed k) ∈ s.outcomes → ∃ dl, (n, k, dl) ∈ s.sent
  dlKeys : (AMap.keys s.deadlines).Nodup
  nonempty : ∀ k n, (k, n) ∈ s.pending → k ≠ []

theorem inv_init : (P.init : P D).Inv := by
  constructor <;> simp [P.init, P.all, AMap.keys]

theorem P.Inv.nodup {s : P D} (h : s.Inv) : s.all.Nodup := h.conserve.nodup_iff.2 List.nodup_range

theorem P.Inv.checkedKeys {s : P D} (h : s.Inv) : (AMap.keys s.checked).Nodup := by
  have := h.nodup
  unfold P.all at this
  rw [List.append_assoc, List.nodup_append] at this
  exact this.1

theorem chooseKey_ne_nil (id : RpcId) (c : Nat) : (chooseKey id c).1 ≠ [] := by
  unfold chooseKey
  cases id with
  | str s => simp only; split
             · simp [genId, lit]
             · assumption
  | int i =>
    simp only [intDec]
    cases i with
    | ofNat n => exact natDec_ne_nil n
    | negSucc n => simp
  | null => simp [genId, lit]

/-- Completing an entry with an outcome that fits. -/
theorem inv_complete {s : P D} (h : s.Inv) (key : Bytes) (o : Outcome D)
    (h1 : ∀ r, o = .response r → idText r.id = key)
    (h2 : ∀ k t, o = .timeout k t → k = key ∧ ∀ dl, AMap.get s.deadlines key = some dl → dl ≤ t)
    (h3 : ∀ k, o = .closed k → k = key) : (s.complete key o).Inv := by
  unfold P.complete
  cases hg : AMap.get s.pending key with
  | none =>
    simp only
    refine ⟨h.keys, h.conserve, ?_, h.sentBound, h.sentFun, h.sentChecked, h.match_, h.late, h.closedId, AMap.nodup_del _ h.dlKeys, h.nonempty⟩
    intro k n hk
    obtain ⟨dl, ha, hb⟩ := h.pend k n hk
    refine ⟨dl, ha, ?_⟩
    rw [AMap.get_del_ne _ ?_]; exact hb
    intro e; subst e
    exact (AMap.get_none_iff.1 hg) (List.mem_map.2 ⟨_, hk, rfl⟩)
  | some n =>
    simp only
    have hmem := AMap.get_some_mem hg
    obtain ⟨dl, hsent, hdl⟩ := h.pend key n hmem
    refine ⟨AMap.nodup_del _ h.keys, ?_, ?_, h.sentBound, h.sentFun, h.sentChecked, ?_, ?_, ?_, AMap.nodup_del _ h.dlKeys, ?_⟩
    · refine List.Perm.trans ?_ h.conserve
      have hp := map_snd_del h.keys hg
      unfold P.all
      simp only [List.map_append, List.map_cons, List.map_nil]
      rw [List.append_assoc, List.append_assoc]
      refine List.Perm.append_left _ ?_
      refine List.Perm.trans ?_ (hp.symm.append_right _)
      rw [List.cons_append, ← List.append_assoc]
      exact List.perm_append_singleton _ _
    · intro k m hk
      have hk' := AMap.mem_del.1 hk
      obtain ⟨dl', ha, hb⟩ := h.pend k m hk'.1
      exact ⟨dl', ha, by rw [AMap.get_del_ne _ hk'.2]; exact hb⟩
    · intro m r hm
      simp only [List.mem_append, List.mem_singleton, Prod.mk.injEq] at hm
      rcases hm with hm | ⟨rfl, hm⟩
      · exact h.match_ m r hm
      · rw [h1 r hm.symm]; exact ⟨dl, hsent⟩
    · intro m k t hm
      simp only [List.mem_append, List.mem_singleton, Prod.mk.injEq] at hm
      rcases hm with hm | ⟨rfl, hm⟩
      · exact h.late m k t hm
      · obtain ⟨e, hle⟩ := h2 k t hm.symm
        rw [e]; exact ⟨dl, hsent, hle dl hdl⟩
    · intro m k hm
      simp only [List.mem_append, List.mem_singleton, Prod.mk.injEq] at hm
      rcases hm with hm | ⟨rfl, hm⟩
      · exact h.closedId m k hm
      · rw [h3 k hm.symm]; exact ⟨dl, hsent⟩
    · intro k m hk
      exact h.nonempty k m (AMap.mem_del.1 hk).1

theorem complete_deadline {s : P D} {key k : Bytes} {o : Outcome D} (h : k ≠ key) :
    AMap.get (s.complete key o).deadlines k = AMap.get s.deadlines k := by
  unfold P.complete
  split <;> exact AMap.get_del_ne _ h

theorem inv_sweepList (now : Nat) : ∀ (ks : List Bytes) (s : P D), s.Inv → ks.Nodup →
    (∀ k ∈ ks, ∀ dl, AMap.get s.deadlines k = some dl → dl ≤ now) →
    (ks.foldl (fun s k => s.complete k (.timeout k now)) s).Inv
  | [], _, h, _, _ => h
  | k :: ks, s, h, hn, hk => by
    rw [List.nodup_cons] at hn
    refine inv_sweepList now ks _ (inv_complete h k _ (by simp) ?_ (by simp)) hn.2 ?_
    · intro k' t e
      simp only [Outcome.timeout.injEq] at e
      obtain ⟨rfl, rfl⟩ := e
      exact ⟨rfl, hk k (by simp)⟩
    · intro k' hk' dl hdl
      have hne : k' ≠ k := by rintro rfl; exact hn.1 hk'
      rw [complete_deadline hne] at hdl
      exact hk k' (by simp [hk']) dl hdl

theorem inv_sweep {s : P D} (h : s.Inv) (now : Nat) : (s.sweep now).Inv := by
  unfold P.sweep
  split
  · refine inv_sweepList now _ s h ?_ ?_
    · exact h.dlKeys.sublist (List.Sublist.map _ List.filter_sublist)
    · intro k hk dl hdl
      simp only [P.expired, List.mem_map, List.mem_filter, decide_eq_true_eq] at hk
      obtain ⟨⟨k', d⟩, ⟨hm, hle⟩, rfl⟩ := hk
      have := AMap.mem_get h.dlKeys hm
      simp only at hdl this
      rw [this] at hdl
      simp only [Option.some.injEq] at hdl
      subst hdl
      exact hle
  · exact h

theorem inv_sendInsert {s : P D} (h : s.Inv) (fut now : Nat) : (s.sendInsert fut now).Inv := by
  unfold P.sendInsert P.waiting
  cases hw : AMap.get s.checked fut with
  | none => exact h
  | some id =>
    simp only
    have hkn := chooseKey_ne_nil id s.counter
    generalize chooseKey id s.counter = kc at *
    have hfm := AMap.get_some_mem hw
    have hfall : fut ∈ s.all := by
      unfold P.all; simp only [List.mem_append, List.mem_map]
      exact Or.inl (Or.inl ⟨_, hfm, rfl⟩)
    have hlt : fut < s.nextFut := List.mem_range.1 (h.conserve.mem_iff.1 hfall)
    have hfresh : fut ∉ s.sent.map (·.1) := by
      intro hm
      obtain ⟨x, hx, e⟩ := List.mem_map.1 hm
      exact h.sentChecked x hx (List.mem_map.2 ⟨_, hfm, e.symm⟩)
    have hc := map_fst_del h.checkedKeys hw
    refine ⟨AMap.nodup_put _ _ h.keys, ?_, ?_, ?_, ?_, ?_, ?_, ?_, ?_, AMap.nodup_put _ _ h.dlKeys, ?_⟩
    · refine List.Perm.trans ?_ h.conserve
      unfold P.all
      simp only [AMap.put, List.map_append, List.map_cons, List.map_nil]
      cases hg : AMap.get s.pending kc.1 with
      | none =>
        simp only
        rw [AMap.del_of_not_mem (AMap.get_none_iff.1 hg)]
        refine List.Perm.trans ?_ ((hc.symm.append_right _).append_right _)
        simp only [List.append_assoc, List.cons_append, List.nil_append]
        have : ((AMap.del s.checked fut).map (·.1) ++ (s.pending.map (·.2) ++ fut :: s.outcomes.map (·.1))).Perm
            (fut :: ((AMap.del s.checked fut).map (·.1) ++ (s.pending.map (·.2) ++ s.outcomes.map (·.1)))) := by
          rw [← List.append_assoc, ← List.append_assoc]
          exact List.perm_middle
        exact this
      | some old =>
        simp only [List.map_append, List.map_cons, List.map_nil]
        have hp := map_snd_del h.keys hg
        refine List.Perm.trans ?_ ((hc.symm.append hp.symm).append_right _)
        simp only [List.append_assoc, List.cons_append, List.nil_append]
        refine List.Perm.trans ?_ (List.Perm.cons fut (List.perm_middle.symm))
        have e1 : ((AMap.del s.checked fut).map (·.1) ++ ((AMap.del s.pending kc.1).map (·.2) ++ fut :: (s.outcomes.map (·.1) ++ [old]))).Perm
            (fut :: ((AMap.del s.checked fut).map (·.1) ++ ((AMap.del s.pending kc.1).map (·.2) ++ (s.outcomes.map (·.1) ++ [old])))) := by
          rw [← List.append_assoc, ← List.append_assoc]
          exact List.perm_middle
        refine e1.trans (List.Perm.cons _ ?_)
        have e2 : ((AMap.del s.checked fut).map (·.1) ++ ((AMap.del s.pending kc.1).map (·.2) ++ (s.outcomes.map (·.1) ++ [old]))).Perm
            (old :: ((AMap.del s.checked fut).map (·.1) ++ ((AMap.del s.pending kc.1).map (·.2) ++ s.outcomes.map (·.1)))) := by
          rw [← List.append_assoc, ← List.append_assoc, ← List.append_assoc]
          exact List.perm_append_singleton _ _
        exact e2
    · intro k n hk
      rcases AMap.mem_put.1 hk with ⟨hm, hne⟩ | e
      · obtain ⟨dl, ha, hb⟩ := h.pend k n hm
        exact ⟨dl, by simp [ha], by rw [AMap.get_put_ne _ _ hne]; exact hb⟩
      · simp only [Prod.mk.injEq] at e
        obtain ⟨rfl, rfl⟩ := e
        exact ⟨now + s.timeout, by simp, AMap.get_put_self _ _ _⟩
    · intro x hx
      simp only [List.mem_append, List.mem_singleton] at hx
      rcases hx with hx | rfl
      · exact h.sentBound x hx
      · exact hlt
    · simp only [List.map_append, List.map_cons, List.map_nil, List.nodup_append]
      refine ⟨h.sentFun, by simp, ?_⟩
      intro a ha b hb
      simp only [List.mem_singleton] at hb
      subst hb
      intro e; subst e; exact hfresh ha
    · intro x hx
      have hnd : ((AMap.del s.checked fut).map (·.1)) = AMap.keys (AMap.del s.checked fut) := rfl
      rw [hnd, AMap.mem_keys_del]
      simp only [List.mem_append, List.mem_singleton] at hx
      rcases hx with hx | rfl
      · exact fun hc => h.sentChecked x hx hc.1
      · exact fun hc => hc.2 rfl
    · intro n r hm
      have : (n, Outcome.response r) ∈ s.outcomes := by
        revert hm; split <;> simp
      obtain ⟨dl, hdl⟩ := h.match_ n r this
      exact ⟨dl, by simp [hdl]⟩
    · intro n k t hm
      have : (n, Outcome.timeout k t) ∈ s.outcomes := by
        revert hm; split <;> simp
      obtain ⟨dl, hdl⟩ := h.late n k t this
      exact ⟨dl, by simp [hdl.1], hdl.2⟩
    · intro n k hm
      have : (n, Outcome.closed k) ∈ s.outcomes := by
        revert hm; split <;> simp
      obtain ⟨dl, hdl⟩ := h.closedId n k this
      exact ⟨dl, by simp [hdl]⟩
    · intro k n hk
      rcases AMap.mem_put.1 hk with ⟨hm, _⟩ | e
      · exact h.nonempty k n hm
      · simp only [Prod.mk.injEq] at e
        rw [e.1]; exact hkn

theorem inv_sendCheck {s : P D} (h : s.Inv) (id : RpcId) : (s.sendCheck id).Inv := by
  have hr : (s.nextFut :: s.all).Perm (List.range (s.nextFut + 1)) := by
    rw [List.range_succ]
    exact (h.conserve.cons _).trans (List.perm_append_singleton _ _).symm
  unfold P.sendCheck
  split
  · refine ⟨h.keys, ?_, h.pend, fun x hx => Nat.lt_succ_of_lt (h.sentBound x hx), h.sentFun, ?_, h.match_, h.late, h.closedId, h.dlKeys, h.nonempty⟩
    · refine List.Perm.trans ?_ hr
      unfold P.all
      simp only [List.map_append, List.map_cons, List.map_nil, List.append_assoc, List.cons_append, List.nil_append]
      exact List.perm_middle
    · intro x hx
      have := h.sentBound x hx
      simp only [List.map_append, List.map_cons, List.map_nil, List.mem_append, List.mem_singleton, not_or]
      exact ⟨h.sentChecked x hx, by omega⟩
  · refine ⟨h.keys, ?_, h.pend, fun x hx => Nat.lt_succ_of_lt (h.sentBound x hx), h.sentFun, h.sentChecked, ?_, ?_, ?_, h.dlKeys, h.nonempty⟩
    · refine List.Perm.trans ?_ hr
      unfold P.all
      simp only [List.map_append, List.map_cons, List.map_nil]
      rw [← List.append_assoc]
      exact List.perm_append_singleton _ _
    · intro n r hm
      simp at hm; exact h.match_ n r hm
    · intro n k t hm
      simp at hm; exact h.late n k t hm
    · intro n k hm
      simp at hm; exact h.closedId n k hm

theorem inv_close {s : P D} (h : s.Inv) : s.close.Inv := by
  unfold P.close
  refine ⟨by simp [AMap.keys], ?_, by simp, h.sentBound, h.sentFun, h.sentChecked, ?_, ?_, ?_, by simp [AMap.keys], by simp⟩
  · refine List.Perm.trans ?_ h.conserve
    unfold P.all
    simp only [List.map_append, List.map_map, List.map_nil, List.append_nil, List.append_assoc]
    refine List.Perm.append_left _ ?_
    exact List.perm_append_comm
  · intro n r hm
    simp at hm; exact h.match_ n r hm
  · intro n k t hm
    simp at hm; exact h.late n k t hm
  · intro n k hm
    simp only [List.mem_append, List.mem_map, Prod.mk.injEq, Outcome.closed.injEq] at hm
    rcases hm with hm | ⟨⟨k', n'⟩, hm, rfl, rfl⟩
    · exact h.closedId n k hm
    · obtain ⟨dl, h1, _⟩ := h.pend _ _ hm
      exact ⟨dl, h1⟩

theorem inv_step {s : P D} (h : s.Inv) (op : POp D) : (s.step op).Inv := by
  cases op with
  | sendCheck id => exact inv_sendCheck h id
  | sendInsert fut now => exact inv_sendInsert h fut now
  | response r =>
    refine inv_complete h _ _ ?_ (by simp) (by simp)
    intro r' e
    simp only [Outcome.response.injEq] at e
    rw [e]
  | sweep now => exact inv_sweep h now
  | disconnect => exact ⟨h.keys, h.conserve, h.pend, h.sentBound, h.sentFun, h.sentChecked, h.match_, h.late, h.closedId, h.dlKeys, h.nonempty⟩
  | close => exact inv_close h
  | setTimeout t => exact ⟨h.keys, h.conserve, h.pend, h.sentBound, h.sentFun, h.sentChecked, h.match_, h.late, h.closedId, h.dlKeys, h.nonempty⟩

theorem inv_run (ops : List (POp D)) : ∀ {s : P D}, s.Inv → (s.run ops).Inv := by
  induction ops with
  | nil => intro s h; exact h
  | cons op ops ih => intro s h; exact ih (inv_step h op)

theorem run_append (s : P D) (a b : List (POp D)) : s.run (a ++ b) = (s.run a).run b := by
  simp [P.run]

/-- Completed futures stay completed. -/
theorem outcomes_mono (s : P D) (op : POp D) : s.outcomes <+: (s.step op).outcomes := by
  have hc : ∀ (s : P D) k o, s.outcomes <+: (s.complete k o).outcomes := by
    intro s k o
    unfold P.complete
    split
    · exact List.prefix_append _ _
    · exact List.prefix_rfl
  cases op with
  | sendCheck id => simp only [P.step, P.sendCheck]; split
                    · exact List.prefix_rfl
                    · exact List.prefix_append _ _
  | sendInsert fut now =>
    simp only [P.step, P.sendInsert]
    split
    · exact List.prefix_rfl
    · simp only; split
      · exact List.prefix_append _ _
      · exact List.prefix_rfl
  | response r => exact hc _ _ _
  | sweep now =>
    simp only [P.step, P.sweep]
    split
    · have : ∀ (ks : List Bytes) (s : P D), s.outcomes <+: (ks.foldl (fun s k => s.complete k (.timeout k now)) s).outcomes := by
        intro ks
        induction ks with
        | nil => intro s; exact List.prefix_rfl
        | cons k ks ih => intro s; exact (hc s k _).trans (ih _)
      exact this _ _
    · exact List.prefix_rfl
  | disconnect => exact List.prefix_rfl
  | close => exact List.prefix_append _ _
  | setTimeout t => exact List.prefix_rfl

theorem outcomes_mono_run (ops : List (POp D)) : ∀ (s : P D), s.outcomes <+: (s.run ops).outcomes := by
  induction ops with
  | nil => intro s; exact List.prefix_rfl
  | cons op ops ih => intro s; exact (outcomes_mono s op).trans (ih _)

end Verif.Stdio
