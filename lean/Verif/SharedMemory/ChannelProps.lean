import Verif.SharedMemory.LifeProps

/-!
C120: transports on one channel.
-/

namespace Verif.Shm

/-! ### What a step of the channel can be -/

/-- A message was put into the queue `s`, or none was. -/
def Fed (old new : List (List SmMsg)) (s : Option Nat) : Prop := new = old ∨ ∃ k m, s = some k ∧ new = old.modify k (· ++ [m])

/-- A step that does not touch the names. -/
def SmOp.plain (t : Sm) : SmOp → Prop
  | .start _ => False
  | .caller => t.create = true → t.call ≠ .cRemove ∧ t.call ≠ .dRemove
  | _ => True

inductive ChStep (c : Chan) (i : Nat) (t : Sm) : Chan → Prop where
  | fed (d : Chan) (hts : d.ts = c.ts) (h1 : d.c2s = c.c2s) (h2 : d.s2c = c.s2c) (hq : Fed c.queues d.queues t.send) : ChStep c i t d
  | plain (d : Chan) (op : SmOp) (hts : d.ts = c.ts) (h1 : d.c2s = c.c2s) (h2 : d.s2c = c.s2c) (hq : Fed c.queues d.queues t.send) (ho : op.plain t) (hw : ∀ j o, op = .work j o → o = .timeout ∨ o = .throws)
    : ChStep c i t (d.local i op)
  | took (d : Chan) (q : Nat) (m : SmMsg) (l : List SmMsg) (j : Nat) (hts : d.ts = c.ts) (h1 : d.c2s = c.c2s) (h2 : d.s2c = c.s2c) (hr : t.recv = some q) (hq : c.queues[q]? = some (m :: l))
    (hd : d.queues = c.queues.set q l) (hp : (t.works[j]?).map SmWork.pos = some (.recv t.gen)) : ChStep c i t (d.local i (.work j (.got m)))
  | removed (d : Chan) (hts : d.ts = c.ts) (h1 : d.c2s = none) (h2 : d.s2c = none) (hq : d.queues = c.queues) (hc : t.create = true) (hcall : t.call = .cRemove ∨ t.call = .dRemove) : ChStep c i t (d.local i .caller)
  | made (d : Chan) (r : SmQ) (hts : d.ts = c.ts) (hc : t.create = true) (hcall : t.call = .idle)
    (hr : (r = .none ∧ d.c2s = none ∧ d.s2c = none ∧ d.queues = c.queues) ∨
      (r = .first c.queues.length ∧ d.c2s = some c.queues.length ∧ d.s2c = none ∧ d.queues = c.queues ++ [[]]) ∨
      (r = .both c.queues.length (c.queues.length + 1) ∧ d.c2s = some c.queues.length ∧ d.s2c = some (c.queues.length + 1) ∧ d.queues = c.queues ++ [[], []])) : ChStep c i t (d.local i (.start r))
  | opened (r : SmQ) (hc : t.create = false) (hcall : t.call = .idle)
    (hr : (r = .none ∧ c.s2c = none) ∨ (∃ q, r = .first q ∧ c.s2c = some q ∧ c.c2s = none) ∨ ∃ q p, r = .both q p ∧ c.s2c = some q ∧ c.c2s = some p) : ChStep c i t (c.local i (.start r))

theorem push_fed (c : Chan) (q : Option Nat) (m : SmMsg) : (c.push q m).ts = c.ts ∧ (c.push q m).c2s = c.c2s ∧ (c.push q m).s2c = c.s2c ∧ Fed c.queues (c.push q m).queues q := by
  unfold Chan.push
  cases q with
  | none => exact ⟨rfl, rfl, rfl, .inl rfl⟩
  | some k => exact ⟨rfl, rfl, rfl, .inr ⟨k, m, rfl, rfl⟩⟩

theorem chan_step (c : Chan) (i : Nat) (a : SmAct) (t : Sm) (ht : c.ts[i]? = some t) : ChStep c i t (c.step (i, a)) := by
  have stay : ChStep c i t c := .fed c rfl rfl rfl (.inl rfl)
  have pl : ∀ op : SmOp, op.plain t → (∀ j o, op = .work j o → o = .timeout ∨ o = .throws) → ChStep c i t (c.local i op) := fun op h1 h2 => .plain c op rfl rfl rfl (.inl rfl) h1 h2
  unfold Chan.step
  dsimp only
  rw [ht]
  dsimp only
  split
  · exact stay
  · cases a with
    | start can =>
      dsimp only
      split
      · rename_i hc
        unfold Chan.start
        split
        · rename_i hcr
          split
          · exact .made { c with c2s := none, s2c := none } _ rfl hcr hc (.inl ⟨rfl, rfl, rfl, rfl⟩)
          · exact .made { c with c2s := some c.queues.length, s2c := none, queues := c.queues ++ [[]] } _ rfl hcr hc (.inr (.inl ⟨rfl, rfl, rfl, rfl⟩))
          · exact .made { c with c2s := some c.queues.length, s2c := some (c.queues.length + 1), queues := c.queues ++ [[], []] } _ rfl hcr hc (.inr (.inr ⟨rfl, rfl, rfl, rfl⟩))
        · rename_i hcr
          have hcr : t.create = false := by simpa using hcr
          split
          · rename_i h; exact .opened _ hcr hc (.inl ⟨rfl, h⟩)
          · rename_i q h1 h2; exact .opened _ hcr hc (.inr (.inl ⟨q, rfl, h1, h2⟩))
          · rename_i q p h1 h2; exact .opened _ hcr hc (.inr (.inr ⟨q, p, rfl, h1, h2⟩))
      · exact stay
    | close self => exact pl _ trivial (fun _ _ => (nomatch ·))
    | destroy => exact pl _ trivial (fun _ _ => (nomatch ·))
    | caller ok =>
      dsimp only
      split
      · rename_i hc hcr
        have ho : SmOp.caller.plain t := fun _ => by rw [hc]; exact ⟨(nomatch ·), (nomatch ·)⟩
        split
        · obtain ⟨h1, h2, h3, h4⟩ := push_fed c t.send .bye
          exact .plain _ _ h1 h2 h3 h4 ho (fun _ _ => (nomatch ·))
        · exact pl _ ho (fun _ _ => (nomatch ·))
      · rename_i hc hcr
        exact .removed { c with c2s := none, s2c := none } rfl rfl rfl rfl hcr (.inl hc)
      · rename_i hc hcr
        exact .removed { c with c2s := none, s2c := none } rfl rfl rfl rfl hcr (.inr hc)
      · rename_i h1 h2 h3
        exact pl _ (fun e => ⟨fun hc => h2 hc e, fun hc => h3 hc e⟩) (fun _ _ => (nomatch ·))
    | work j ok =>
      dsimp only
      split
      · exact pl _ trivial (fun _ _ e => by cases e; exact .inl rfl)
      · unfold Chan.take
        split
        · exact pl _ trivial (fun _ _ e => by cases e; exact .inr rfl)
        · split
          · rename_i g q hp hr
            split
            · exact pl _ trivial (fun _ _ e => by cases e; exact .inl rfl)
            · rename_i hg
              have hg : g = t.gen := by simpa using hg
              subst hg
              split
              · rename_i m l hq
                exact .took { c with queues := c.queues.set q l } q m l j rfl rfl rfl hr hq rfl hp
              · exact pl _ trivial (fun _ _ e => by cases e; exact .inl rfl)
          · exact pl _ trivial (fun _ _ e => by cases e; exact .inl rfl)
    | handled j => exact pl _ trivial (fun _ _ => (nomatch ·))
    | answered h k ok =>
      dsimp only
      split
      · obtain ⟨h1, h2, h3, h4⟩ := push_fed c t.send (.answer k)
        exact .plain _ _ h1 h2 h3 h4 trivial (fun _ _ => (nomatch ·))
      · exact pl _ trivial (fun _ _ => (nomatch ·))
    | send r ok =>
      dsimp only
      split
      · obtain ⟨h1, h2, h3, h4⟩ := push_fed c t.send .request
        exact .plain _ _ h1 h2 h3 h4 trivial (fun _ _ => (nomatch ·))
      · exact stay
    | note ok =>
      dsimp only
      split
      · obtain ⟨h1, h2, h3, h4⟩ := push_fed c t.send .note
        exact .fed _ h1 h2 h3 h4
      · exact stay

theorem chan_none (c : Chan) (i : Nat) (a : SmAct) (h : c.ts[i]? = none) : c.step (i, a) = c := by
  unfold Chan.step
  dsimp only
  rw [h]

theorem local_at {c d : Chan} (h : d.ts = c.ts) (i : Nat) (op : SmOp) (t : Sm) (ht : c.ts[i]? = some t) : (d.local i op).ts[i]? = some (t.step op) := by
  unfold Chan.local
  dsimp only
  rw [h, List.getElem?_modify_eq, ht]
  rfl

theorem local_other {c d : Chan} (h : d.ts = c.ts) (i k : Nat) (op : SmOp) (hk : k ≠ i) : (d.local i op).ts[k]? = c.ts[k]? := by
  unfold Chan.local
  dsimp only
  rw [h, List.getElem?_modify]
  cases c.ts[k]? with
  | none => rfl
  | some t => exact congrArg some (if_neg fun e => hk e.symm)

/-- What becomes of the transports. -/
theorem ChStep.ts {c d : Chan} {i : Nat} {t : Sm} (h : ChStep c i t d) (ht : c.ts[i]? = some t) :
    (∀ k, k ≠ i → d.ts[k]? = c.ts[k]?) ∧ (d.ts[i]? = some t ∨ ∃ op, d.ts[i]? = some (t.step op)) := by
  cases h with
  | fed _ hts => exact ⟨fun k _ => by rw [hts], .inl (by rw [hts]; exact ht)⟩
  | plain d op hts => exact ⟨fun k hk => local_other hts i k _ hk, .inr ⟨_, local_at hts i _ t ht⟩⟩
  | took d q m l j hts => exact ⟨fun k hk => local_other hts i k _ hk, .inr ⟨_, local_at hts i _ t ht⟩⟩
  | removed d hts => exact ⟨fun k hk => local_other hts i k _ hk, .inr ⟨_, local_at hts i _ t ht⟩⟩
  | made d r hts => exact ⟨fun k hk => local_other hts i k _ hk, .inr ⟨_, local_at hts i _ t ht⟩⟩
  | opened r => exact ⟨fun k hk => local_other rfl i k _ hk, .inr ⟨_, local_at rfl i _ t ht⟩⟩

theorem chan_run_inv {P : Chan → Prop} {c : Chan} {as : List (Nat × SmAct)} (h : P c) (hstep : ∀ c a, a ∈ as → P c → P (c.step a)) : P (c.run as) := by
  induction as generalizing c with
  | nil => exact h
  | cons a l ih => exact ih (hstep c a (by simp) h) (fun t o ho => hstep t o (by simp [ho]))

/-- C120. Each transport of a channel lives one of the lives of a single transport, so that what is shown of these holds of it. -/
theorem C120_each (creates : List Bool) (as : List (Nat × SmAct)) (i : Nat) (t : Sm) (ht : ((Chan.init creates).run as).ts[i]? = some t) :
    ∃ b ops, creates[i]? = some b ∧ t = (Sm.init b).run ops := by
  have key : ∀ (i : Nat) t, ((Chan.init creates).run as).ts[i]? = some t → ∃ b ops, creates[i]? = some b ∧ t = (Sm.init b).run ops := by
    refine chan_run_inv (P := fun c => ∀ (i : Nat) t, c.ts[i]? = some t → ∃ b ops, creates[i]? = some b ∧ t = (Sm.init b).run ops) (fun i t h => ?_) (fun c a _ ih => ?_)
    · unfold Chan.init at h
      dsimp only at h
      rw [List.getElem?_map] at h
      cases hb : creates[i]? with
      | none => rw [hb] at h; cases h
      | some b => rw [hb] at h; exact ⟨b, [], rfl, (Option.some.inj h).symm⟩
    · obtain ⟨k, a⟩ := a
      cases hk : c.ts[k]? with
      | none => rw [chan_none c k a hk]; exact ih
      | some u =>
        obtain ⟨h1, h2⟩ := (chan_step c k a u hk).ts hk
        intro i t hi
        by_cases e : i = k
        · subst e
          obtain ⟨b, ops, hb, hu⟩ := ih i u hk
          rcases h2 with h2 | ⟨op, h2⟩
          · rw [h2] at hi; cases hi; exact ⟨b, ops, hb, hu⟩
          · rw [h2] at hi
            cases hi
            exact ⟨b, ops ++ [op], hb, by rw [sm_run_append, ← hu]; rfl⟩
        · exact ih i t (by rw [← h1 i e]; exact hi)
  exact key i t ht

/-! ### Names -/

theorem sm_create (s : Sm) (op : SmOp) : (s.step op).create = s.create := by
  by_cases ha : op.aside = true
  · exact (smAside_step s op ha).create
  · unfold Sm.step
    split
    · rfl
    · cases op with
      | start r => dsimp only; split <;> (try rfl); cases r <;> (try rfl); unfold Sm.start; dsimp only; cases s.th <;> rfl
      | close self => cases self <;> dsimp only <;> split <;> rfl
      | destroy => dsimp only; split <;> rfl
      | caller => dsimp only; unfold Sm.goCaller; cases s.call <;> dsimp only <;> (try split) <;> (try split) <;> rfl
      | _ => exact absurd rfl ha

/-- A step that is not a `Start` keeps the mappings. -/
theorem sm_mapped (s : Sm) (op : SmOp) (ho : ∀ r, op ≠ .start r) : (s.step op).recv = s.recv ∧ (s.step op).send = s.send ∧ (s.step op).gen = s.gen := by
  by_cases ha : op.aside = true
  · exact ⟨(smAside_step s op ha).recv, (smAside_step s op ha).send, (smAside_step s op ha).gen⟩
  · unfold Sm.step
    split
    · exact ⟨rfl, rfl, rfl⟩
    · cases op with
      | start r => exact absurd rfl (ho r)
      | close self => cases self <;> dsimp only <;> split <;> exact ⟨rfl, rfl, rfl⟩
      | destroy => dsimp only; split <;> exact ⟨rfl, rfl, rfl⟩
      | caller => dsimp only; unfold Sm.goCaller; cases s.call <;> dsimp only <;> (try split) <;> (try split) <;> exact ⟨rfl, rfl, rfl⟩
      | _ => exact absurd rfl ha

theorem plain_start {t : Sm} {op : SmOp} (h : op.plain t) (r : SmQ) : op ≠ .start r := by
  rintro rfl
  exact h

/-- A plain step keeps the names. -/
theorem sm_names (s : Sm) (op : SmOp) (hc : s.create = true) (ho : op.plain s) : (s.step op).names = s.names := by
  by_cases ha : op.aside = true
  · exact (smAside_step s op ha).names
  · unfold Sm.step
    split
    · rfl
    · cases op with
      | start r => exact absurd rfl (plain_start ho r)
      | close self => cases self <;> dsimp only <;> split <;> rfl
      | destroy => dsimp only; split <;> rfl
      | caller =>
        obtain ⟨h1, h2⟩ := ho hc
        dsimp only
        unfold Sm.goCaller
        cases hcall : s.call with
        | cRemove => exact absurd hcall h1
        | dRemove => exact absurd hcall h2
        | _ => dsimp only <;> (try split) <;> (try split) <;> rfl
      | _ => exact absurd rfl ha

theorem sm_removes (s : Sm) (hu : s.ub = false) (hc : s.call = .cRemove ∨ s.call = .dRemove) : (s.step .caller).names = (none, none) := by
  unfold Sm.step
  rw [if_neg (by simp [hu])]
  dsimp only
  unfold Sm.goCaller
  rcases hc with hc | hc <;> rw [hc]

/-- One creator: the names of the channel are as it last made them. -/
theorem names_run (creates : List Bool) (k : Nat) (hk : creates[k]? = some true) (hone : ∀ i, i ≠ k → creates[i]? ≠ some true) (as : List (Nat × SmAct)) :
    ∃ t, ((Chan.init creates).run as).ts[k]? = some t ∧ t.create = true ∧ (t.ub = false → t.names = (((Chan.init creates).run as).c2s, ((Chan.init creates).run as).s2c)) ∧
      ∀ i u, i ≠ k → ((Chan.init creates).run as).ts[i]? = some u → u.create = false := by
  refine chan_run_inv (P := fun c => ∃ t, c.ts[k]? = some t ∧ t.create = true ∧ (t.ub = false → t.names = (c.c2s, c.s2c)) ∧ ∀ i u, i ≠ k → c.ts[i]? = some u → u.create = false) ?_ (fun c a _ ih => ?_)
  · refine ⟨Sm.init true, ?_, rfl, fun _ => rfl, fun i u hi h => ?_⟩
    · show (creates.map Sm.init)[k]? = _
      rw [List.getElem?_map, hk]
      rfl
    · have h : (creates.map Sm.init)[i]? = some u := h
      rw [List.getElem?_map] at h
      cases hb : creates[i]? with
      | none => rw [hb] at h; cases h
      | some b =>
        cases b with
        | true => exact absurd hb (hone i hi)
        | false => rw [hb] at h; cases h; rfl
  · obtain ⟨t, h1, h2, h3, h4⟩ := ih
    obtain ⟨i, a⟩ := a
    cases hi : c.ts[i]? with
    | none => rw [chan_none c i a hi]; exact ⟨t, h1, h2, h3, h4⟩
    | some u =>
      have hs := chan_step c i a u hi
      have hub : (c.step (i, a)) ≠ c → u.ub = false := by
        intro hne
        cases hu : u.ub with
        | false => rfl
        | true => exact absurd (by unfold Chan.step; dsimp only; rw [hi]; dsimp only; rw [if_pos hu]) hne
      obtain ⟨hother, hself⟩ := hs.ts hi
      by_cases e : i = k
      · subst e
        rw [h1] at hi
        cases hi
        have hcr : ∀ j v, j ≠ i → (c.step (i, a)).ts[j]? = some v → v.create = false := fun j v hj hv => h4 j v hj (by rw [← hother j hj]; exact hv)
        by_cases hne : c.step (i, a) = c
        · rw [hne]; exact ⟨t, h1, h2, h3, h4⟩
        have hu := hub hne
        have h3 := h3 hu
        have ex : ∃ v, (c.step (i, a)).ts[i]? = some v ∧ v.create = true ∧ v.names = ((c.step (i, a)).c2s, (c.step (i, a)).s2c) := by
          revert hs
          generalize c.step (i, a) = d
          intro hs
          cases hs with
          | fed _ hts e1 e2 hq => exact ⟨t, by rw [hts]; exact h1, h2, by rw [e1, e2]; exact h3⟩
          | plain d op hts e1 e2 hq ho hw =>
            refine ⟨_, local_at hts i op t h1, by rw [sm_create]; exact h2, ?_⟩
            show _ = (d.c2s, d.s2c)
            rw [sm_names t op h2 ho, e1, e2]; exact h3
          | took d q m l j hts e1 e2 hr hq hd hp =>
            refine ⟨_, local_at hts i _ t h1, by rw [sm_create]; exact h2, ?_⟩
            show _ = (d.c2s, d.s2c)
            rw [sm_names t (.work j (.got m)) h2 trivial, e1, e2]; exact h3
          | removed d hts e1 e2 hq hc hcall =>
            refine ⟨_, local_at hts i _ t h1, by rw [sm_create]; exact h2, ?_⟩
            show _ = (d.c2s, d.s2c)
            rw [sm_removes t hu hcall, e1, e2]
          | made d r hts hc hcall hr =>
            refine ⟨_, local_at hts i _ t h1, by rw [sm_create]; exact h2, ?_⟩
            show _ = (d.c2s, d.s2c)
            unfold Sm.step
            rw [if_neg (by simp [hu])]
            dsimp only
            rw [if_pos hcall]
            rcases hr with ⟨rfl, e1, e2, -⟩ | ⟨rfl, e1, e2, -⟩ | ⟨rfl, e1, e2, -⟩ <;> rw [e1, e2]
            · rfl
            · rfl
            · unfold Sm.start
              dsimp only
              cases t.th <;> rfl
          | opened r hc => rw [h2] at hc; cases hc
        obtain ⟨v, v1, v2, v3⟩ := ex
        exact ⟨v, v1, v2, fun _ => v3, hcr⟩
      · have hk' : (c.step (i, a)).ts[k]? = some t := by rw [hother k (fun h => e h.symm)]; exact h1
        have hcu : u.create = false := h4 i u e hi
        refine ⟨t, hk', h2, fun hu => ?_, fun j v hj hv => ?_⟩
        · rw [h3 hu]
          revert hs
          generalize c.step (i, a) = d
          intro hs
          cases hs with
          | fed _ hts e1 e2 hq => rw [e1, e2]
          | plain d op hts e1 e2 hq ho hw => show _ = (d.c2s, d.s2c); rw [e1, e2]
          | took d q m l j hts e1 e2 hr hq hd hp => show _ = (d.c2s, d.s2c); rw [e1, e2]
          | removed d hts e1 e2 hq hc hcall => rw [hcu] at hc; cases hc
          | made d r hts hc hcall hr => rw [hcu] at hc; cases hc
          | opened r hc => rfl
        · by_cases e' : j = i
          · subst e'
            rcases hself with x | ⟨op, x⟩
            · rw [x] at hv; cases hv; exact hcu
            · rw [x] at hv; cases hv; rw [sm_create]; exact hcu
          · exact h4 j v hj (by rw [← hother j e']; exact hv)

/-- A transport that was started has named the queues it is mapped to, until it is closed or destroyed. -/
def SmNamed (s : Sm) : Prop := s.call ≠ .cFail → s.call ≠ .destroyed → s.call.swapping = true ∨ s.log.getLast? = some .started →
  ∃ q p, s.recv = some q ∧ s.send = some p ∧ s.names = (some q, some p)

theorem smNamed_run (b : Bool) (ops : List SmOp) : SmNamed ((Sm.init b).run ops) := by
  refine sm_run_inv (P := SmNamed) (fun _ _ e => by rcases e with e | e <;> cases e) fun s op _ h => ?_
  by_cases ha : op.aside = true
  · have a := smAside_step s op ha
    unfold SmNamed
    rw [a.call, a.log, a.recv, a.send, a.names]
    exact h
  · unfold Sm.step
    split
    · exact h
    · cases op with
      | start r =>
        dsimp only
        split
        · rename_i hc
          cases r with
          | none => intro _ _ e; rcases e with e | e; (have e' : s.call.swapping = true := e; rw [hc] at e'; cases e'); simp [Sm.start] at e
          | first q => intro _ _ e; rcases e with e | e; (have e' : s.call.swapping = true := e; rw [hc] at e'; cases e'); simp [Sm.start] at e
          | both q p =>
            intro _ _ _
            refine ⟨q, p, ?_⟩
            unfold Sm.start
            dsimp only
            cases s.th <;> exact ⟨rfl, rfl, rfl⟩
        · exact h
      | close self =>
        have key : s.call = .idle → s.log.getLast? = some .started → ∃ q p, s.recv = some q ∧ s.send = some p ∧ s.names = (some q, some p) :=
          fun hc e => h (by rw [hc]; exact (nomatch ·)) (by rw [hc]; exact (nomatch ·)) (.inr e)
        cases self with
        | none =>
          dsimp only
          split
          · rename_i hc; intro _ _ e; exact key hc (e.resolve_left (nomatch ·))
          · exact h
        | some j =>
          dsimp only
          split
          · rename_i hc; intro _ _ e; exact key hc.1 (e.resolve_left (nomatch ·))
          · exact h
      | destroy =>
        dsimp only
        split
        · rename_i hc; intro _ _ e; exact h (by rw [hc]; exact (nomatch ·)) (by rw [hc]; exact (nomatch ·)) (.inr (e.resolve_left (nomatch ·)))
        · exact h
      | caller =>
        dsimp only
        have key : s.call ≠ .cFail → s.call ≠ .destroyed → s.log.getLast? = some .started → ∃ q p, s.recv = some q ∧ s.send = some p ∧ s.names = (some q, some p) := fun h1 h2 e => h h1 h2 (.inr e)
        unfold Sm.goCaller
        cases hc : s.call with
        | idle => exact h
        | destroyed => exact h
        | swap =>
          dsimp only
          cases s.th with
          | none => exact h
          | some j => intro _ _ _; exact h (by rw [hc]; exact (nomatch ·)) (by rw [hc]; exact (nomatch ·)) (.inl (by rw [hc]; rfl))
        | swapJoin =>
          dsimp only
          cases s.th with
          | none => exact h
          | some j =>
            dsimp only
            split
            · intro _ _ _; exact h (by rw [hc]; exact (nomatch ·)) (by rw [hc]; exact (nomatch ·)) (.inl (by rw [hc]; rfl))
            · exact h
        | cBye => intro _ _ e; exact key (by rw [hc]; exact (nomatch ·)) (by rw [hc]; exact (nomatch ·)) (e.resolve_left (nomatch ·))
        | cFlag => intro _ _ e; exact key (by rw [hc]; exact (nomatch ·)) (by rw [hc]; exact (nomatch ·)) (e.resolve_left (nomatch ·))
        | cStop =>
          dsimp only
          cases s.th with
          | none => intro _ _ e; exact key (by rw [hc]; exact (nomatch ·)) (by rw [hc]; exact (nomatch ·)) (e.resolve_left (nomatch ·))
          | some j => intro _ _ e; exact key (by rw [hc]; exact (nomatch ·)) (by rw [hc]; exact (nomatch ·)) (e.resolve_left (by dsimp only; split <;> exact (nomatch ·)))
        | cJoin =>
          dsimp only
          cases s.th with
          | none => exact h
          | some j =>
            dsimp only
            split
            · intro _ _ e; exact key (by rw [hc]; exact (nomatch ·)) (by rw [hc]; exact (nomatch ·)) (e.resolve_left (nomatch ·))
            · exact h
        | cRemove => exact fun e => absurd rfl e
        | cFail => intro _ _ e; rcases e with e | e; cases e; simp at e
        | dStop =>
          dsimp only
          cases s.th with
          | none => intro _ _ e; exact key (by rw [hc]; exact (nomatch ·)) (by rw [hc]; exact (nomatch ·)) (e.resolve_left (nomatch ·))
          | some j => intro _ _ e; exact key (by rw [hc]; exact (nomatch ·)) (by rw [hc]; exact (nomatch ·)) (e.resolve_left (nomatch ·))
        | dJoin =>
          dsimp only
          cases s.th with
          | none => exact h
          | some j =>
            dsimp only
            split
            · intro _ _ e; exact key (by rw [hc]; exact (nomatch ·)) (by rw [hc]; exact (nomatch ·)) (e.resolve_left (nomatch ·))
            · exact h
        | dRemove => exact fun _ e => absurd rfl e
      | _ => exact absurd rfl ha

/-- C120. On a channel with one creator, an opener that is started while the creator is started is joined to it: it succeeds, reads the queue the creator writes and writes the queue the creator
reads. Missing: channels with more than one creator. -/
theorem C120_meet_partial (creates : List Bool) (k : Nat) (hk : creates[k]? = some true) (hone : ∀ i, i ≠ k → creates[i]? ≠ some true) (as : List (Nat × SmAct)) (t u : Sm) (i : Nat) (hi : i ≠ k)
    (ht : ((Chan.init creates).run as).ts[k]? = some t) (hu : ((Chan.init creates).run as).ts[i]? = some u) (hub : t.ub = false) (hub' : u.ub = false)
    (htc : t.call = .idle) (htl : t.log.getLast? = some .started) (huc : u.call = .idle) (huf : u.fresh) (n : Nat) :
    ∃ v, ((Chan.init creates).run (as ++ [(i, .start n)])).ts[i]? = some v ∧ v.log = u.log ++ [.started] ∧ v.connected = true ∧ v.recv = t.send ∧ v.send = t.recv ∧ t.send ≠ none ∧ t.recv ≠ none := by
  obtain ⟨t', h1, h2, h3, h4⟩ := names_run creates k hk hone as
  rw [ht] at h1
  cases h1
  obtain ⟨b, ops, -, e⟩ := C120_each creates as k t ht
  have hn : SmNamed t := by rw [e]; exact smNamed_run b ops
  obtain ⟨q, p, n1, n2, n3⟩ := hn (by rw [htc]; exact (nomatch ·)) (by rw [htc]; exact (nomatch ·)) (.inr htl)
  have hnm := h3 hub
  rw [n3] at hnm
  obtain ⟨m1, m2⟩ := Prod.mk.inj hnm
  obtain ⟨b', ops', -, e'⟩ := C120_each creates as i u hu
  have hth : u.th = none := by have := smInv_run b' ops'; rw [← e'] at this; exact this.fresh huf
  have hcu := h4 i u hi hu
  have hst : (Chan.init creates).run (as ++ [(i, .start n)]) = ((Chan.init creates).run as).step (i, .start n) := by simp [Chan.run]
  rw [hst]
  have hstep : ((Chan.init creates).run as).step (i, .start n) = ((Chan.init creates).run as).local i (.start (.both p q)) := by
    unfold Chan.step
    dsimp only
    rw [hu]
    dsimp only
    rw [if_neg (by simp [hub']), if_pos huc]
    unfold Chan.start
    rw [if_neg (by simp [hcu])]
    rw [← m1, ← m2]
  rw [hstep]
  refine ⟨_, local_at rfl i _ u hu, ?_⟩
  unfold Sm.step
  rw [if_neg (by simp [hub'])]
  dsimp only
  rw [if_pos huc]
  unfold Sm.start
  dsimp only
  rw [hth]
  exact ⟨rfl, rfl, n2.symm, n1.symm, by rw [n2]; exact (nomatch ·), by rw [n1]; exact (nomatch ·)⟩

/-- The creator is in its second life, of two openers one was closed and one not yet started. -/
def chLife : List (Nat × SmAct) :=
  [(0, .start 2), (1, .start 0), (1, .send 7 true), (0, .work 0 true), (0, .work 0 true), (0, .answered 0 0 true), (1, .work 0 true), (1, .work 0 true), (1, .close none), (1, .caller true), (1, .caller true), (1, .caller true),
   (1, .work 0 true), (1, .work 0 true), (1, .caller true), (1, .caller true), (1, .caller true), (0, .close none), (0, .caller true), (0, .caller true), (0, .caller true), (0, .work 0 true), (0, .work 0 true), (0, .caller true),
   (0, .caller true), (0, .caller true), (0, .start 2)]

example : let c := (Chan.init [true, false, false]).run chLife
    c.ts.map (·.log) = [[.started, .closed false, .started], [.started, .closed false], []] ∧ c.ts.map (·.call) = [.idle, .idle, .idle] ∧ c.ts.map (·.ub) = [false, false, false] ∧ c.ts.map (·.pending) = [[], [], []] := by
  decide +kernel

/-! ### What is false of the code -/

theorem opener_start (c : Chan) (i n : Nat) (t : Sm) (ht : c.ts[i]? = some t) (hc : t.create = false) : c.step (i, .start n) = c.step (i, .start 0) := by
  have e : ∀ n, c.start i t n = c.start i t 0 := fun n => by unfold Chan.start; rw [if_neg (by simp [hc]), if_neg (by simp [hc])]
  unfold Chan.step
  dsimp only
  rw [ht]
  dsimp only
  rw [e n]

/-- C120 fails with two creators: the end of the first removes the names of the second, which runs, and no opener can join it. -/
theorem C120_two_creators_counterexample :
    ∃ as : List (Nat × SmAct), ((Chan.init [true, true, false]).run as).ts.map (·.log) = [[.started], [.started], []] ∧ ((Chan.init [true, true, false]).run as).ts.map (·.call) = [.destroyed, .idle, .idle] ∧
      ((Chan.init [true, true, false]).run as).ts.map (·.connected) = [false, true, false] ∧
      ∀ n, (((Chan.init [true, true, false]).run as).step (2, .start n)).ts.map (·.log) = [[.started], [.started], [.refused]] :=
  ⟨[(0, .start 2), (1, .start 2), (0, .destroy), (0, .caller true), (0, .work 0 true), (0, .work 0 true), (0, .caller true), (0, .caller true)], by decide +kernel, by decide +kernel, by decide +kernel,
    fun n => by rw [opener_start _ 2 n _ rfl (by decide +kernel)]; decide +kernel⟩

/-- The transport works on: its thread runs, handlers return, it sends; no call of `Start`, `Close` or the destructor, no failure of its queues. -/
def SmAct.works : SmAct → Bool
  | .work _ ok => ok
  | .handled _ | .answered _ _ _ | .send _ _ | .note _ => true
  | _ => false

/-- An opener whose queue is empty and which nobody else has to do with. -/
structure Lonely (i q p r : Nat) (c : Chan) : Prop where
  ex : ∃ t, c.ts[i]? = some t ∧ t.connected = true ∧ t.recv = some q ∧ t.send = some p ∧ r ∈ t.pending ∧ t.gone = false ∧ t.call = .idle ∧ t.ub = false ∧ t.handlers = [] ∧
    (t.works = [⟨.test, false⟩] ∨ t.works = [⟨.recv t.gen, false⟩])
  queue : c.queues[q]? = some []
  other : p ≠ q

theorem lonely_step {i q p r : Nat} {c : Chan} (h : Lonely i q p r c) (a : SmAct) (ha : a.works = true) : Lonely i q p r (c.step (i, a)) := by
  obtain ⟨⟨t, h1, h2, h3, h4, h5, h6, h7, h8, h9, h10⟩, hq, hne⟩ := h
  have hst : ∀ d : Chan, d.ts = c.ts → d.queues[q]? = some [] → ∀ op, t.step op = t → Lonely i q p r (d.local i op) := by
    intro d hts hdq op e
    refine ⟨⟨t, ?_, h2, h3, h4, h5, h6, h7, h8, h9, h10⟩, hdq, hne⟩
    rw [local_at hts i op t h1, e]
  have hfed : ∀ m : SmMsg, (c.push t.send m).ts = c.ts ∧ (c.push t.send m).queues[q]? = some [] := by
    intro m
    rw [h4]
    unfold Chan.push
    refine ⟨rfl, ?_⟩
    show (c.queues.modify p _)[q]? = _
    rw [List.getElem?_modify, hq]
    exact congrArg some (if_neg hne)
  have stay : Lonely i q p r c := ⟨⟨t, h1, h2, h3, h4, h5, h6, h7, h8, h9, h10⟩, hq, hne⟩
  unfold Chan.step
  dsimp only
  rw [h1]
  dsimp only
  rw [if_neg (by simp [h8])]
  cases a with
  | work j ok =>
    have hok : ok = true := ha
    subst hok
    dsimp only
    rw [if_neg (by simp [h6])]
    have htake : c.take t j true = (.timeout, c.queues) := by
      unfold Chan.take
      rw [if_neg (by simp)]
      rw [h3]
      split
      · rename_i g q' hp hr
        cases hr
        rw [hq]
        split <;> rfl
      · rfl
    rw [htake]
    have step : t.step (.work j .timeout) = t ∨ ∃ w, (w = [⟨.test, false⟩] ∨ w = [⟨.recv t.gen, false⟩]) ∧ t.step (.work j .timeout) = { t with works := w } := by
      unfold Sm.step
      rw [if_neg (by simp [h8])]
      dsimp only
      rw [if_neg (by simp [h6])]
      unfold Sm.goWork
      cases j with
      | zero =>
        rcases h10 with e | e <;> rw [e]
        · right; refine ⟨_, .inr rfl, ?_⟩
          show { t with works := _ } = _
          simp [h2]
        · right; refine ⟨_, .inl rfl, ?_⟩
          simp
      | succ j => left; rcases h10 with e | e <;> rw [e] <;> rfl
    rcases step with e | ⟨w, hw, e⟩
    · exact hst c rfl hq _ e
    · refine ⟨⟨{ t with works := w }, ?_, h2, h3, h4, h5, h6, h7, h8, h9, hw⟩, hq, hne⟩
      exact (local_at rfl i _ t h1).trans (by rw [e])
  | handled j =>
    refine hst c rfl hq _ ?_
    unfold Sm.step
    rw [if_neg (by simp [h8])]
    dsimp only
    cases j with
    | zero => rcases h10 with e | e <;> rw [e] <;> rfl
    | succ j => rcases h10 with e | e <;> rw [e] <;> rfl
  | answered h k ok =>
    have e : t.step (.answered h) = t := by
      unfold Sm.step
      rw [if_neg (by simp [h8])]
      dsimp only
      rw [h9]
      simp
    dsimp only
    split
    · exact hst _ (hfed _).1 (hfed _).2 _ e
    · exact hst c rfl hq _ e
  | send r' ok =>
    dsimp only
    split
    · refine ⟨⟨{ t with pending := t.pending ++ [r'] }, ?_, h2, h3, h4, List.mem_append_left _ h5, h6, h7, h8, h9, h10⟩, (hfed _).2, hne⟩
      rw [local_at (hfed _).1 i _ t h1]
      unfold Sm.step
      rw [if_neg (by simp [h8])]
      dsimp only
      rw [if_pos ⟨h6, h2⟩]
    · exact stay
  | note ok =>
    dsimp only
    split
    · exact ⟨⟨t, by rw [(hfed _).1]; exact h1, h2, h3, h4, h5, h6, h7, h8, h9, h10⟩, (hfed _).2, hne⟩
    · exact stay
  | _ => cases ha

theorem lonely_run {i q p r : Nat} {c : Chan} (h : Lonely i q p r c) (more : List (Nat × SmAct)) (hm : ∀ a ∈ more, a.1 = i ∧ a.2.works = true) :
    ∃ t, (c.run more).ts[i]? = some t ∧ t.connected = true ∧ r ∈ t.pending := by
  have key : Lonely i q p r (c.run more) := chan_run_inv h fun c a ha hc => by
    obtain ⟨h1, h2⟩ := hm a ha
    obtain ⟨k, a⟩ := a
    have h1 : k = i := h1
    subst h1
    exact lonely_step hc a h2
  obtain ⟨t, h1, h2, -, -, h5, -⟩ := key.ex
  exact ⟨t, h1, h2, h5⟩

/-- C120 fails: of two openers only one learns that the creator was closed; the other says that it is connected, and its request has no answer, however long it goes on. -/
theorem C120_two_openers_counterexample :
    ∃ as : List (Nat × SmAct), ((Chan.init [true, false, false]).run as).ts.map (·.log) = [[.started, .closed false], [.started], [.started]] ∧
      ((Chan.init [true, false, false]).run as).ts.map (·.connected) = [false, false, true] ∧
      ∀ more : List (Nat × SmAct), (∀ a ∈ more, a.1 = 2 ∧ a.2.works = true) →
        ∃ t, (((Chan.init [true, false, false]).run as).run more).ts[2]? = some t ∧ t.connected = true ∧ 7 ∈ t.pending :=
  ⟨[(0, .start 2), (1, .start 0), (2, .start 0), (2, .send 7 true), (0, .close none), (0, .caller true), (0, .caller true), (0, .caller true), (0, .work 0 true), (0, .work 0 true), (0, .caller true), (0, .caller true),
    (0, .caller true), (1, .work 0 true), (1, .work 0 true)], by decide +kernel, by decide +kernel,
    fun more hm => lonely_run (q := 1) (p := 0) ⟨⟨_, rfl, by decide +kernel, by decide +kernel, by decide +kernel, by decide +kernel, by decide +kernel, by decide +kernel, by decide +kernel, by decide +kernel, by decide +kernel⟩,
      by decide +kernel, by decide⟩ more hm⟩

/-- C120 fails: an opener whose creator is destroyed without `Close` says that it is connected, and its request has no answer, however long it goes on. -/
theorem C120_orphan_counterexample :
    ∃ as : List (Nat × SmAct), ((Chan.init [true, false]).run as).ts.map (·.call) = [.destroyed, .idle] ∧ ((Chan.init [true, false]).run as).ts.map (·.log) = [[.started], [.started]] ∧
      ∀ more : List (Nat × SmAct), (∀ a ∈ more, a.1 = 1 ∧ a.2.works = true) → ∃ t, (((Chan.init [true, false]).run as).run more).ts[1]? = some t ∧ t.connected = true ∧ 7 ∈ t.pending :=
  ⟨[(0, .start 2), (1, .start 0), (1, .send 7 true), (0, .destroy), (0, .caller true), (0, .work 0 true), (0, .work 0 true), (0, .caller true), (0, .caller true)], by decide +kernel, by decide +kernel,
    fun more hm => lonely_run (q := 1) (p := 0) ⟨⟨_, rfl, by decide +kernel, by decide +kernel, by decide +kernel, by decide +kernel, by decide +kernel, by decide +kernel, by decide +kernel, by decide +kernel, by decide +kernel⟩,
      by decide +kernel, by decide⟩ more hm⟩

end Verif.Shm
