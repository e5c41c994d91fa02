import Verif.Stdio.DuplexProps

/-! Helper lemmas for C114: where requests and answers are on their way between two stdio transports. -/

namespace Verif.Duplex

open Verif.Stdio Verif.Framer
open Verif.Serve (Prog Ev event tailEvent stamped no_new_response)
open Verif.InMemory (PlainReq PlainNote PlainOut replyFor_classified replyFor_id)

variable {D : Type} [DblFmt D]

theorem erase_perm {α : Type} {l : List α} : ∀ {i : Nat} {m : α}, l[i]? = some m → (m :: l.eraseIdx i).Perm l := by
  induction l with
  | nil => intro i m h; cases i <;> cases h
  | cons a l ih =>
    intro i m h
    cases i with
    | zero => cases h; exact List.Perm.refl _
    | succ i =>
      rw [List.eraseIdx_cons_succ]
      exact (List.Perm.swap _ _ _).trans ((ih h).cons _)

/-- The ids under which requests wait to be written or were written. -/
def textsOf (l : List Bytes) : List Bytes := (requestsIn (D := D) l).map (fun q => idText q.id)

theorem textsOf_append (a b : List Bytes) : textsOf (D := D) (a ++ b) = textsOf (D := D) a ++ textsOf (D := D) b := by
  simp [textsOf, requestsIn_append]

theorem textsOf_perm {a b : List Bytes} (h : a.Perm b) : (textsOf (D := D) a).Perm (textsOf (D := D) b) := (h.filterMap _).map _

theorem textsOf_sub {a b : List Bytes} (h : a.Sublist b) : (textsOf (D := D) a).Sublist (textsOf (D := D) b) := (h.filterMap _).map _

/-- Where requests and answers are. -/
structure Flow (e : End D) : Prop where
  keys : (textsOf (D := D) (e.w.accepted ++ e.ready)).Nodup
  asked : e.w.connected = true → ∀ n k dl, (n, k, dl) ∈ e.p.sent → ∃ m, m ∈ e.w.accepted ++ e.ready ∧ ∃ q : Request D, event m = .request q ∧ idText q.id = k
  said : e.w.connected = true → ∀ q o, (q, o) ∈ e.replies → serResponse (replyFor q o) ∈ e.w.accepted
  done : ∀ m ∈ e.taken, ∀ r : Response D, event m = .response r → ∀ n, (idText r.id, n) ∉ e.p.pending

theorem complete_sub {s : P D} {k : Bytes} {o : Outcome D} {x : Bytes × Nat} (h : x ∈ (s.complete k o).pending) : x ∈ s.pending ∧ x.1 ≠ k := by
  unfold P.complete at h
  split at h
  · exact AMap.mem_del.1 h
  · rename_i hn
    refine ⟨h, fun e => ?_⟩
    have := AMap.get_none_iff.1 hn
    exact this (List.mem_map.2 ⟨x, h, e⟩)

theorem pending_sub (s : P D) (op : POp D) (ho : ∀ n now, op ≠ .sendInsert n now) {x : Bytes × Nat} (h : x ∈ (s.step op).pending) : x ∈ s.pending := by
  cases op with
  | sendCheck i => revert h; simp only [P.step, P.sendCheck]; split <;> exact id
  | sendInsert n now => exact absurd rfl (ho n now)
  | response r => exact (complete_sub h).1
  | sweep now =>
    revert h
    simp only [P.step, P.sweep]
    split
    · generalize s.expired now = ks
      revert s
      induction ks with
      | nil => intro s _ h; exact h
      | cons k ks ih => intro s hc h; exact (complete_sub (ih _ ((complete_fields s k _).2.2.2.trans hc) h)).1
    · exact id
  | disconnect => exact h
  | close => cases h
  | setTimeout t => exact h

theorem sent_same (s : P D) (op : POp D) (ho : ∀ n now, op ≠ .sendInsert n now) : (s.step op).sent = s.sent := by
  cases op with
  | sendCheck id => simp only [P.step, P.sendCheck]; split <;> rfl
  | sendInsert n now => exact absurd rfl (ho n now)
  | response r => exact (complete_fields _ _ _).2.2.1
  | sweep now =>
    simp only [P.step, P.sweep]; split
    · exact (sweepList_fields _ _ _).2.2.1
    · rfl
  | disconnect => rfl
  | close => rfl
  | setTimeout t => rfl

/-- A response taken bears the key of a request filed. -/
theorem heard_key {s : Pair D} (hg : Good s) (hp : PlainPair s) {y : Bool} {m : Bytes} {r : Response D} (hm : m ∈ (s.get y).taken)
    (hev : event m = .response r) : ∃ n dl, (n, idText r.id, dl) ∈ (s.get y).p.sent := by
  have hbf := hg (!y)
  rcases origin_event hbf (hp (!y)) (hbf.origin m (.inl ((hg y).reads.order.subset hm))) with ⟨n, k, dl, q', -, -, h3, -⟩ | ⟨n, -, h3⟩ | ⟨q, o, h1, h3⟩
  · rw [h3] at hev; cases hev
  · rw [h3] at hev; cases hev
  · rw [h3] at hev; cases hev
    have hq := taken_request hg hp (mem_served hbf h1)
    rw [Bool.not_not] at hq
    obtain ⟨n', k, dl, q0, h4, -, h6, -⟩ := hq
    rw [replyFor_id, h6]
    exact ⟨n', dl, h4⟩

/-- The key of a request queued is the key of one filed. -/
theorem texts_sent {e : End D} {w : W} (hb : Base e w) (hp : PlainEnd e) {k : Bytes} (hk : k ∈ textsOf (D := D) (e.w.accepted ++ e.ready)) :
    ∃ n dl, (n, k, dl) ∈ e.p.sent := by
  obtain ⟨q, hq, rfl⟩ := List.mem_map.1 hk
  obtain ⟨m, hm, hev⟩ := mem_requestsIn hq
  rcases origin_event hb hp (hb.origin m (List.mem_append.1 hm)) with ⟨n, k, dl, q', h1, -, h3, -, h5, -⟩ | ⟨n, -, h3⟩ | ⟨q, o, -, h3⟩
  · rw [h3] at hev; cases hev; rw [h5]; exact ⟨n, dl, h1⟩
  · rw [h3] at hev; cases hev
  · rw [h3] at hev; cases hev

theorem wstep_off (s : W) (wop : WOp) (hc : (s.step wop).connected = true) : s.connected = true := by
  cases wop with
  | enqueue p => revert hc; simp only [W.step, W.enqueue]; split <;> simp
  | dequeue => revert hc; simp only [W.step, W.dequeue]; split <;> simp
  | write k => revert hc; simp only [W.step, W.write]; split <;> (try split) <;> simp
  | writeFail => revert hc; simp only [W.step, W.writeFail]; split <;> (try split) <;> simp
  | finish => revert hc; simp only [W.step, W.finish]; split <;> (try split) <;> simp
  | disconnect => cases hc
  | setMax n => exact hc

theorem flow_own {c : Cfg D} (hh : ∀ y q, PlainProg (c.handler y q)) {s : Pair D} (hg : Good s) (hp : PlainPair s) (y : Bool) (hf : Flow (s.get y)) (op : EndOp D)
    (hop : PlainStep (y, op)) (ho : OwnTexts (((s.get y).step (c.max y) (c.handler y) (s.get (!y)).w.out op).given.map (·.id))) :
    Flow ((s.get y).step (c.max y) (c.handler y) (s.get (!y)).w.out op) := by
  have hb := hg y
  have hpl := hp y
  have hb' : Base ((s.get y).step (c.max y) (c.handler y) (s.get (!y)).w.out op) (s.get (!y)).w :=
    base_own _ _ hb (hg (!y)).winv (hg (!y)).sized op
  have hkey : ∀ m ∈ (s.get y).taken, ∀ r : Response D, event m = .response r → ∃ n dl, (n, idText r.id, dl) ∈ (s.get y).p.sent :=
    fun m hm r hr => heard_key hg hp hm hr
  have hdec := decode_cases hb.reads (hg (!y)).winv (hg (!y)).sized (c.max y)
  generalize (s.get (!y)).w = v at *
  generalize s.get y = e at *
  obtain ⟨f1, f2, f3, f4⟩ := hf
  have gen : ∀ g : End D, g.w.accepted = e.w.accepted → g.ready = e.ready → (g.w.connected = true → e.w.connected = true) → g.p.sent = e.p.sent →
      g.replies = e.replies → g.taken = e.taken → (∀ x, x ∈ g.p.pending → x ∈ e.p.pending) → Flow g := by
    intro g h1 h2 h3 h4 h5 h6 h7
    refine ⟨by rw [h1, h2]; exact f1, fun hc => by rw [h1, h2, h4]; exact f2 (h3 hc), fun hc => by rw [h1, h5]; exact f3 (h3 hc), ?_⟩
    rw [h6]
    exact fun m hm r hr n hn => f4 m hm r hr n (h7 _ hn)
  have hw : ∀ wop, (∀ m, wop ≠ .enqueue m) → Flow (e.writes wop) := by
    intro wop hne
    have ha := writes_aside e wop
    have hacc := other_accepted e.w wop hne
    have hoff := wstep_off e.w wop
    have hww := writes_w e wop
    refine gen _ (by rw [hww]; exact hacc) ha.ready (by rw [hww]; exact hoff) ?_ ha.replies ha.taken ?_
    · rcases writes_p e wop with h | h <;> rw [h]; rfl
    · intro x hx
      rcases writes_p e wop with h | h <;> rw [h] at hx <;> exact hx
  have hchk : ∀ q : Request D, (e.p.step (.sendCheck q.id)).sent = e.p.sent ∧ ∀ x, x ∈ (e.p.step (.sendCheck q.id)).pending → x ∈ e.p.pending :=
    fun q => ⟨sent_same _ _ (by simp), fun x hx => pending_sub _ _ (by simp) hx⟩
  cases op with
  | check q => exact gen _ rfl rfl id (hchk q).1 rfl rfl (hchk q).2
  | file n now =>
    simp only [End.step, End.file] at ho hb' ⊢
    split
    · rename_i id q hw1 hq1
      rw [hw1, hq1] at ho hb'
      simp only at ho hb'
      have hkd := hb'.keyed ho
      have hstep : (e.p.step (.sendInsert n now)).sent = e.p.sent ++ [(n, (chooseKey id e.p.counter).1, now + e.p.timeout)] ∧
          (e.p.step (.sendInsert n now)).pending = AMap.put e.p.pending (chooseKey id e.p.counter).1 n := by
        simp only [P.step, P.sendInsert, hw1]
        exact ⟨trivial, trivial⟩
      have hid : id = q.id := by
        obtain ⟨pops, hhist⟩ := hb.hist
        have := hhist.linked.checked n id (AMap.get_some_mem hw1)
        rw [hhist.ids, List.getElem?_map, hq1] at this
        cases this; rfl
      have hsp := stamped_plain (hpl.given q (List.mem_of_getElem? hq1)) (k := (chooseKey id e.p.counter).1) (by rw [← hid]; exact chooseKey_for id e.p.counter)
      have hev := event_request hsp.1
      have hnew : ∀ n' dl', (n', (chooseKey id e.p.counter).1, dl') ∉ e.p.sent := by
        intro n' dl' hm
        have hnd := hkd.nodup
        simp only at hnd
        rw [hstep.1, List.map_append, List.nodup_append] at hnd
        exact hnd.2.2 _ (List.mem_map.2 ⟨_, hm, rfl⟩) _ (by simp) rfl
      have htx : textsOf (D := D) [serRequest (stamped q (chooseKey id e.p.counter).1)] = [(chooseKey id e.p.counter).1] := by
        simp only [textsOf, requestsIn, List.filterMap_cons, hev, List.filterMap_nil, List.map_cons, List.map_nil, hsp.2.1]
      refine ⟨?_, ?_, f3, ?_⟩
      · simp only
        rw [← List.append_assoc, textsOf_append, htx, List.nodup_append]
        refine ⟨f1, by simp, ?_⟩
        intro a ha b hb2 e2
        simp only [List.mem_singleton] at hb2
        subst hb2; subst e2
        obtain ⟨n', dl', hm⟩ := texts_sent hb hpl ha
        exact hnew n' dl' hm
      · intro hc n' k dl hm
        simp only at hm ⊢
        rw [hstep.1] at hm
        simp only [List.mem_append, List.mem_singleton, Prod.mk.injEq] at hm
        rcases hm with hm | ⟨-, rfl, -⟩
        · obtain ⟨m, h1, h2⟩ := f2 hc n' k dl hm
          exact ⟨m, by rw [← List.append_assoc]; exact List.mem_append_left _ h1, h2⟩
        · exact ⟨serRequest (stamped q (chooseKey id e.p.counter).1), by simp, _, hev, hsp.2.1⟩
      · intro m hm r hr n' hn'
        simp only at hm hn'
        rw [hstep.2] at hn'
        rcases AMap.mem_put.1 hn' with ⟨h1, -⟩ | h1
        · exact f4 m hm r hr n' h1
        · obtain ⟨n2, dl2, h2⟩ := hkey m hm r hr
          simp only [Prod.mk.injEq] at h1
          rw [h1.1] at h2
          exact hnew _ _ h2
    · exact ⟨f1, f2, f3, f4⟩
  | note n =>
    simp only [End.step, End.note]; split
    · have htx : textsOf (D := D) [serNotification n] = [] := by
        simp only [textsOf, requestsIn, List.filterMap_cons, event_note (n := n) hop, List.filterMap_nil, List.map_nil]
      refine ⟨?_, ?_, f3, f4⟩
      · simp only
        rw [← List.append_assoc, textsOf_append, htx, List.append_nil]; exact f1
      · intro hc n' k dl hm
        obtain ⟨m, h1, h2⟩ := f2 hc n' k dl hm
        exact ⟨m, by simp only; rw [← List.append_assoc]; exact List.mem_append_left _ h1, h2⟩
    · exact ⟨f1, f2, f3, f4⟩
  | push i =>
    simp only [End.step, End.push]
    split
    · rename_i m hm
      have ha := writes_aside { e with ready := e.ready.eraseIdx i } (.enqueue m)
      have hww := writes_w { e with ready := e.ready.eraseIdx i } (.enqueue m)
      have hpp : ({ e with ready := e.ready.eraseIdx i }.writes (.enqueue m)).p.sent = e.p.sent ∧
          ({ e with ready := e.ready.eraseIdx i }.writes (.enqueue m)).p.pending = e.p.pending := by
        rcases writes_p { e with ready := e.ready.eraseIdx i } (.enqueue m) with h | h <;> rw [h] <;> exact ⟨rfl, rfl⟩
      have hoff := wstep_off e.w (.enqueue m)
      refine ⟨?_, ?_, ?_, by rw [ha.taken, hpp.2]; exact f4⟩
      · rw [ha.ready, hww]
        simp only [W.step, W.enqueue]
        split
        · exact (textsOf_sub (List.Sublist.append (List.Sublist.refl _) (List.eraseIdx_sublist _ _))).nodup f1
        · refine (textsOf_perm (D := D) (a := (e.w.accepted ++ [m]) ++ e.ready.eraseIdx i) ?_).nodup_iff.2 f1
          rw [List.append_assoc]
          exact (erase_perm hm).append_left _
      · rw [hww, ha.ready, hpp.1]
        intro hc n' k dl hs
        obtain ⟨m', h1, h2⟩ := f2 (hoff hc) n' k dl hs
        refine ⟨m', ?_, h2⟩
        revert hc
        simp only [W.step, W.enqueue]
        split
        · simp
        · intro _
          simp only
          rw [List.append_assoc]
          exact ((erase_perm hm).append_left _).mem_iff.2 h1
      · rw [hww, ha.replies]
        intro hc q o hq
        exact (wstep_mono e.w _).2.subset (f3 (hoff hc) q o hq)
    · exact ⟨f1, f2, f3, f4⟩
  | dequeue => exact hw _ (by simp)
  | write k => exact hw _ (by simp)
  | writeFail => exact hw _ (by simp)
  | finish => exact hw _ (by simp)
  | setMax n => exact hw _ (by simp)
  | read k => simp only [End.step, End.read]; split <;> exact gen _ rfl rfl id rfl rfl rfl (fun _ => id)
  | decode =>
    simp only [End.step, End.decode]
    split
    · rcases hdec with h1 | ⟨m, rest, tail, h1, h2, h3, h4⟩ | ⟨m, rest, k, h1, h2, h3⟩
      · rw [h1]; exact ⟨f1, f2, f3, f4⟩
      · rw [h4]
        simp only
        have other : ∀ {ev : Ev D}, event m = ev → (∀ r, ev ≠ .response r) → ∀ m' ∈ e.taken ++ [m], ∀ r : Response D, event m' = .response r →
            ∀ n, (idText r.id, n) ∉ e.p.pending := by
          intro ev hev hne m' hm' r hr
          simp only [List.mem_append, List.mem_singleton] at hm'
          rcases hm' with hm' | rfl
          · exact f4 m' hm' r hr
          · rw [hev] at hr; exact absurd hr (hne r)
        unfold End.process
        split
        all_goals rename_i hev
        · rename_i r
          refine ⟨f1, ?_, f3, ?_⟩
          · intro hc n' k dl hm
            simp only at hm
            rw [sent_same _ _ (by simp)] at hm
            exact f2 hc n' k dl hm
          · intro m' hm' r' hr' n' hn'
            have hn2 := complete_sub hn'
            simp only [List.mem_append, List.mem_singleton] at hm'
            rcases hm' with hm' | rfl
            · exact f4 m' hm' r' hr' n' hn2.1
            · rw [hev] at hr'; cases hr'; exact hn2.2 rfl
        · exact ⟨f1, f2, f3, other hev (by simp)⟩
        · exact ⟨f1, f2, f3, other hev (by simp)⟩
        · exact ⟨f1, f2, f3, other hev (by simp)⟩
      · rw [h3]; exact gen _ rfl rfl (by simp [End.cut, W.step]) rfl rfl rfl (fun _ => id)
    · exact ⟨f1, f2, f3, f4⟩
  | work b =>
    simp only [End.step, End.work]
    split
    · exact ⟨f1, f2, f3, f4⟩
    · rename_i j hj
      obtain ⟨hj1, hj2⟩ := hpl.job j hj
      split
      · rename_i o hprog
        rw [hprog] at hj2
        have ha := writes_aside { e with job := none, replies := e.replies ++ [(j.req, o)] } (.enqueue (serResponse (replyFor j.req o)))
        have hww := writes_w { e with job := none, replies := e.replies ++ [(j.req, o)] } (.enqueue (serResponse (replyFor j.req o)))
        have hpp : ({ e with job := none, replies := e.replies ++ [(j.req, o)] }.writes (.enqueue (serResponse (replyFor j.req o)))).p.sent = e.p.sent ∧
            ({ e with job := none, replies := e.replies ++ [(j.req, o)] }.writes (.enqueue (serResponse (replyFor j.req o)))).p.pending = e.p.pending := by
          rcases writes_p { e with job := none, replies := e.replies ++ [(j.req, o)] } (.enqueue (serResponse (replyFor j.req o))) with h | h <;>
            rw [h] <;> exact ⟨rfl, rfl⟩
        have hoff := wstep_off e.w (.enqueue (serResponse (replyFor j.req o)))
        have hev := event_reply hj1.1 hj2
        have htx : textsOf (D := D) [serResponse (replyFor j.req o)] = [] := by
          simp only [textsOf, requestsIn, List.filterMap_cons, hev, List.filterMap_nil, List.map_nil]
        refine ⟨?_, ?_, ?_, by rw [ha.taken, hpp.2]; exact f4⟩
        · rw [ha.ready, hww]
          simp only [W.step, W.enqueue]
          split
          · exact f1
          · simp only
            rw [textsOf_append, textsOf_append, htx, List.append_nil, ← textsOf_append]; exact f1
        · rw [hww, ha.ready, hpp.1]
          intro hc n' k dl hs
          obtain ⟨m', h1, h2⟩ := f2 (hoff hc) n' k dl hs
          refine ⟨m', ?_, h2⟩
          rcases List.mem_append.1 h1 with h1 | h1
          · exact List.mem_append_left _ ((wstep_mono e.w _).2.subset h1)
          · exact List.mem_append_right _ h1
        · rw [hww, ha.replies]
          intro hc q o' hq
          simp only [List.mem_append, List.mem_singleton, Prod.mk.injEq] at hq
          rcases hq with hq | ⟨rfl, rfl⟩
          · exact (wstep_mono e.w _).2.subset (f3 (hoff hc) q o' hq)
          · revert hc
            simp only [W.step, W.enqueue]
            split
            · simp
            · simp
      · exact gen _ rfl rfl id rfl rfl rfl (fun _ => id)
      · rename_i q k hprog hwait
        exact gen _ rfl rfl id (hchk q).1 rfl rfl (hchk q).2
      · split
        · exact ⟨f1, f2, f3, f4⟩
        · exact gen _ rfl rfl id rfl rfl rfl (fun _ => id)
  | sweep now => exact gen _ rfl rfl id (sent_same _ _ (by simp)) rfl rfl (fun _ hx => pending_sub _ _ (by simp) hx)
  | cut => exact gen _ rfl rfl (by simp [End.step, End.cut, W.step]) rfl rfl rfl (fun _ => id)
  | close => exact gen _ rfl rfl (by simp [End.step, End.cut, W.step]) rfl rfl rfl (fun _ hx => pending_sub e.p .close (by simp) hx)
  | setTimeout t => exact gen _ rfl rfl id rfl rfl rfl (fun _ => id)

theorem flow_init : Flow (End.init : End D) := by
  refine ⟨?_, ?_, ?_, ?_⟩ <;> simp [End.init, W.init, P.init, textsOf, requestsIn]

theorem given_run (c : Cfg D) (y : Bool) (ops : List (Bool × EndOp D)) : ∀ s : Pair D, (s.get y).given <+: ((s.run c ops).get y).given := by
  induction ops with
  | nil => intro s; exact List.prefix_rfl
  | cons op ops ih => intro s; exact (grows_pair c s op y).given.trans (ih _)

theorem flow_run {c : Cfg D} (hh : ∀ y q, PlainProg (c.handler y q)) (y : Bool) (ops : List (Bool × EndOp D)) : ∀ {s : Pair D}, Good s → PlainPair s →
    Flow (s.get y) → (∀ op ∈ ops, PlainStep op) → OwnTexts (((s.run c ops).get y).given.map (·.id)) → Flow ((s.run c ops).get y) := by
  induction ops with
  | nil => intro s _ _ hf _ _; exact hf
  | cons op ops ih =>
    intro s hg hp hf hops ho
    refine ih (good_step c hg op) (plain_step hh hg hp op (hops op (by simp))) ?_ (fun o hm => hops o (by simp [hm])) ho
    have ho' : OwnTexts ((((s.step c op)).get y).given.map (·.id)) := ownTexts_prefix ((given_run c y ops _).map _) ho
    have hpop := hops op (by simp)
    obtain ⟨x, op⟩ := op
    rw [step_get] at ho' ⊢
    split
    · rename_i hx
      subst hx
      rw [if_pos rfl] at ho'
      exact flow_own hh hg hp x hf op hpop ho'
    · exact hf

end Verif.Duplex
