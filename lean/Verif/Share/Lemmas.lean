import Verif.Share.Model
import Verif.SharedMemory.IdProps
import Verif.Whole.OnlyProps

/-! Helper lemmas for C133: what a step of the client, the pair and the server together does to each of them. -/

set_option linter.unusedSectionVars false

namespace Verif.Share

open Verif.Await Verif.Client Verif.Server Verif.Shm
open Verif.Whole (asRequest asking snoc_induction lt_of_get paths_step cells_step cells_other go_quiet go_asks RunFor dispatch_runs own_runs)
open Verif.Stdio (idText)
open Verif.Duplex (get_prefix)
open Verif.InMemory (PlainReq PlainNote PlainOut)

variable {D H : Type} [DblFmt D]

abbrev NOp (D : Type) := Shm.Op D

theorem run_nil (c : Cfg) (x : Bool) (w : World D H) : w.run c x [] = w := rfl

theorem run_snoc (c : Cfg) (x : Bool) (w : World D H) (ops : List (Op D H)) (op : Op D H) : w.run c x (ops ++ [op]) = (w.run c x ops).step c x op := by
  simp [World.run, List.foldl_append]

/-! ### The client -/

/-- What a step does to the client. -/
inductive ClientMove (s : CSys D) : Op D H → CSys D → Prop
  | stay (op : Op D H) : ClientMove s op s
  | call (api : Api D) : ClientMove s (.call api) (s.step (.call (body api)))
  | go (i : Nat) : ClientMove s (.go i) (s.step (.go i))
  | drop (i : Nat) : ClientMove s (.drop i) (s.step (.drop i))
  | change (u : Self D → Self D) : ClientMove s (.change u) (s.step (.change u))
  | fill (k : Nat) (o : Client.Outcome D) : ClientMove s (.deliver k) (s.step (.fill k o))

theorem client_step (c : Cfg) (x : Bool) (w : World D H) (op : Op D H) : ClientMove w.client op (w.step c x op).client := by
  cases op with
  | call api => exact .call api
  | go i => simp only [World.step, World.go]; split <;> (try split) <;> (try split) <;> exact .go i
  | drop i => exact .drop i
  | change u => exact .change u
  | deliver n =>
    simp only [World.step, World.deliver]
    split
    · split
      · exact .fill n _
      · exact .stay _
    · exact .stay _
  | file i => simp only [World.step, World.file]; split <;> exact .stay _
  | wire op => simp only [World.step]; split <;> exact .stay _
  | serve i env =>
    simp only [World.step, World.serve]
    split
    · exact .stay _
    · split
      · exact .stay _
      · split <;> exact .stay _
  | own op => simp only [World.step]; split <;> (try split) <;> exact .stay _

/-- The client goes through an execution of its own. -/
theorem client_run (c : Cfg) (x : Bool) (s0 : Self D) (srv : Srv D H) (ops : List (Op D H)) :
    ∃ cops, ((World.init c s0 srv).run c x ops).client = (Sys.init s0).run cops ∧
      (∀ b, Await.Op.call b ∈ cops → ∃ api, b = body api ∧ Op.call api ∈ ops) ∧ (∀ u, Await.Op.change u ∈ cops → Op.change u ∈ ops) := by
  induction ops using snoc_induction with
  | h0 => exact ⟨[], rfl, by simp, by simp⟩
  | h1 ops op ih =>
    obtain ⟨cops, h1, h2, h3⟩ := ih
    rw [run_snoc]
    have hm := client_step c x ((World.init c s0 srv).run c x ops) op
    have more : ∀ cop : COp D, ((((World.init c s0 srv).run c x ops).step c x op).client = ((World.init c s0 srv).run c x ops).client.step cop) →
        (∀ b, cop = .call b → ∃ api, b = body api ∧ op = .call api) → (∀ u, cop = .change u → op = .change u) →
        ∃ cops, (((World.init c s0 srv).run c x ops).step c x op).client = (Sys.init s0).run cops ∧
          (∀ b, Await.Op.call b ∈ cops → ∃ api, b = body api ∧ Op.call api ∈ ops ++ [op]) ∧ (∀ u, Await.Op.change u ∈ cops → Op.change u ∈ ops ++ [op]) := by
      intro cop h4 h5 h6
      refine ⟨cops ++ [cop], ?_, ?_, ?_⟩
      · rw [h4, h1, Await.run_append]; rfl
      · intro b hb
        rcases List.mem_append.1 hb with hb | hb
        · obtain ⟨api, h7, h8⟩ := h2 b hb
          exact ⟨api, h7, List.mem_append_left _ h8⟩
        · obtain ⟨api, h7, h8⟩ := h5 b (List.mem_singleton.1 hb).symm
          exact ⟨api, h7, by rw [h8]; simp⟩
      · intro u hu
        rcases List.mem_append.1 hu with hu | hu
        · exact List.mem_append_left _ (h3 u hu)
        · rw [h6 u (List.mem_singleton.1 hu).symm]; simp
    generalize hs : (((World.init c s0 srv).run c x ops).step c x op).client = s' at hm more
    cases hm with
    | stay =>
      exact ⟨cops, h1, fun b hb => (h2 b hb).imp fun api h => ⟨h.1, List.mem_append_left _ h.2⟩, fun u hu => List.mem_append_left _ (h3 u hu)⟩
    | call api => exact more _ rfl (fun b hb => by cases hb; exact ⟨api, rfl, rfl⟩) (fun u hu => nomatch hu)
    | go i => exact more _ rfl (fun b hb => nomatch hb) (fun u hu => nomatch hu)
    | drop i => exact more _ rfl (fun b hb => nomatch hb) (fun u hu => nomatch hu)
    | change u => exact more _ rfl (fun b hb => nomatch hb) (fun u' hu => by cases hu; rfl)
    | fill n o => exact more _ rfl (fun b hb => nomatch hb) (fun u hu => nomatch hu)

/-! ### The pair goes through an execution of its own -/

/-- The step of the pair that a step of the system is, if any. -/
def netOf (x : Bool) (w : World D H) : Op D H → Option (NOp D)
  | .go i =>
    match asking w.client i with
    | some q => if w.client.ub = false ∧ w.client.alive = true then some (.send x (asRequest q)) else none
    | none => none
  | .file i => match w.waits[i]? with | some _ => some (.file x i) | none => none
  | .wire op => if reserved x op || (w.dead && actor op != x) then none else some op
  | .serve i env =>
    if w.dead then none else
      match (w.net.get (!x)).jobs[i]? with
      | none => none
      | some q => match (dispatch env w.srv q).1 with | .answer r => some (.reply (!x) i (.resp r)) | _ => none
  | _ => none

def netOps (x : Bool) (w : World D H) (op : Op D H) : List (NOp D) := (netOf x w op).toList

theorem netOps_length (x : Bool) (w : World D H) (op : Op D H) : (netOps x w op).length ≤ 1 := by
  unfold netOps
  cases netOf x w op <;> simp

def trace (c : Cfg) (x : Bool) : World D H → List (Op D H) → List (NOp D)
  | _, [] => []
  | w, op :: ops => netOps x w op ++ trace c x (w.step c x op) ops

theorem trace_snoc (c : Cfg) (x : Bool) (w : World D H) (ops : List (Op D H)) (op : Op D H) :
    trace c x w (ops ++ [op]) = trace c x w ops ++ netOps x (w.run c x ops) op := by
  induction ops generalizing w with
  | nil => simp [trace, run_nil]
  | cons o ops ih => simp only [List.cons_append, trace, ih, List.append_assoc]; rfl

theorem trace_length (c : Cfg) (x : Bool) (w : World D H) (ops : List (Op D H)) : (trace c x w ops).length ≤ ops.length := by
  induction ops generalizing w with
  | nil => exact Nat.le_refl _
  | cons o ops ih =>
    have := ih (w.step c x o)
    have := netOps_length x w o
    simp only [trace, List.length_append, List.length_cons]; omega

theorem net_step (c : Cfg) (x : Bool) (w : World D H) (op : Op D H) : (w.step c x op).net = w.net.run c (netOps x w op) := by
  cases op with
  | go i =>
    simp only [World.step, World.go, netOps, netOf]
    cases hq : asking w.client i with
    | none => rfl
    | some q => dsimp only; by_cases hs : w.client.ub = false ∧ w.client.alive = true
                · rw [if_pos hs, if_pos hs]; split <;> rfl
                · rw [if_neg hs, if_neg hs]; rfl
  | file i =>
    simp only [World.step, World.file, netOps, netOf]
    cases w.waits[i]? <;> rfl
  | deliver n =>
    simp only [World.step, World.deliver, netOps, netOf]
    split
    · split <;> rfl
    · rfl
  | wire op => simp only [World.step, netOps, netOf]; split <;> rfl
  | serve i env =>
    simp only [World.step, World.serve, netOps, netOf]
    split
    · rfl
    · cases hj : (w.net.get (!x)).jobs[i]? with
      | none => rfl
      | some q => dsimp only; cases hr : (dispatch env w.srv q).1 <;> rfl
  | own op => simp only [World.step, netOps, netOf]; split <;> (try split) <;> rfl
  | call api => rfl
  | drop i => rfl
  | change u => rfl

/-- The steps of the pair in an execution, with the two starts. -/
def begun (c : Cfg) (x : Bool) (s0 : Self D) (srv : Srv D H) (ops : List (Op D H)) : List (NOp D) :=
  [.start false, .start true] ++ trace c x (World.init c s0 srv) ops

theorem net_world (c : Cfg) (x : Bool) (s0 : Self D) (srv : Srv D H) (ops : List (Op D H)) :
    ((World.init c s0 srv).run c x ops).net = (Net.init true true).run c (begun c x s0 srv ops) := by
  induction ops using snoc_induction with
  | h0 => rfl
  | h1 ops op ih =>
    rw [run_snoc, net_step, ih, begun, begun, trace_snoc]
    simp [Net.run, List.foldl_append]

theorem begun_length (c : Cfg) (x : Bool) (s0 : Self D) (srv : Srv D H) (ops : List (Op D H)) : (begun c x s0 srv ops).length ≤ ops.length + 2 := by
  have := trace_length c x (World.init c s0 srv) ops
  simp only [begun, List.length_append, List.length_cons, List.length_nil]; omega

/-! ### What a step of the pair leaves of one side -/

/-- All but sending and filing on this side. -/
structure Calm (e e' : Endpoint D) : Prop where
  tickets : e'.tickets = e.tickets
  asked : e'.asked = e.asked
  next : e'.tab.nextFut = e.tab.nextFut
  outcomes : ∃ more, e'.tab.outcomes = e.tab.outcomes ++ more ∧ ∀ n, (n, Outcome.broken) ∉ more

theorem Calm.same {e e' : Endpoint D} (h1 : e'.tickets = e.tickets) (h2 : e'.asked = e.asked) (h3 : e'.tab = e.tab) : Calm e e' :=
  ⟨h1, h2, by rw [h3], [], by rw [h3]; simp, fun n h => nomatch h⟩

theorem Calm.rfl {e : Endpoint D} : Calm e e := .same (Eq.refl _) (Eq.refl _) (Eq.refl _)

theorem Calm.trans {a b c : Endpoint D} (h : Calm a b) (h' : Calm b c) : Calm a c := by
  obtain ⟨m1, h1, h2⟩ := h.outcomes
  obtain ⟨m2, h3, h4⟩ := h'.outcomes
  refine ⟨h'.tickets.trans h.tickets, h'.asked.trans h.asked, h'.next.trans h.next, m1 ++ m2, by rw [h3, h1, List.append_assoc], fun n hn => ?_⟩
  rcases List.mem_append.1 hn with hn | hn
  · exact h2 n hn
  · exact h4 n hn

theorem Calm.complete {e : Endpoint D} (k : Bytes) {o : Shm.Outcome D} (ho : o ≠ .broken) {e' : Endpoint D} (h1 : e'.tickets = e.tickets) (h2 : e'.asked = e.asked)
    (h3 : e'.tab = e.tab.complete k o) : Calm e e' := by
  unfold PTab.complete at h3
  split at h3
  · exact ⟨h1, h2, by rw [h3], [(_, o)], by rw [h3], fun n h => ho (by cases List.mem_singleton.1 h; rfl)⟩
  · exact .same h1 h2 h3

theorem Calm.closeAll {e : Endpoint D} {f : Bytes → Shm.Outcome D} (hf : ∀ k, f k ≠ .broken) {e' : Endpoint D} (h1 : e'.tickets = e.tickets) (h2 : e'.asked = e.asked)
    (h3 : e'.tab = e.tab.closeAll f) : Calm e e' := by
  refine ⟨h1, h2, by rw [h3]; rfl, _, by rw [h3]; rfl, fun n h => ?_⟩
  obtain ⟨p, -, hp⟩ := List.mem_map.1 h
  injection hp with _ hp
  exact hf _ hp

theorem calm_upd (s : Net D) (z y : Bool) {f : Endpoint D → Endpoint D} (h : ∀ e, Calm e (f e)) : Calm (s.get y) ((s.upd z f).get y) := by
  rw [get_upd]; split
  · exact h _
  · exact .rfl

theorem calm_push (s : Net D) (z y : Bool) (t : Bytes) : Calm (s.get y) ((s.push z t).get y) := by
  rw [get_push]; split
  · exact Calm.same (e := s.get y) (e' := { s.get y with log := (s.get y).log ++ [t] }) rfl rfl rfl
  · exact Calm.same (e := s.get y) (e' := { s.get y with queue := (s.get y).queue ++ [t] }) rfl rfl rfl

theorem calm_put (c : Cfg) (s : Net D) (z y : Bool) (t : Bytes) : Calm (s.get y) ((s.put c z t).get y) := by
  unfold Net.put; split
  · exact calm_push _ _ _ _
  · exact .rfl

theorem calm_apply (e : Endpoint D) (ev : Event D) : Calm e { e.apply ev with current := none } := by
  cases ev with
  | resolve r => exact .complete (idText r.id) (o := .response r) (fun h => nomatch h) rfl rfl rfl
  | disconnected => exact .closeAll (f := .peerGone) (fun k h => nomatch h) rfl rfl rfl
  | request r => exact .same rfl rfl rfl
  | notification n => exact .same rfl rfl rfl
  | dropped => exact .same rfl rfl rfl

theorem calm_step (c : Cfg) (s : Net D) (op : NOp D) (y : Bool) (h1 : ∀ r, op ≠ .send y r) (h2 : ∀ i, op ≠ .file y i) :
    Calm (s.get y) ((s.step c op).get y) := by
  cases op with
  | start z =>
    show Calm _ ((s.start z).get y)
    rcases get_start s z y with h | h <;> rw [h]
    · exact .rfl
    · exact .same rfl rfl rfl
  | send z r =>
    show Calm _ ((s.upd z _).get y)
    rw [get_upd]; split
    · rename_i hz; subst hz; exact absurd rfl (h1 r)
    · exact .rfl
  | file z i =>
    show Calm _ ((s.upd z _).get y)
    rw [get_upd]; split
    · rename_i hz; subst hz; exact absurd rfl (h2 i)
    · exact .rfl
  | deliver z i =>
    simp only [Net.step, Net.deliver]
    split
    · exact .rfl
    · rename_i key r _
      have h1 : Calm (s.get y) ((s.upd z fun e => { e with sending := e.sending.eraseIdx i }).get y) := calm_upd s z y fun e => .same rfl rfl rfl
      try dsimp only
      split
      · exact h1.trans (calm_push _ _ _ _)
      · refine h1.trans (calm_upd _ _ _ fun e => .complete key (o := if c.size z < (serRequest r).length then .tooLarge r.id else .sendFailed r.id) ?_ rfl rfl rfl)
        split <;> exact fun h => nomatch h
  | notify z n => exact calm_put c s z y _
  | take z =>
    refine calm_upd s z y fun e => ?_
    obtain ⟨-, h2, -, -, -, -, h7, -, h9⟩ := take_frame c z e
    exact .same h9 h2 h7
  | handle z =>
    refine calm_upd s z y fun e => ?_
    unfold Endpoint.handle
    split
    · exact .rfl
    · exact calm_apply _ _
  | reply z i out =>
    simp only [Net.step, Net.reply]
    split
    · exact .rfl
    · rename_i req _
      have h1 : ∀ ok, Calm (s.get y) ((s.upd z fun e => { e with jobs := e.jobs.eraseIdx i, answered := e.answered ++ [(req, out, ok)] }).get y) :=
        fun ok => calm_upd s z y fun e => .same rfl rfl rfl
      try dsimp only
      split
      · exact (h1 _).trans (calm_push _ _ _ _)
      · exact h1 _
  | loopEnd z =>
    refine calm_upd s z y fun e => ?_
    unfold Endpoint.loopEnd
    split
    · exact .closeAll (f := .closed) (fun k h => nomatch h) rfl rfl rfl
    · exact .rfl
  | closeTell => exact calm_put c s false y _
  | closeFlag z => exact calm_upd s z y fun e => .same rfl rfl rfl
  | closeEnd z =>
    show Calm _ ((s.closeEnd z).get y)
    rcases get_closeEnd s z y with h | h <;> rw [h]
    · exact .rfl
    · exact .closeAll (f := .closed) (fun k h => nomatch h) rfl rfl rfl
  | tick z => exact calm_upd s z y fun e => .same rfl rfl rfl

/-! ### The ids of one side are its own -/

/-- No request of this side comes with an id; the ids made differ, and no promise was destroyed unset. -/
structure Ids (e : Endpoint D) : Prop where
  tickets : ∀ r ∈ e.tickets, r.id = .str []
  made : ∀ n r, (n, r) ∈ e.asked → ∃ k, k ≤ e.counter ∧ r.id = .str (lit "shm-req-" ++ natDec k)
  apart : (e.asked.map fun p => idText p.2.id).Nodup
  kept : ∀ n, (n, Outcome.broken) ∉ e.tab.outcomes

theorem Ids.calm {e e' : Endpoint D} (h : Ids e) (hc : Calm e e') (hk : e.counter ≤ e'.counter) : Ids e' := by
  obtain ⟨more, h1, h2⟩ := hc.outcomes
  refine ⟨by rw [hc.tickets]; exact h.tickets, fun n r hr => ?_, by rw [hc.asked]; exact h.apart, fun n hn => ?_⟩
  · rw [hc.asked] at hr
    obtain ⟨k, h3, h4⟩ := h.made n r hr
    exact ⟨k, Nat.le_trans h3 hk, h4⟩
  · rw [h1] at hn
    rcases List.mem_append.1 hn with hn | hn
    · exact h.kept n hn
    · exact h2 n hn

theorem Ids.send {e : Endpoint D} (h : Ids e) {r : Request D} (hr : r.id = .str []) : Ids (e.send r) := by
  unfold Endpoint.send
  split
  · refine ⟨fun q hq => ?_, h.made, h.apart, h.kept⟩
    rcases List.mem_append.1 hq with hq | hq
    · exact h.tickets q hq
    · cases List.mem_singleton.1 hq; exact hr
  · refine ⟨h.tickets, h.made, h.apart, fun n hn => ?_⟩
    rcases List.mem_append.1 hn with hn | hn
    · exact h.kept n hn
    · cases List.mem_singleton.1 hn

theorem Ids.file {e : Endpoint D} (h : Ids e) (ht : e.tab.Inv Fits Loose) (hk : e.asked.map (fun p => (p.1, idText p.2.id)) = e.tab.sent)
    (hc : e.counter + 1 < 2 ^ 64) (i : Nat) : Ids (e.file i) := by
  unfold Endpoint.file
  split
  · exact h
  · rename_i r hr
    have hid := h.tickets r (List.mem_of_getElem? hr)
    have hch : chooseId r.id e.counter = (.str (lit "shm-req-" ++ natDec (e.counter + 1)), e.counter + 1) := by
      rw [hid]
      unfold chooseId
      rw [nextCount_succ hc]
      rfl
    dsimp only
    rw [hch]
    have hnew : ∀ p ∈ e.asked, idText p.2.id ≠ lit "shm-req-" ++ natDec (e.counter + 1) := by
      rintro ⟨n, q⟩ hp he
      obtain ⟨k, h1, h2⟩ := h.made n q hp
      rw [h2] at he
      have he := List.append_cancel_left (show lit "shm-req-" ++ natDec k = lit "shm-req-" ++ natDec (e.counter + 1) from he)
      have := congrArg digitsVal he
      rw [digitsVal_natDec, digitsVal_natDec] at this
      omega
    refine ⟨fun q hq => h.tickets q (InMemory.mem_of_eraseIdx hq), fun n q hq => ?_, ?_, fun n hn => ?_⟩
    · rcases List.mem_append.1 hq with hq | hq
      · obtain ⟨k, h1, h2⟩ := h.made n q hq
        exact ⟨k, Nat.le_succ_of_le h1, h2⟩
      · cases List.mem_singleton.1 hq
        exact ⟨_, Nat.le_refl _, rfl⟩
    · rw [List.map_append, List.nodup_append]
      refine ⟨h.apart, by simp, fun a ha b hb hab => ?_⟩
      obtain ⟨p, hp, rfl⟩ := List.mem_map.1 ha
      have hb := List.mem_singleton.1 (show b ∈ [lit "shm-req-" ++ natDec (e.counter + 1)] from hb)
      exact hnew p hp (hab.trans hb)
    · have hnone : AMap.get e.tab.pending (lit "shm-req-" ++ natDec (e.counter + 1)) = none := by
        cases hg : AMap.get e.tab.pending (lit "shm-req-" ++ natDec (e.counter + 1)) with
        | none => rfl
        | some m =>
          have h1 := ht.pend _ _ (AMap.get_some_mem hg)
          rw [← hk] at h1
          obtain ⟨p, hp, he⟩ := List.mem_map.1 h1
          injection he with _ he
          exact absurd he (hnew p hp)
      have hn : (n, Outcome.broken) ∈ (e.tab.insert (lit "shm-req-" ++ natDec (e.counter + 1)) .broken).outcomes := hn
      unfold PTab.insert at hn
      rw [hnone] at hn
      exact h.kept n hn

theorem ids_step {c : Cfg} {s : Net D} {y : Bool} (h : Ids (s.get y)) (ht : TabInv s) (hk : AskedInv s) (hc : (s.get y).counter + 1 < 2 ^ 64) (op : NOp D)
    (hop : ∀ r, op = .send y r → r.id = .str []) : Ids ((s.step c op).get y) := by
  by_cases h1 : ∃ r, op = .send y r
  · obtain ⟨r, rfl⟩ := h1
    show Ids ((s.upd y _).get y)
    rw [get_upd_same]
    exact h.send (hop r rfl)
  · by_cases h2 : ∃ i, op = .file y i
    · obtain ⟨i, rfl⟩ := h2
      show Ids ((s.upd y _).get y)
      rw [get_upd_same]
      exact h.file (ht y).1 (hk y) hc i
    · refine h.calm (calm_step c s op y (fun r e => h1 ⟨r, e⟩) fun i e => h2 ⟨i, e⟩) ?_
      rcases counter_step c s op y with g | g <;> rw [g]
      · exact Nat.le_refl _
      · rw [nextCount_succ hc]; exact Nat.le_succ _

theorem ids_run {c : Cfg} {y : Bool} (ops : List (NOp D)) (hops : ∀ op ∈ ops, ∀ r, op = .send y r → r.id = .str []) :
    ∀ {s : Net D}, Ids (s.get y) → TabInv s → AskedInv s → (s.get y).counter + ops.length < 2 ^ 64 → Ids ((s.run c ops).get y) := by
  induction ops with
  | nil => exact fun h _ _ _ => h
  | cons op ops ih =>
    intro s h ht hk hc
    simp only [List.length_cons] at hc
    refine ih (fun o ho => hops o (List.mem_cons_of_mem _ ho)) (s := s.step c op) (ids_step h ht hk (by omega) op (hops op (List.mem_cons_self ..)))
      (tabInv_step ht c op) (askedInv_step hk c op) ?_
    have := counter_step c s op y
    rw [nextCount_succ (by omega)] at this
    omega

/-- The client's side sends what the calls ask for and nothing else. -/
theorem netOps_send {x : Bool} {w : World D H} {op : Op D H} {r : Request D} (h : Shm.Op.send x r ∈ netOps x w op) :
    ∃ i q, op = .go i ∧ asking w.client i = some q ∧ (w.client.ub = false ∧ w.client.alive = true) ∧ r = asRequest q := by
  unfold netOps at h
  cases op with
  | go i =>
    simp only [netOf] at h
    split at h
    · rename_i q hq
      split at h
      · rename_i hs
        cases List.mem_singleton.1 (show _ ∈ [_] from h)
        exact ⟨i, q, rfl, hq, hs, rfl⟩
      · cases h
    · cases h
  | wire op =>
    simp only [netOf] at h
    split at h
    · cases h
    · rename_i hr
      have := List.mem_singleton.1 (show _ ∈ [_] from h)
      subst this
      exact absurd (by simp [reserved]) hr
  | file i =>
    simp only [netOf] at h
    split at h
    · cases List.mem_singleton.1 (show _ ∈ [_] from h)
    · cases h
  | serve i env =>
    simp only [netOf] at h
    split at h
    · cases h
    · split at h
      · cases h
      · split at h
        · cases List.mem_singleton.1 (show _ ∈ [_] from h)
        · cases h
  | call api => cases h
  | drop i => cases h
  | change u => cases h
  | deliver n => cases h
  | own op => cases h

theorem begun_sends (c : Cfg) (x : Bool) (s0 : Self D) (srv : Srv D H) (ops : List (Op D H)) {r : Request D} (h : Shm.Op.send x r ∈ begun c x s0 srv ops) :
    r.id = .str [] := by
  rcases List.mem_append.1 h with h | h
  · simp at h
  · induction ops using snoc_induction with
    | h0 => cases h
    | h1 ops op ih =>
      rw [trace_snoc] at h
      rcases List.mem_append.1 h with h' | h'
      · exact ih (List.mem_append_right _ h') h'
      · obtain ⟨i, q, -, -, -, rfl⟩ := netOps_send h'
        rfl

theorem tab_world (c : Cfg) (x : Bool) (s0 : Self D) (srv : Srv D H) (ops : List (Op D H)) : TabInv ((World.init c s0 srv).run c x ops).net := by
  rw [net_world]; exact tabInv_run (tabInv_init true true) c _

theorem asked_world (c : Cfg) (x : Bool) (s0 : Self D) (srv : Srv D H) (ops : List (Op D H)) : AskedInv ((World.init c s0 srv).run c x ops).net := by
  rw [net_world]; exact askedInv_run c true true _

theorem ids_world (c : Cfg) (x : Bool) (s0 : Self D) (srv : Srv D H) (ops : List (Op D H)) (few : ops.length + 2 < 2 ^ 64) :
    Ids (((World.init c s0 srv).run c x ops).net.get x) := by
  rw [net_world]
  refine ids_run _ (fun op ho r e => begun_sends c x s0 srv ops (by rw [← e]; exact ho)) ?_ (tabInv_init true true) (by intro y; cases y <;> rfl) ?_
  · cases x <;> exact ⟨(fun r h => nomatch h), (fun n r h => nomatch h), List.nodup_nil, (fun n h => nomatch h)⟩
  · have := begun_length c x s0 srv ops
    have h0 : ((Net.init true true : Net D).get x).counter = 0 := by cases x <;> rfl
    rw [h0]; omega

/-! ### Calls and their futures -/

/-- The futures of the calls are those of their requests. -/
structure Link (x : Bool) (w : World D H) : Prop where
  len : w.futs.length = w.client.cells.length
  waits : w.waits.length = (w.net.get x).tickets.length
  waiting : ∀ (i k : Nat), w.waits[i]? = some k → w.futs[k]? = some none
  apart : w.waits.Nodup
  once : ∀ (j k m : Nat), w.futs[j]? = some (some m) → w.futs[k]? = some (some m) → j = k
  below : ∀ (j m : Nat), w.futs[j]? = some (some m) → m < (w.net.get x).tab.nextFut
  sent : ∀ (i : Nat) (z : CCall D) (n : Nat) (q : Req D), w.client.calls[i]? = some z → Ev.sent n q ∈ z.path →
    (∃ j : Nat, w.waits[j]? = some n ∧ (w.net.get x).tickets[j]? = some (asRequest q)) ∨
    ∃ m, w.futs[n]? = some (some m) ∧ ((∃ id, (m, ⟨id, q.method, q.params⟩) ∈ (w.net.get x).asked) ∨ (m, Outcome.refused (.str [])) ∈ (w.net.get x).tab.outcomes)
  cell : ∀ (n : Nat) (o : Client.Outcome D), w.client.cells[n]? = some (some o) →
    ∃ m so, w.futs[n]? = some (some m) ∧ (m, so) ∈ (w.net.get x).tab.outcomes ∧ o = seen so
  known : ∀ m q, (m, q) ∈ (w.net.get x).asked → ∃ n : Nat, w.futs[n]? = some (some m)

/-- Steps that touch neither the tickets nor the futures of the calls. -/
theorem Link.keep {x : Bool} {w w' : World D H} (h : Link x w) (hf : w'.futs = w.futs) (hw : w'.waits = w.waits) (hl : w'.client.cells.length = w.client.cells.length)
    (hg : Calm (w.net.get x) (w'.net.get x))
    (hp : ∀ (j : Nat) (y : CCall D), w'.client.calls[j]? = some y → ∀ (n : Nat) (q : Req D), Ev.sent n q ∈ y.path →
      ∃ z : CCall D, w.client.calls[j]? = some z ∧ Ev.sent n q ∈ z.path)
    (hc : ∀ (n : Nat) (o : Client.Outcome D), w'.client.cells[n]? = some (some o) → w.client.cells[n]? = some (some o) ∨
      ∃ m so, w.futs[n]? = some (some m) ∧ (m, so) ∈ (w.net.get x).tab.outcomes ∧ o = seen so) : Link x w' := by
  obtain ⟨more, ho, -⟩ := hg.outcomes
  have hmem : ∀ p ∈ (w.net.get x).tab.outcomes, p ∈ (w'.net.get x).tab.outcomes := fun p hp => by rw [ho]; exact List.mem_append_left _ hp
  refine ⟨by rw [hf, hl]; exact h.len, by rw [hw, hg.tickets]; exact h.waits, by rw [hw, hf]; exact h.waiting, by rw [hw]; exact h.apart, by rw [hf]; exact h.once,
    by rw [hf, hg.next]; exact h.below, fun i z n q hz hq => ?_, fun n o hn => ?_, by rw [hg.asked, hf]; exact h.known⟩
  · obtain ⟨z', h1, h2⟩ := hp i z hz n q hq
    rcases h.sent i z' n q h1 h2 with ⟨j, h3, h4⟩ | ⟨m, h3, h4 | h4⟩
    · exact .inl ⟨j, by rw [hw]; exact h3, by rw [hg.tickets]; exact h4⟩
    · exact .inr ⟨m, by rw [hf]; exact h3, .inl (by rw [hg.asked]; exact h4)⟩
    · exact .inr ⟨m, by rw [hf]; exact h3, .inr (hmem _ h4)⟩
  · rcases hc n o hn with h1 | ⟨m, so, h1, h2, h3⟩
    · obtain ⟨m, so, h1, h2, h3⟩ := h.cell n o h1
      exact ⟨m, so, by rw [hf]; exact h1, hmem _ h2, h3⟩
    · exact ⟨m, so, by rw [hf]; exact h1, hmem _ h2, h3⟩

/-- A new request enters `SendRequest`. -/
theorem Link.enter {c : Cfg} {x : Bool} {w : World D H} (h : Link x w) {i : Nat} {q : Req D} (hq : asking w.client i = some q)
    (hs : w.client.ub = false ∧ w.client.alive = true) : Link x (w.go c x i) := by
  obtain ⟨h1, h2⟩ := go_asks w.client i q hq hs
  have hcell : ∀ (n : Nat) (o : Client.Outcome D), (w.client.step (.go i)).cells[n]? = some (some o) → w.client.cells[n]? = some (some o) := by
    intro n o hn
    rw [h1] at hn
    rcases Nat.lt_or_ge n w.client.cells.length with hl | hl
    · rwa [List.getElem?_append_left hl] at hn
    · rw [List.getElem?_append_right hl] at hn
      cases hk : n - w.client.cells.length with
      | zero => rw [hk] at hn; cases hn
      | succ k => rw [hk] at hn; cases hn
  have last : ∀ {o : Option Nat} {j : Nat} {v : Option Nat}, (w.futs ++ [o])[j]? = some v → w.futs[j]? = some v ∨ (j = w.futs.length ∧ v = o) := by
    intro o j v hj
    rcases Nat.lt_or_ge j w.futs.length with hl | hl
    · rw [List.getElem?_append_left hl] at hj; exact .inl hj
    · rw [List.getElem?_append_right hl] at hj
      cases hk : j - w.futs.length with
      | zero => rw [hk] at hj; cases hj; exact .inr ⟨by omega, rfl⟩
      | succ k => rw [hk] at hj; cases hj
  have pre : ∀ (o : Option Nat) {j : Nat} {v : Option Nat}, w.futs[j]? = some v → (w.futs ++ [o])[j]? = some v := fun o j v hj => get_prefix (List.prefix_append _ _) hj
  unfold World.go
  rw [hq]
  dsimp only
  rw [if_pos hs]
  have hnet : ((w.net.step c (.send x (asRequest q))).get x) = (w.net.get x).send (asRequest q) := get_upd_same _ _ _
  split
  · rename_i hcon
    have he : (w.net.get x).send (asRequest q) = { w.net.get x with tickets := (w.net.get x).tickets ++ [asRequest q] } := by
      unfold Endpoint.send; rw [if_pos hcon]
    refine ⟨by simp only [List.length_append, h1, h.len]; rfl, ?_, ?_, ?_, ?_, ?_, ?_, ?_, ?_⟩
    · show (w.waits ++ [_]).length = _
      rw [hnet, he]
      simp only [List.length_append, h.waits]; rfl
    · intro j k hj
      have hj : (w.waits ++ [w.futs.length])[j]? = some k := hj
      show (w.futs ++ [none])[k]? = _
      rcases Nat.lt_or_ge j w.waits.length with hl | hl
      · rw [List.getElem?_append_left hl] at hj
        exact pre _ (h.waiting j k hj)
      · rw [List.getElem?_append_right hl] at hj
        cases hk : j - w.waits.length with
        | zero => rw [hk] at hj; cases hj; simp
        | succ k => rw [hk] at hj; cases hj
    · show (w.waits ++ [_]).Nodup
      rw [List.nodup_append]
      refine ⟨h.apart, by simp, fun a ha b hb hab => ?_⟩
      cases List.mem_singleton.1 hb
      obtain ⟨j, hj⟩ := List.getElem?_of_mem ha
      have := lt_of_get (h.waiting j a hj)
      omega
    · intro j k m hj hk
      rcases last hj with hj | ⟨-, hj⟩
      · rcases last hk with hk | ⟨-, hk⟩
        · exact h.once j k m hj hk
        · cases hk
      · cases hj
    · intro j m hj
      rw [hnet, he]
      rcases last hj with hj | ⟨-, hj⟩
      · exact h.below j m hj
      · cases hj
    · intro j z n q' hz hq'
      rw [hnet, he]
      rcases h2 j z hz n q' hq' with ⟨rfl, rfl⟩ | ⟨z', h3, h4⟩
      · refine .inl ⟨w.waits.length, ?_, ?_⟩
        · show (w.waits ++ [_])[_]? = _
          rw [← h.len]; simp
        · show ((w.net.get x).tickets ++ [_])[_]? = _
          rw [h.waits]; simp
      · rcases h.sent j z' n q' h3 h4 with ⟨k, h5, h6⟩ | ⟨m, h5, h6⟩
        · exact .inl ⟨k, get_prefix (List.prefix_append _ _) h5, get_prefix (List.prefix_append _ _) h6⟩
        · exact .inr ⟨m, pre _ h5, h6⟩
    · intro n o hn
      rw [hnet, he]
      obtain ⟨m, so, h5, h6⟩ := h.cell n o (hcell n o hn)
      exact ⟨m, so, pre _ h5, h6⟩
    · intro m g hg
      rw [hnet, he] at hg
      obtain ⟨n, hn⟩ := h.known m g hg
      exact ⟨n, pre _ hn⟩
  · rename_i hcon
    have he : (w.net.get x).send (asRequest q) = { w.net.get x with tab := (w.net.get x).tab.immediate (.refused (.str [])) } := by
      unfold Endpoint.send; rw [if_neg hcon]; rfl
    have hlt : ∀ (j m : Nat), w.futs[j]? = some (some m) → m < (w.net.get x).tab.nextFut := h.below
    refine ⟨by simp only [List.length_append, h1, h.len]; rfl, ?_, ?_, h.apart, ?_, ?_, ?_, ?_, ?_⟩
    · rw [hnet, he]; exact h.waits
    · exact fun j k hj => pre _ (h.waiting j k hj)
    · intro j k m hj hk
      rcases last hj with hj | ⟨g1, hj⟩
      · rcases last hk with hk | ⟨-, hk⟩
        · exact h.once j k m hj hk
        · cases hk; exact absurd (hlt j _ hj) (Nat.lt_irrefl _)
      · cases hj
        rcases last hk with hk | ⟨g2, -⟩
        · exact absurd (hlt k _ hk) (Nat.lt_irrefl _)
        · rw [g1, g2]
    · intro j m hj
      rw [hnet, he]
      show m < (w.net.get x).tab.nextFut + 1
      rcases last hj with hj | ⟨-, hj⟩
      · exact Nat.lt_succ_of_lt (h.below j m hj)
      · cases hj; exact Nat.lt_succ_self _
    · intro j z n q' hz hq'
      rw [hnet, he]
      rcases h2 j z hz n q' hq' with ⟨rfl, rfl⟩ | ⟨z', h3, h4⟩
      · refine .inr ⟨(w.net.get x).tab.nextFut, ?_, .inr ?_⟩
        · show (w.futs ++ [_])[_]? = _
          rw [← h.len]; simp
        · exact List.mem_append_right _ (List.mem_singleton.2 rfl)
      · rcases h.sent j z' n q' h3 h4 with ⟨k, h5, h6⟩ | ⟨m, h5, h6 | h6⟩
        · exact .inl ⟨k, h5, h6⟩
        · exact .inr ⟨m, pre _ h5, .inl h6⟩
        · exact .inr ⟨m, pre _ h5, .inr (List.mem_append_left _ h6)⟩
    · intro n o hn
      rw [hnet, he]
      obtain ⟨m, so, h5, h6, h7⟩ := h.cell n o (hcell n o hn)
      exact ⟨m, so, pre _ h5, List.mem_append_left _ h6, h7⟩
    · intro m g hg
      rw [hnet, he] at hg
      obtain ⟨n, hn⟩ := h.known m g hg
      exact ⟨n, pre _ hn⟩

/-- A request gets its future. -/
theorem Link.filed {c : Cfg} {x : Bool} {w : World D H} (h : Link x w) (i : Nat) : Link x (w.file c x i) := by
  unfold World.file
  split
  · rename_i k hk
    have hnet : ((w.net.step c (.file x i)).get x) = (w.net.get x).file i := get_upd_same _ _ _
    have hlt : i < (w.net.get x).tickets.length := by rw [← h.waits]; exact lt_of_get hk
    obtain ⟨r, hr⟩ : ∃ r, (w.net.get x).tickets[i]? = some r := ⟨_, List.getElem?_eq_getElem hlt⟩
    have hkl := lt_of_get (h.waiting i k hk)
    have he : (w.net.get x).file i = { w.net.get x with
        tickets := (w.net.get x).tickets.eraseIdx i, counter := (chooseId r.id (w.net.get x).counter).2,
        tab := (w.net.get x).tab.insert (idText (chooseId r.id (w.net.get x).counter).1) .broken,
        sending := (w.net.get x).sending ++ [(idText (chooseId r.id (w.net.get x).counter).1, { r with id := (chooseId r.id (w.net.get x).counter).1 })],
        asked := (w.net.get x).asked ++ [((w.net.get x).tab.nextFut, { r with id := (chooseId r.id (w.net.get x).counter).1 })] } := by
      unfold Endpoint.file; rw [hr]
    have hout : ∀ p ∈ (w.net.get x).tab.outcomes, p ∈ ((w.net.get x).file i).tab.outcomes := by
      intro p hp
      rw [he]
      show p ∈ ((w.net.get x).tab.insert _ _).outcomes
      unfold PTab.insert
      dsimp only
      split
      · exact List.mem_append_left _ hp
      · exact hp
    have hset : ∀ {j m : Nat}, (w.futs.set k (some (w.net.get x).tab.nextFut))[j]? = some (some m) →
        (j = k ∧ m = (w.net.get x).tab.nextFut) ∨ (j ≠ k ∧ w.futs[j]? = some (some m)) := by
      intro j m hj
      by_cases hjk : k = j
      · subst hjk
        rw [List.getElem?_set_self hkl] at hj
        cases hj; exact .inl ⟨rfl, rfl⟩
      · rw [List.getElem?_set_ne hjk] at hj
        exact .inr ⟨fun e => hjk e.symm, hj⟩
    have keepF : ∀ {j m : Nat}, w.futs[j]? = some (some m) → (w.futs.set k (some (w.net.get x).tab.nextFut))[j]? = some (some m) := by
      intro j m hj
      have hjk : k ≠ j := fun e => by rw [← e, h.waiting i k hk] at hj; cases hj
      rw [List.getElem?_set_ne hjk]; exact hj
    have erased : ∀ {α : Type} {l : List α} {j : Nat} {a : α}, (l.eraseIdx i)[j]? = some a → ∃ j', j' ≠ i ∧ l[j']? = some a := by
      intro α l j a hj
      rw [List.getElem?_eraseIdx] at hj
      split at hj
      · exact ⟨j, by omega, hj⟩
      · exact ⟨j + 1, by omega, hj⟩
    refine ⟨by simp only [List.length_set]; exact h.len, ?_, ?_, ?_, ?_, ?_, ?_, ?_, ?_⟩
    · show (w.waits.eraseIdx i).length = _
      rw [hnet, he]
      show _ = ((w.net.get x).tickets.eraseIdx i).length
      rw [List.length_eraseIdx_of_lt (lt_of_get hk), List.length_eraseIdx_of_lt hlt, h.waits]
    · intro j k' hj
      obtain ⟨j', h1, h2⟩ := erased (show (w.waits.eraseIdx i)[j]? = some k' from hj)
      have hne : k ≠ k' := by
        intro e
        subst e
        exact h1 ((List.getElem?_inj (lt_of_get h2) h.apart).1 (h2.trans hk.symm))
      show (w.futs.set k _)[k']? = _
      rw [List.getElem?_set_ne hne]
      exact h.waiting j' k' h2
    · exact h.apart.sublist (List.eraseIdx_sublist ..)
    · intro j j' m h1 h2
      rcases hset h1 with ⟨rfl, rfl⟩ | ⟨h3, h4⟩
      · rcases hset h2 with ⟨rfl, -⟩ | ⟨-, h5⟩
        · rfl
        · exact absurd (h.below _ _ h5) (Nat.lt_irrefl _)
      · rcases hset h2 with ⟨rfl, rfl⟩ | ⟨-, h5⟩
        · exact absurd (h.below _ _ h4) (Nat.lt_irrefl _)
        · exact h.once _ _ _ h4 h5
    · intro j m h1
      rw [hnet, he]
      show m < (w.net.get x).tab.nextFut + 1
      rcases hset h1 with ⟨-, rfl⟩ | ⟨-, h4⟩
      · exact Nat.lt_succ_self _
      · exact Nat.lt_succ_of_lt (h.below _ _ h4)
    · intro j z n q hz hq
      rcases h.sent j z n q hz hq with ⟨a, h1, h2⟩ | ⟨m, h1, h2⟩
      · by_cases ha : a = i
        · subst ha
          rw [hk] at h1
          cases h1
          rw [hr] at h2
          cases h2
          refine .inr ⟨_, List.getElem?_set_self hkl, .inl ⟨(chooseId (asRequest q).id (w.net.get x).counter).1, ?_⟩⟩
          rw [hnet, he]
          exact List.mem_append_right _ (List.mem_singleton.2 rfl)
        · rw [hnet, he]
          rcases Nat.lt_or_gt_of_ne ha with hlt' | hgt
          · refine .inl ⟨a, ?_, ?_⟩
            · show (w.waits.eraseIdx i)[a]? = _
              rw [List.getElem?_eraseIdx, if_pos hlt']; exact h1
            · show ((w.net.get x).tickets.eraseIdx i)[a]? = _
              rw [List.getElem?_eraseIdx, if_pos hlt']; exact h2
          · have hs : a - 1 + 1 = a := by omega
            refine .inl ⟨a - 1, ?_, ?_⟩
            · show (w.waits.eraseIdx i)[a - 1]? = _
              rw [List.getElem?_eraseIdx, if_neg (by omega), hs]; exact h1
            · show ((w.net.get x).tickets.eraseIdx i)[a - 1]? = _
              rw [List.getElem?_eraseIdx, if_neg (by omega), hs]; exact h2
      · refine .inr ⟨m, keepF h1, ?_⟩
        rw [hnet]
        rcases h2 with ⟨id, h2⟩ | h2
        · exact .inl ⟨id, by rw [he]; exact List.mem_append_left _ h2⟩
        · exact .inr (hout _ h2)
    · intro n o hn
      rw [hnet]
      obtain ⟨m, so, h5, h6, h7⟩ := h.cell n o hn
      exact ⟨m, so, keepF h5, hout _ h6, h7⟩
    · intro m g hg
      rw [hnet, he] at hg
      rcases List.mem_append.1 hg with hg | hg
      · obtain ⟨n, hn⟩ := h.known m g hg
        exact ⟨n, keepF hn⟩
      · cases List.mem_singleton.1 hg
        exact ⟨k, List.getElem?_set_self hkl⟩
  · exact h

theorem link_step {c : Cfg} {x : Bool} {w : World D H} (h : Link x w) (op : Op D H) : Link x (w.step c x op) := by
  have same : ∀ w' : World D H, w'.futs = w.futs → w'.waits = w.waits → w'.client = w.client → Calm (w.net.get x) (w'.net.get x) → Link x w' := by
    intro w' h1 h1' h2 h3
    exact h.keep h1 h1' (by rw [h2]) h3 (fun j y hy n q hq => ⟨y, by rw [← h2]; exact hy, hq⟩) (fun n o hn => .inl (by rw [← h2]; exact hn))
  have hclient : ∀ (w' : World D H) (cop : COp D), (∀ i, cop ≠ .go i) → (∀ n o, cop ≠ .fill n o) → w'.futs = w.futs → w'.waits = w.waits → w'.client = w.client.step cop →
      w'.net = w.net → Link x w' := by
    intro w' cop h0 h0' h1 h1' h2 h3
    refine h.keep h1 h1' (by rw [h2]; exact cells_step _ _ h0) (by rw [h3]; exact .rfl) (fun j y hy n q hq => ?_) (fun n o hn => ?_)
    · rw [h2] at hy; exact paths_step _ _ h0 j y hy n q hq
    · rw [h2] at hn
      rcases cells_other _ _ h0 n o hn with h4 | h4
      · exact .inl h4
      · exact absurd h4 (h0' n o)
  have hnf : ∀ (so : Shm.Outcome D), ∀ k, ∀ i, (Await.Op.fill k (seen so) : COp D) ≠ .go i := fun _ _ _ h => nomatch h
  cases op with
  | call api => exact hclient _ (.call (body api)) (fun i => nofun) (fun n o => nofun) rfl rfl rfl rfl
  | drop i => exact hclient _ (.drop i) (fun i => nofun) (fun n o => nofun) rfl rfl rfl rfl
  | change u => exact hclient _ (.change u) (fun i => nofun) (fun n o => nofun) rfl rfl rfl rfl
  | wire op =>
    simp only [World.step]
    split
    · exact h
    · rename_i hr
      refine same _ rfl rfl rfl (calm_step c w.net op x (fun r e => hr ?_) fun i e => hr ?_)
      · rw [e]; simp [reserved]
      · rw [e]; simp [reserved]
  | file i => exact h.filed i
  | serve i env =>
    simp only [World.step, World.serve]
    split
    · exact h
    · split
      · exact h
      · split
        · exact same _ rfl rfl rfl (calm_step c w.net _ x (fun r e => nomatch e) fun i e => nomatch e)
        · exact same _ rfl rfl rfl .rfl
        · exact h
  | own op =>
    simp only [World.step]
    split
    · exact h
    · split
      · exact h
      · exact same _ rfl rfl rfl .rfl
  | deliver k =>
    simp only [World.step, World.deliver]
    split
    · rename_i m hm
      split
      · rename_i so hso
        refine h.keep rfl rfl (cells_step _ _ (hnf so k)) .rfl (fun j y hy n q hq => paths_step _ _ (hnf so k) j y hy n q hq) (fun n o hn => ?_)
        rcases cells_other _ _ (hnf so k) n o hn with h4 | h4
        · exact .inl h4
        · cases h4; exact .inr ⟨m, so, hm, AMap.get_some_mem hso, rfl⟩
      · exact h
    · exact h
  | go i =>
    have quiet : (asking w.client i = none ∨ ¬ (w.client.ub = false ∧ w.client.alive = true)) →
        Link x ({ w with client := w.client.step (.go i) } : World D H) := by
      intro hq
      obtain ⟨h1, h2⟩ := go_quiet w.client i hq
      exact h.keep rfl rfl (by rw [h1]) .rfl h2 (fun n o hn => .inl (by rw [← h1]; exact hn))
    show Link x (w.go c x i)
    cases hq : asking w.client i with
    | none =>
      unfold World.go
      rw [hq]
      exact quiet (.inl hq)
    | some q =>
      by_cases hs : w.client.ub = false ∧ w.client.alive = true
      · exact h.enter hq hs
      · unfold World.go
        rw [hq]
        dsimp only
        rw [if_neg hs]
        exact quiet (.inr hs)

theorem link_world (c : Cfg) (x : Bool) (s0 : Self D) (srv : Srv D H) (ops : List (Op D H)) : Link x ((World.init c s0 srv).run c x ops) := by
  induction ops using snoc_induction with
  | h0 =>
    refine ⟨rfl, ?_, fun i k h => (nomatch h), List.nodup_nil, fun j k m h => (nomatch h), fun j m h => (nomatch h), fun i z n q hz => (nomatch hz),
      fun n o hn => (nomatch hn), fun m q h => ?_⟩
    · cases x <;> rfl
    · have : (m, q) ∈ (((World.init c s0 srv : World D H).net).get x).asked := h
      have h0 : (((World.init c s0 srv : World D H).net).get x).asked = [] := by cases x <;> rfl
      rw [h0] at this; cases this
  | h1 ops op ih => rw [run_snoc]; exact link_step ih op

end Verif.Share
