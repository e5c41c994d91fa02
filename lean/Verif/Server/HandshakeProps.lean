import Verif.Server.Handshake
import Verif.Client.Cache

/-!
What `IsRunning` tells (C125) and what the server sends when a client initializes (C126).
-/

namespace Verif

open Verif.Handshake

variable {D : Type}

namespace Handshake

theorem run_append (s : St D) (a b : List (Op D)) : s.run (a ++ b) = (s.run a).run b := by simp [St.run, List.foldl_append]

theorem run_cons (s : St D) (o : Op D) (b : List (Op D)) : s.run (o :: b) = (s.step o).run b := rfl

/-- Induction over a run. -/
theorem run_induct {P : St D → Prop} {ok : Op D → Prop} (hs : ∀ s o, ok o → P s → P (s.step o)) :
    ∀ (ops : List (Op D)) (s : St D), (∀ o ∈ ops, ok o) → P s → P (s.run ops)
  | [], _, _, h => h
  | o :: ops, s, ho, h => run_induct hs ops (s.step o) (fun x hx => ho x (List.mem_cons_of_mem _ hx)) (hs s o (ho o List.mem_cons_self) h)

/-! ### The flag -/

/-- The flag was set after it was last cleared. -/
def SetLast (h : List Ev) : Prop := ∃ a b, h = a ++ Ev.ready :: b ∧ Ev.cleared ∉ b

theorem setLast_ready (h : List Ev) : SetLast (h ++ [.ready]) := ⟨h, [], by simp, by simp⟩

theorem setLast_cleared (h : List Ev) : ¬ SetLast (h ++ [.cleared]) := by
  rintro ⟨a, b, e, hb⟩
  rcases List.eq_nil_or_concat b with rfl | ⟨b', x, rfl⟩
  · have := congrArg List.getLast? e
    simp at this
  · rw [List.concat_eq_append] at e hb
    rw [show a ++ Ev.ready :: (b' ++ [x]) = (a ++ Ev.ready :: b') ++ [x] by simp] at e
    obtain ⟨_, e2⟩ := List.append_inj' e rfl
    injection e2 with e2
    subst e2
    exact hb (by simp)

theorem send_same (s : St D) (l : Nat) (m : Sent D) : (s.send l m).initialized = s.initialized ∧ (s.send l m).hist = s.hist ∧
    (s.send l m).cur = s.cur ∧ (s.send l m).links = s.links ∧ (s.send l m).read = s.read ∧ (s.send l m).calls = s.calls := by
  unfold St.send; split <;> exact ⟨rfl, rfl, rfl, rfl, rfl, rfl⟩

theorem tell_same (s : St D) (m : Sent D) : (s.tell m).initialized = s.initialized ∧ (s.tell m).hist = s.hist ∧
    (s.tell m).cur = s.cur ∧ (s.tell m).links = s.links ∧ (s.tell m).read = s.read ∧ (s.tell m).calls = s.calls := by
  unfold St.tell; split
  · exact send_same _ _ _
  · exact ⟨rfl, rfl, rfl, rfl, rfl, rfl⟩

/-- A dispatch touches neither the flag nor the transports. -/
theorem go_same (s : St D) (k : Nat) (c : Call) : (s.go k c).initialized = s.initialized ∧ (s.go k c).hist = s.hist ∧
    (s.go k c).cur = s.cur ∧ (s.go k c).links = s.links ∧ (s.go k c).read = s.read := by
  unfold St.go
  split
  · split <;> exact ⟨rfl, rfl, rfl, rfl, rfl⟩
  · split <;> exact ⟨rfl, rfl, rfl, rfl, rfl⟩
  · split
    · obtain ⟨a, b, c, d, e, _⟩ := tell_same s (.note (some k) (telling _)); exact ⟨a, b, c, d, e⟩
    · split
      · obtain ⟨a, b, c, d, e, _⟩ := send_same s _ (.answer k c.id); exact ⟨a, b, c, d, e⟩
      · exact ⟨rfl, rfl, rfl, rfl, rfl⟩
  · exact ⟨rfl, rfl, rfl, rfl, rfl⟩

theorem flag_step (s : St D) (o : Op D) (h : s.initialized = true ↔ SetLast s.hist) :
    (s.step o).initialized = true ↔ SetLast (s.step o).hist := by
  cases o with
  | start ok => exact h
  | stop =>
    simp only [St.step]; split
    · simp [setLast_cleared]
    · exact h
  | close => simp only [St.step]; split <;> exact h
  | lost l => exact h
  | arrive l m => simp only [St.step]; split <;> exact h
  | note i =>
    simp only [St.step]; split
    · unfold St.handle; split
      · simp [St.mark, setLast_ready]
      · exact h
    · exact h
  | request l id m => simp only [St.step]; split <;> exact h
  | direct id m => exact h
  | go k =>
    simp only [St.step]; split
    · rw [(go_same s k _).1, (go_same s k _).2.1]; exact h
    · exact h
  | emit n => simp only [St.step]; rw [(tell_same s _).1, (tell_same s _).2.1]; exact h
  | handleInitialize => simp [St.step, St.mark, setLast_ready]

theorem flag_run (ops : List (Op D)) : ((St.init : St D).run ops).initialized = true ↔ SetLast ((St.init : St D).run ops).hist :=
  run_induct (P := fun s => s.initialized = true ↔ SetLast s.hist) (ok := fun _ => True) (fun s o _ h => flag_step s o h) ops _ (fun _ _ => trivial)
    (by simp [St.init, SetLast])

/-- A transport that is not connected stays so. -/
theorem down_step (s : St D) (o : Op D) (l : Nat) (hl : l < s.links.length) (h : s.up l = false) :
    l < (s.step o).links.length ∧ (s.step o).up l = false := by
  have hset : ∀ j, (s.links.set j false)[l]?.getD false = false := by
    intro j
    rw [List.getElem?_set]
    split
    · split <;> rfl
    · exact h
  cases o with
  | start ok =>
    simp only [St.step, St.up, List.length_append, List.length_singleton]
    rw [List.getElem?_append_left hl]
    exact ⟨by omega, h⟩
  | stop => simp only [St.step]; split <;> exact ⟨hl, h⟩
  | close =>
    simp only [St.step]; split
    · exact ⟨by simpa using hl, hset _⟩
    · exact ⟨hl, h⟩
  | lost j => exact ⟨by simpa [St.step] using hl, hset _⟩
  | arrive l m => simp only [St.step]; split <;> exact ⟨hl, h⟩
  | note i =>
    simp only [St.step]; split
    · unfold St.handle; split <;> exact ⟨hl, h⟩
    · exact ⟨hl, h⟩
  | request l id m => simp only [St.step]; split <;> exact ⟨hl, h⟩
  | direct id m => exact ⟨hl, h⟩
  | go k =>
    simp only [St.step]; split
    · simp only [St.up]; rw [(go_same s k _).2.2.2.1]; exact ⟨hl, h⟩
    · exact ⟨hl, h⟩
  | emit n => simp only [St.step, St.up]; rw [(tell_same s _).2.2.2.1]; exact ⟨hl, h⟩
  | handleInitialize => exact ⟨hl, h⟩

/-- Only `Start` changes the transport in use. -/
theorem cur_step (s : St D) (o : Op D) (ho : ∀ b, o ≠ .start b) : (s.step o).cur = s.cur := by
  cases o with
  | start b => exact absurd rfl (ho b)
  | stop => simp only [St.step]; split <;> rfl
  | close => simp only [St.step]; split <;> rfl
  | lost l => rfl
  | arrive l m => simp only [St.step]; split <;> rfl
  | note i =>
    simp only [St.step]; split
    · unfold St.handle; split <;> rfl
    · rfl
  | request l id m => simp only [St.step]; split <;> rfl
  | direct id m => rfl
  | go k =>
    simp only [St.step]; split
    · exact (go_same s k _).2.2.1
    · rfl
  | emit n => exact (tell_same s _).2.2.1
  | handleInitialize => rfl

/-- The transport in use is one of those given to `Start`. -/
theorem cur_lt (ops : List (Op D)) : ∀ l, ((St.init : St D).run ops).cur = some l → l < ((St.init : St D).run ops).links.length := by
  refine run_induct (P := fun s => ∀ l, s.cur = some l → l < s.links.length) (ok := fun _ => True) ?_ ops _ (fun _ _ => trivial) (by simp [St.init])
  intro s o _ h
  cases o with
  | start b => intro l hl; simp only [St.step] at hl ⊢; injection hl with hl; simp; omega
  | stop => simp only [St.step]; split <;> exact h
  | close => simp only [St.step]; split
             · simpa using h
             · exact h
  | lost l => simpa [St.step] using h
  | arrive l m => simp only [St.step]; split <;> exact h
  | note i =>
    simp only [St.step]; split
    · unfold St.handle; split <;> exact h
    · exact h
  | request l id m => simp only [St.step]; split <;> exact h
  | direct id m => exact h
  | go k =>
    simp only [St.step]; split
    · rw [(go_same s k _).2.2.1, (go_same s k _).2.2.2.1]; exact h
    · exact h
  | emit n => simp only [St.step]; rw [(tell_same s _).2.2.1, (tell_same s _).2.2.2.1]; exact h
  | handleInitialize => exact h

end Handshake

/-- `IsRunning` is true exactly while the flag was set (by the notification `initialized` or by `HandleInitialize`) after the last `Stop` that had a transport
to close, and the transport in use, if there is one, is connected. Missing to the claim: that a client which has called `Initialize` sets the flag. -/
theorem C125_exact_partial (ops : List (Op D)) :
    ((St.init : St D).run ops).isRunning = true ↔
      (∃ a b, ((St.init : St D).run ops).hist = a ++ Ev.ready :: b ∧ Ev.cleared ∉ b) ∧
        ∀ l, ((St.init : St D).run ops).cur = some l → ((St.init : St D).run ops).links[l]? = some true := by
  have hf := flag_run ops
  have hg : ∀ l : Nat, (((St.init : St D).run ops).links[l]?.getD false = true ↔ ((St.init : St D).run ops).links[l]? = some true) := by
    intro l
    cases h : ((St.init : St D).run ops).links[l]? <;> simp
  show _ ↔ SetLast _ ∧ _
  rw [← hf]
  unfold St.isRunning
  split
  · rename_i l h
    simp only [Bool.and_eq_true, St.up, h, Option.some.injEq, forall_eq', hg]
  · rename_i h
    simp [h]

example : ((St.init : St Empty).run [.start true, .arrive 0 ready, .note 0]).isRunning = true ∧
    ((St.init : St Empty).run [.start true, .arrive 0 ready, .note 0, .lost 0]).isRunning = false := by decide +kernel

/-- When `Stop` has closed the transport the server is not running, whatever arrives or is still being handled, until `Start` is called again. -/
theorem C125_stopped_partial (pre post : List (Op D)) (ht : ((St.init : St D).run pre).cur ≠ none) (hp : ∀ b, Op.start b ∉ post) :
    ((St.init : St D).run (pre ++ .close :: post)).isRunning = false := by
  cases hc : ((St.init : St D).run pre).cur with
  | none => exact absurd hc ht
  | some l =>
    have hl := cur_lt pre l hc
    rw [run_append, run_cons]
    have h0 : (((St.init : St D).run pre).step .close).cur = some l ∧ l < (((St.init : St D).run pre).step .close).links.length ∧
        (((St.init : St D).run pre).step .close).up l = false := by
      simp only [St.step, hc, St.up, List.length_set]
      refine ⟨trivial, hl, ?_⟩
      rw [List.getElem?_set_self hl]; rfl
    obtain ⟨h1, _, h2⟩ := run_induct (P := fun s : St D => s.cur = some l ∧ l < s.links.length ∧ s.up l = false) (ok := fun o => ∀ b, o ≠ .start b)
      (fun s o ho ⟨a, b, c⟩ => ⟨by rw [cur_step s o ho]; exact a, down_step s o l b c⟩) post _ (fun o ho b e => hp b (e ▸ ho)) h0
    simp [St.isRunning, h1, h2]

example : ((St.init : St Empty).run [.start true, .arrive 0 ready]).cur ≠ none ∧ (∀ b, Op.start b ∉ ([.note 0, .handleInitialize] : List (Op Empty))) ∧
    ((St.init : St Empty).run ([.start true, .arrive 0 ready] ++ .close :: [.note 0, .handleInitialize])).initialized = true := by
  refine ⟨by decide +kernel, by simp, by decide +kernel⟩

namespace Handshake

/-- Nothing that sets the flag is waiting, and the flag is not set. -/
def Quiet (s : St D) : Prop := s.initialized = false ∧ ready ∉ s.read

theorem quiet_step (s : St D) (o : Op D) (h1 : ∀ l, o ≠ .arrive l ready) (h2 : o ≠ .handleInitialize) (h : Quiet s) : Quiet (s.step o) := by
  obtain ⟨ha, hb⟩ := h
  cases o with
  | start ok => exact ⟨ha, hb⟩
  | stop =>
    simp only [St.step]; split
    · exact ⟨rfl, hb⟩
    · exact ⟨ha, hb⟩
  | close => simp only [St.step]; split <;> exact ⟨ha, hb⟩
  | lost l => exact ⟨ha, hb⟩
  | arrive l m =>
    simp only [St.step]; split
    · refine ⟨ha, ?_⟩
      simp only [List.mem_append, List.mem_singleton, not_or]
      exact ⟨hb, fun e => h1 l (by rw [e])⟩
    · exact ⟨ha, hb⟩
  | note i =>
    simp only [St.step]; split
    · rename_i m hm
      have : m ≠ ready := fun e => hb (e ▸ List.mem_of_getElem? hm)
      unfold St.handle
      rw [if_neg this]
      exact ⟨ha, fun h => hb (List.mem_of_mem_eraseIdx h)⟩
    · exact ⟨ha, hb⟩
  | request l id m => simp only [St.step]; split <;> exact ⟨ha, hb⟩
  | direct id m => exact ⟨ha, hb⟩
  | go k =>
    simp only [St.step]; split
    · unfold Quiet; rw [(go_same s k _).1, (go_same s k _).2.2.2.2]; exact ⟨ha, hb⟩
    · exact ⟨ha, hb⟩
  | emit n => simp only [St.step]; unfold Quiet; rw [(tell_same s _).1, (tell_same s _).2.2.2.2.1]; exact ⟨ha, hb⟩
  | handleInitialize => exact absurd rfl h2

theorem quiet_run (s : St D) (ops : List (Op D)) (h1 : ∀ l, Op.arrive l ready ∉ ops) (h2 : Op.handleInitialize ∉ ops) (h : Quiet s) : Quiet (s.run ops) :=
  run_induct (P := Quiet) (ok := fun o => (∀ l, o ≠ .arrive l ready) ∧ o ≠ .handleInitialize) (fun s o ho h => quiet_step s o ho.1 ho.2 h) ops s
    (fun o ho => ⟨fun l e => h1 l (e ▸ ho), fun e => h2 (e ▸ ho)⟩) h

theorem quiet_not_running {s : St D} (h : Quiet s) : s.isRunning = false := by
  unfold St.isRunning; rw [h.1]; split <;> simp

end Handshake

/-- A server that is started again after a `Stop` is not running before a client says that it is initialized, provided everything read before the `Stop` had
been handled. -/
theorem C125_restart_partial (pre post : List (Op D)) (ht : ((St.init : St D).run pre).cur ≠ none) (hr : ready ∉ ((St.init : St D).run pre).read)
    (h1 : ∀ l, Op.arrive l ready ∉ post) (h2 : Op.handleInitialize ∉ post) :
    ((St.init : St D).run (pre ++ .stop :: post)).isRunning = false := by
  rw [run_append, run_cons]
  refine quiet_not_running (quiet_run _ post h1 h2 ?_)
  cases hc : ((St.init : St D).run pre).cur with
  | none => exact absurd hc ht
  | some l => simp only [St.step, hc, Option.isSome_some, if_true]; exact ⟨rfl, hr⟩

example : ((St.init : St Empty).run [.start true, .arrive 0 ready, .note 0]).cur ≠ none ∧
    ready ∉ ((St.init : St Empty).run [.start true, .arrive 0 ready, .note 0]).read ∧
    ((St.init : St Empty).run ([.start true, .arrive 0 ready, .note 0] ++ .stop :: [.close, .start true])).live = true := by decide +kernel

/-- The server starts to be running only when a client says that it is initialized or the application calls `HandleInitialize`. -/
theorem C125_only_when_told (ops : List (Op D)) (h : ((St.init : St D).run ops).isRunning = true) :
    (∃ l, Op.arrive l ready ∈ ops) ∨ Op.handleInitialize ∈ ops := by
  rcases Classical.em (∃ l, Op.arrive l ready ∈ ops) with h1 | h1
  · exact .inl h1
  · rcases Classical.em (Op.handleInitialize ∈ ops) with h2 | h2
    · exact .inr h2
    · have := quiet_not_running (quiet_run (St.init : St D) ops (fun l hl => h1 ⟨l, hl⟩) h2 ⟨rfl, by simp [St.init]⟩)
      rw [this] at h; cases h

example : ((St.init : St Empty).run [.start true, .arrive 0 ready, .note 0]).isRunning = true := by decide +kernel

/-- With a client of this library at the other end the server is never running, however long it serves it: the client sends no `initialized`. Here: in every
execution in which the notifications that arrive are of the kinds the client sends. -/
theorem C125_own_client_counterexample (ops : List (Op D)) (h1 : ∀ l m, Op.arrive l m ∈ ops → m ∈ clientNotes) (h2 : Op.handleInitialize ∉ ops) :
    ((St.init : St D).run ops).isRunning = false := by
  refine quiet_not_running (quiet_run (St.init : St D) ops (fun l hl => ?_) h2 ⟨rfl, by simp [St.init]⟩)
  exact absurd (h1 l ready hl) (by decide)

/-- ... in particular when the handshake is complete: the transport is connected, `initialize` has been answered, and so has a later request. -/
example : let ops : List (Op Empty) := [.start true, .request 0 (.int 1) (lit "initialize"), .go 0, .go 0, .go 0, .go 0, .go 0, .go 0, .go 0,
      .arrive 0 (lit "notifications/roots/list_changed"), .note 0, .request 0 (.int 2) (lit "tools/list"), .go 1, .go 1]
    (∀ l m, Op.arrive l m ∈ ops → m ∈ clientNotes) ∧ (St.init.run ops).live = true ∧ (St.init.run ops).calls.map Call.stage = [.done, .done] := by
  refine ⟨?_, by decide +kernel, by decide +kernel⟩
  intro l m h
  simp at h
  rw [h.2]; decide

/-- A server without a transport (one behind an HTTP server) goes on running after `Stop`. -/
theorem C125_no_transport_counterexample :
    ((St.init : St D).run [.handleInitialize, .stop, .close]).isRunning = true := by rfl

/-- A notification that is read before `Stop` and handled after it makes the next client look initialized. -/
theorem C125_late_notification_counterexample :
    ((St.init : St D).run [.start true, .arrive 0 ready, .stop, .note 0, .close, .start true]).isRunning = true := by rfl

/-- A second `Start` without a `Stop` takes over the flag of the first client. -/
theorem C125_second_start_counterexample :
    ((St.init : St D).run [.start true, .arrive 0 ready, .note 0, .lost 0, .start true]).isRunning = true := by rfl

/-! ### What is sent -/

namespace Handshake

/-- What dispatch `k` has handed to transports. -/
def mine (k : Nat) (log : List (Nat × Sent D)) : List (Sent D) := (log.map (·.2)).filter (fun m => decide (m.of = some k))

/-- What the `initialize` with number `k` is to send: the notifications, and to the transport it came by the answer. -/
def script (k : Nat) (c : Call) : List (Sent D) :=
  (if c.init then tellings.map (fun m => .note (some k) (telling m)) else []) ++ (if c.link.isSome then [.answer k c.id] else [])

/-- ... at this stage. -/
def soFar (k : Nat) (c : Call) : List (Sent D) :=
  match c.stage with
  | .fresh | .handled => []
  | .telling i => if c.init then (tellings.take i).map (fun m => .note (some k) (telling m)) else []
  | .done => script k c

def due (k : Nat) (calls : List Call) : List (Sent D) :=
  match calls[k]? with | some c => soFar k c | none => []

theorem mine_append (k : Nat) (log : List (Nat × Sent D)) (l : Nat) (m : Sent D) :
    mine k (log ++ [(l, m)]) = mine k log ++ (if m.of = some k then [m] else []) := by
  simp only [mine, List.map_append, List.map_cons, List.map_nil, List.filter_append]
  congr 1
  by_cases h : m.of = some k <;> simp [h]

theorem due_append (k : Nat) (calls : List Call) (c : Call) (hc : c.stage = .fresh) : (due k (calls ++ [c]) : List (Sent D)) = due k calls := by
  unfold due
  rw [List.getElem?_append]
  by_cases h : k < calls.length
  · rw [if_pos h]
  · rw [if_neg h, List.getElem?_eq_none (Nat.le_of_not_lt h)]
    cases hk : k - calls.length with
    | zero => simp [soFar, hc]
    | succ n => simp

theorem due_set_ne (j k : Nat) (calls : List Call) (c : Call) (h : j ≠ k) : (due k (calls.set j c) : List (Sent D)) = due k calls := by
  unfold due; rw [List.getElem?_set_ne h]

theorem due_set (k : Nat) (calls : List Call) (c c' : Call) (h : calls[k]? = some c) : (due k (calls.set k c') : List (Sent D)) = soFar k c' := by
  unfold due
  rw [List.getElem?_set_self (by rw [List.getElem?_eq_some_iff] at h; exact h.1)]

/-- In order and at most once. -/
def Orderly (s : St D) : Prop := ∀ k, (mine k s.log).Sublist (due k s.calls)

theorem send_log (s : St D) (l : Nat) (m : Sent D) : (s.send l m).log = s.log ∨ (s.send l m).log = s.log ++ [(l, m)] := by
  unfold St.send; split
  · exact .inr rfl
  · exact .inl rfl

theorem tell_log (s : St D) (m : Sent D) : (s.tell m).log = s.log ∨ ∃ l, (s.tell m).log = s.log ++ [(l, m)] := by
  unfold St.tell; split
  · rcases send_log s _ m with h | h
    · exact .inl h
    · exact .inr ⟨_, h⟩
  · exact .inl rfl

theorem mine_tell_sub {s : St D} {k : Nat} {m : Sent D} {x : List (Sent D)} (hm : m.of = some k) (h : (mine k s.log).Sublist x) :
    (mine k (s.tell m).log).Sublist (x ++ [m]) := by
  rcases tell_log s m with e | ⟨l, e⟩
  · rw [e]; exact h.trans (List.sublist_append_left _ _)
  · rw [e, mine_append, if_pos hm]; exact h.append_right _

theorem mine_send_sub {s : St D} {k l : Nat} {m : Sent D} {x : List (Sent D)} (hm : m.of = some k) (h : (mine k s.log).Sublist x) :
    (mine k (s.send l m).log).Sublist (x ++ [m]) := by
  rcases send_log s l m with e | e
  · rw [e]; exact h.trans (List.sublist_append_left _ _)
  · rw [e, mine_append, if_pos hm]; exact h.append_right _

theorem mine_tell_ne {s : St D} {k : Nat} {m : Sent D} (hm : m.of ≠ some k) : mine k (s.tell m).log = mine k s.log := by
  rcases tell_log s m with e | ⟨l, e⟩
  · rw [e]
  · rw [e, mine_append, if_neg hm, List.append_nil]

theorem mine_send_ne {s : St D} {k l : Nat} {m : Sent D} (hm : m.of ≠ some k) : mine k (s.send l m).log = mine k s.log := by
  rcases send_log s l m with e | e
  · rw [e]
  · rw [e, mine_append, if_neg hm, List.append_nil]

theorem take_succ {α : Type} (l : List α) (i : Nat) (a : α) (h : l[i]? = some a) : l.take (i + 1) = l.take i ++ [a] := by
  rw [List.take_add_one, h]; rfl

theorem take_all {α : Type} (l : List α) (i : Nat) (h : l[i]? = none) : l.take i = l :=
  List.take_of_length_le (by rw [List.getElem?_eq_none_iff] at h; exact h)

/-- Only an `initialize` is at a notification that exists. -/
def Staged (s : St D) : Prop := ∀ (k : Nat) c, s.calls[k]? = some c → c.init = false → c.stage = .fresh ∨ c.stage = .done ∨ ∃ i, c.stage = .telling i ∧ tellings.length ≤ i

theorem staged_app (s : St D) (c : Call) (hc : c.stage = .fresh) (h : Staged s) : Staged { s with calls := s.calls ++ [c] } := by
  intro k x hx hi
  simp only [List.getElem?_append] at hx
  split at hx
  · exact h k x hx hi
  · rw [List.getElem?_singleton] at hx
    split at hx
    · injection hx with hx; subst hx; exact .inl hc
    · cases hx

theorem staged_set (s : St D) (k : Nat) (c : Call) (st : Stage) (h : Staged s)
    (hst : c.init = false → st = .fresh ∨ st = .done ∨ ∃ i, st = .telling i ∧ tellings.length ≤ i) : Staged (s.stage k c st) := by
  intro j x hx hi
  simp only [St.stage, List.getElem?_set] at hx
  split at hx
  · split at hx
    · injection hx with hx; subst hx; exact hst hi
    · cases hx
  · exact h j x hx hi

theorem staged_step (s : St D) (o : Op D) (h : Staged s) : Staged (s.step o) := by
  cases o with
  | start ok => exact h
  | stop => simp only [St.step]; split <;> exact h
  | close => simp only [St.step]; split <;> exact h
  | lost l => exact h
  | arrive l m => simp only [St.step]; split <;> exact h
  | note i =>
    simp only [St.step]; split
    · unfold St.handle; split <;> exact h
    · exact h
  | request l id m =>
    simp only [St.step]; split
    · exact staged_app s _ rfl h
    · exact h
  | direct id m => exact staged_app s _ rfl h
  | go k =>
    simp only [St.step]; split
    · rename_i c hk
      unfold St.go
      split
      · split
        · rename_i hi; exact staged_set s k c _ h (fun e => by rw [hi] at e; cases e)
        · exact staged_set s k c _ h (fun _ => .inr (.inr ⟨_, rfl, Nat.le_refl _⟩))
      · rename_i hst
        have hn : c.init = false → False := by
          intro e
          rcases h k c hk e with x | x | ⟨i, x, _⟩ <;> · rw [hst] at x; cases x
        split <;> exact staged_set s k c _ h (fun e => (hn e).elim)
      · rename_i i hst
        split
        · rename_i m hm
          have hn : c.init = false → False := by
            intro e
            rcases h k c hk e with x | x | ⟨j, x, hj⟩
            · rw [hst] at x; cases x
            · rw [hst] at x; cases x
            · rw [hst] at x; injection x with x
              rw [List.getElem?_eq_none (by omega)] at hm; cases hm
          refine staged_set _ k c _ ?_ (fun e => (hn e).elim)
          unfold Staged; rw [(tell_same s _).2.2.2.2.2]; exact h
        · split
          · refine staged_set _ k c _ ?_ (fun _ => .inr (.inl rfl))
            unfold Staged; rw [(send_same s _ _).2.2.2.2.2]; exact h
          · exact staged_set s k c _ h (fun _ => .inr (.inl rfl))
      · exact h
    · exact h
  | emit n => simp only [St.step]; unfold Staged; rw [(tell_same s _).2.2.2.2.2]; exact h
  | handleInitialize => exact h

/-- Setting the stage of one dispatch, when what it has sent fits. -/
theorem orderly_set {s t : St D} {k : Nat} {c c' : Call} (hk : s.calls[k]? = some c) (hcalls : t.calls = s.calls.set k c') (h : Orderly s)
    (hne : ∀ j, j ≠ k → mine j t.log = mine j s.log) (hkk : (mine k t.log).Sublist (soFar k c')) : Orderly t := by
  intro j
  rw [hcalls]
  by_cases hj : j = k
  · subst hj; rw [due_set j s.calls c c' hk]; exact hkk
  · rw [due_set_ne k j s.calls c' (fun e => hj e.symm), hne j hj]; exact h j

theorem orderly_step (s : St D) (o : Op D) (hs : Staged s) (h : Orderly s) : Orderly (s.step o) := by
  cases o with
  | start ok => exact h
  | stop => simp only [St.step]; split <;> exact h
  | close => simp only [St.step]; split <;> exact h
  | lost l => exact h
  | arrive l m => simp only [St.step]; split <;> exact h
  | note i =>
    simp only [St.step]; split
    · unfold St.handle; split <;> exact h
    · exact h
  | request l id m =>
    simp only [St.step]; split
    · intro k; show (mine k s.log).Sublist (due k (s.calls ++ [_])); rw [due_append k _ _ rfl]; exact h k
    · exact h
  | direct id m =>
    intro k; show (mine k s.log).Sublist (due k (s.calls ++ [_])); rw [due_append k _ _ rfl]; exact h k
  | go k =>
    simp only [St.step]; split
    · rename_i c hk
      have hd : (mine k s.log).Sublist (soFar k c) := by have := h k; unfold due at this; rw [hk] at this; exact this
      unfold St.go
      split
      · rename_i hst
        have h0 : mine k s.log = [] := by rw [soFar, hst] at hd; exact List.sublist_nil.1 hd
        split
        · exact orderly_set hk rfl h (fun _ _ => rfl) (by simp only [St.stage, h0]; exact List.nil_sublist _)
        · exact orderly_set hk rfl h (fun _ _ => rfl) (by simp only [St.stage, h0]; exact List.nil_sublist _)
      · rename_i hst
        have h0 : mine k s.log = [] := by rw [soFar, hst] at hd; exact List.sublist_nil.1 hd
        split
        · exact orderly_set hk rfl h (fun _ _ => rfl) (by simp only [St.stage, h0]; exact List.nil_sublist _)
        · exact orderly_set hk rfl h (fun _ _ => rfl) (by simp only [St.stage, h0]; exact List.nil_sublist _)
      · rename_i i hst
        rw [soFar, hst] at hd
        simp only at hd
        have hin : ∀ m, tellings[i]? = some m → c.init = true := by
          intro m hm
          cases hi : c.init with
          | true => rfl
          | false =>
            rcases hs k c hk hi with x | x | ⟨j, x, hj⟩
            · rw [hst] at x; cases x
            · rw [hst] at x; cases x
            · rw [hst] at x; injection x with x
              rw [List.getElem?_eq_none (by omega)] at hm; cases hm
        split
        · rename_i m hm
          have hi := hin m hm
          rw [hi, if_pos rfl] at hd
          refine orderly_set hk (c' := { c with stage := .telling (i + 1) }) (by simp only [St.stage]; rw [(tell_same s _).2.2.2.2.2]) h
            (fun j hj => mine_tell_ne (fun e => hj (by injection e with e; exact e.symm))) ?_
          simp only [soFar, hi, if_true, take_succ _ _ _ hm, List.map_append, List.map_cons, List.map_nil]
          exact mine_tell_sub rfl hd
        · rename_i hm
          rw [take_all _ _ hm] at hd
          split
          · rename_i l hl
            refine orderly_set hk (c' := { c with stage := .done }) (by simp only [St.stage]; rw [(send_same s _ _).2.2.2.2.2]) h
              (fun j hj => mine_send_ne (fun e => hj (by injection e with e; exact e.symm))) ?_
            simp only [soFar, script, hl, Option.isSome_some, if_true]
            exact mine_send_sub rfl hd
          · rename_i hl
            refine orderly_set hk rfl h (fun _ _ => rfl) ?_
            simp only [soFar, script, hl, Option.isSome_none]
            simpa [St.stage] using hd
      · exact h
    · exact h
  | emit n =>
    intro k
    simp only [St.step]
    rw [(tell_same s _).2.2.2.2.2, mine_tell_ne (by simp [Sent.of])]
    exact h k
  | handleInitialize => exact h

theorem orderly_run (ops : List (Op D)) : Orderly ((St.init : St D).run ops) :=
  (run_induct (P := fun s => Staged s ∧ Orderly s) (ok := fun _ => True) (fun s o _ h => ⟨staged_step s o h.1, orderly_step s o h.1 h.2⟩) ops St.init
    (fun _ _ => trivial) ⟨by intro k c hc; simp [St.init] at hc, by intro k; simp [St.init, mine]⟩).2

theorem soFar_script (k : Nat) (c : Call) : (soFar k c : List (Sent D)).Sublist (script k c) := by
  unfold soFar script
  split
  · exact List.nil_sublist _
  · exact List.nil_sublist _
  · split
    · exact ((List.take_sublist _ _).map _).trans (List.sublist_append_left _ _)
    · exact List.nil_sublist _
  · exact List.Sublist.refl _

end Handshake

/-- For the `k`-th request the server sends, in every execution, each of these at most once and in this order: the notifications `initialized`,
`tools/list_changed`, `resources/list_changed` and `prompts/list_changed` with an empty object, if it is an `initialize`, and, if it came by a transport,
the answer with its id. For another request it sends the answer at most. Missing to the claim: the answer comes last, not first. -/
theorem C126_once_in_order_partial (ops : List (Op D)) (k : Nat) (c : Call) (hc : ((St.init : St D).run ops).calls[k]? = some c) :
    ((((St.init : St D).run ops).log.map (·.2)).filter (fun m => decide (m.of = some k))).Sublist
      ((if c.init then
          [.note (some k) ⟨lit "notifications/initialized", some (.obj [])⟩, .note (some k) ⟨lit "notifications/tools/list_changed", some (.obj [])⟩,
            .note (some k) ⟨lit "notifications/resources/list_changed", some (.obj [])⟩, .note (some k) ⟨lit "notifications/prompts/list_changed", some (.obj [])⟩]
        else []) ++ if c.link.isSome then [.answer k c.id] else []) := by
  have h := orderly_run ops k
  unfold due at h
  rw [hc] at h
  exact h.trans (soFar_script k c)

namespace Handshake

/-- Steps that leave the transport in use and connected. -/
def Calm : Op D → Prop
  | .start _ | .close | .lost _ => False
  | _ => True

/-- With one transport that stays connected. -/
structure Whole (s : St D) : Prop where
  cur : s.cur = some 0
  links : s.links = [true]
  link : ∀ (k : Nat) c, s.calls[k]? = some c → c.link = none ∨ c.link = some 0
  sent : ∀ k, mine k s.log = due k s.calls

theorem up_whole {s : St D} (h : Whole s) : s.up 0 = true := by simp [St.up, h.links]

theorem tell_whole {s : St D} (h : Whole s) (m : Sent D) : s.tell m = { s with log := s.log ++ [(0, m)] } := by
  simp [St.tell, h.cur, St.send, up_whole h]

theorem send_whole {s : St D} (h : Whole s) (m : Sent D) : s.send 0 m = { s with log := s.log ++ [(0, m)] } := by
  simp [St.send, up_whole h]

theorem link_set {s : St D} {k : Nat} {c c' : Call} (h : Whole s) (hk : s.calls[k]? = some c) (he : c'.link = c.link) :
    ∀ (j : Nat) x, (s.calls.set k c')[j]? = some x → x.link = none ∨ x.link = some 0 := by
  intro j x hx
  rw [List.getElem?_set] at hx
  split at hx
  · split at hx
    · injection hx with hx; subst hx; rw [he]; exact h.link k c hk
    · cases hx
  · exact h.link j x hx

theorem whole_set {s t : St D} {k : Nat} {c c' : Call} (h : Whole s) (hk : s.calls[k]? = some c) (he : c'.link = c.link) (h1 : t.cur = s.cur)
    (h2 : t.links = s.links) (h3 : t.calls = s.calls.set k c') (hne : ∀ j, j ≠ k → mine j t.log = mine j s.log) (hkk : mine k t.log = soFar k c') : Whole t := by
  refine ⟨h1.trans h.cur, h2.trans h.links, by rw [h3]; exact link_set h hk he, fun j => ?_⟩
  rw [h3]
  by_cases hj : j = k
  · subst hj; rw [due_set j s.calls c c' hk, hkk]
  · rw [due_set_ne k j s.calls c' (fun e => hj e.symm), hne j hj]; exact h.sent j

theorem whole_app {s : St D} (h : Whole s) (c : Call) (hs : c.stage = .fresh) (hl : c.link = none ∨ c.link = some 0) :
    Whole { s with calls := s.calls ++ [c] } := by
  refine ⟨h.cur, h.links, ?_, fun k => ?_⟩
  · intro k x hx
    simp only [List.getElem?_append] at hx
    split at hx
    · exact h.link k x hx
    · rw [List.getElem?_singleton] at hx
      split at hx
      · injection hx with hx; subst hx; exact hl
      · cases hx
  · show mine k s.log = due k (s.calls ++ [c]); rw [due_append k _ _ hs]; exact h.sent k

theorem whole_step (s : St D) (o : Op D) (ho : Calm o) (hs : Staged s) (h : Whole s) : Whole (s.step o) := by
  cases o with
  | start ok => exact ho.elim
  | close => exact ho.elim
  | lost l => exact ho.elim
  | stop => simp only [St.step]; split <;> exact ⟨h.cur, h.links, h.link, h.sent⟩
  | arrive l m => simp only [St.step]; split <;> exact ⟨h.cur, h.links, h.link, h.sent⟩
  | note i =>
    simp only [St.step]; split
    · unfold St.handle; split <;> exact ⟨h.cur, h.links, h.link, h.sent⟩
    · exact h
  | request l id m =>
    simp only [St.step]; split
    · rename_i hl
      refine whole_app h _ rfl (.inr ?_)
      cases l with
      | zero => rfl
      | succ n => simp [St.up, h.links] at hl
    · exact h
  | direct id m => exact whole_app h _ rfl (.inl rfl)
  | go k =>
    simp only [St.step]; split
    · rename_i c hk
      have hd : mine k s.log = soFar k c := by have := h.sent k; unfold due at this; rw [hk] at this; exact this
      unfold St.go
      split
      · rename_i hst
        rw [soFar, hst] at hd; simp only at hd
        split
        · exact whole_set (c' := { c with stage := .handled }) h hk rfl rfl rfl rfl (fun _ _ => rfl) hd
        · rename_i hi
          refine whole_set (c' := { c with stage := .telling tellings.length }) h hk rfl rfl rfl rfl (fun _ _ => rfl) ?_
          simp only [soFar, St.stage, hd, if_neg hi]
      · rename_i hst
        rw [soFar, hst] at hd; simp only at hd
        have hl : s.live = true := by simp [St.live, h.cur, up_whole h]
        rw [if_pos hl]
        refine whole_set (c' := { c with stage := .telling 0 }) h hk rfl rfl rfl rfl (fun _ _ => rfl) ?_
        simp [soFar, St.stage, hd]
      · rename_i i hst
        rw [soFar, hst] at hd
        simp only at hd
        split
        · rename_i m hm
          have hi : c.init = true := by
            cases hi : c.init with
            | true => rfl
            | false =>
              rcases hs k c hk hi with x | x | ⟨j, x, hj⟩
              · rw [hst] at x; cases x
              · rw [hst] at x; cases x
              · rw [hst] at x; injection x with x
                rw [List.getElem?_eq_none (by omega)] at hm; cases hm
          rw [hi, if_pos rfl] at hd
          rw [tell_whole h]
          refine whole_set (c' := { c with stage := .telling (i + 1) }) h hk rfl rfl rfl rfl (fun j hj => ?_) ?_
          · simp only [St.stage, mine_append, Sent.of, Option.some.injEq, if_neg (fun e => hj (Eq.symm e)), List.append_nil]
          · simp only [St.stage, mine_append, Sent.of, if_true, hd, soFar, hi, take_succ _ _ _ hm, List.map_append, List.map_cons, List.map_nil]
        · rename_i hm
          rw [take_all _ _ hm] at hd
          split
          · rename_i l hl
            have : l = 0 := by
              rcases h.link k c hk with e | e
              · rw [hl] at e; cases e
              · rw [hl] at e; injection e
            subst this
            rw [send_whole h]
            refine whole_set (c' := { c with stage := .done }) h hk rfl rfl rfl rfl (fun j hj => ?_) ?_
            · simp only [St.stage, mine_append, Sent.of, Option.some.injEq, if_neg (fun e => hj (Eq.symm e)), List.append_nil]
            · simp only [St.stage, mine_append, Sent.of, if_true, hd, soFar, script, hl, Option.isSome_some]
          · rename_i hl
            refine whole_set (c' := { c with stage := .done }) h hk rfl rfl rfl rfl (fun _ _ => rfl) ?_
            simp [St.stage, soFar, script, hl, hd]
      · exact h
    · exact h
  | emit n =>
    simp only [St.step]
    rw [tell_whole h]
    refine ⟨h.cur, h.links, h.link, fun k => ?_⟩
    show mine k (s.log ++ [(0, .note none n)]) = due k s.calls
    rw [mine_append, if_neg (by simp [Sent.of]), List.append_nil]; exact h.sent k
  | handleInitialize => exact ⟨h.cur, h.links, h.link, h.sent⟩

end Handshake

/-- While the transport the server was started with stays connected, a request that has been dealt with was answered, once, and an `initialize` was announced by
all four notifications in order, once each. -/
theorem C126_complete_partial (ops : List (Op D)) (ho : ∀ o ∈ ops, match o with | .start _ | .close | .lost _ => False | _ => True) (k : Nat) (c : Call)
    (hc : ((St.init : St D).run (.start true :: ops)).calls[k]? = some c) (hd : c.stage = .done) :
    (((St.init : St D).run (.start true :: ops)).log.map (·.2)).filter (fun m => decide (m.of = some k)) =
      (if c.init then
          [.note (some k) ⟨lit "notifications/initialized", some (.obj [])⟩, .note (some k) ⟨lit "notifications/tools/list_changed", some (.obj [])⟩,
            .note (some k) ⟨lit "notifications/resources/list_changed", some (.obj [])⟩, .note (some k) ⟨lit "notifications/prompts/list_changed", some (.obj [])⟩]
        else []) ++ if c.link.isSome then [.answer k c.id] else [] := by
  have h := (run_induct (P := fun s => Staged s ∧ Whole s) (ok := Calm) (fun s o ho h => ⟨staged_step s o h.1, whole_step s o ho h.1 h.2⟩) ops
    ((St.init : St D).step (.start true)) (fun o h => by have := ho o h; unfold Calm; cases o <;> simp_all)
    ⟨by intro k c hc; simp [St.init, St.step] at hc,
      ⟨rfl, rfl, by intro k c hc; simp [St.init, St.step] at hc, by intro k; simp [St.init, St.step, mine, due]⟩⟩).2.sent k
  unfold due at h
  rw [run_cons] at hc
  rw [hc] at h
  simp only [soFar, hd] at h
  rw [run_cons]
  exact h

/-- Two clients' requests side by side, an announcement of the application between them. -/
example : let ops : List (Op Empty) := [.request 0 (.int 1) (lit "initialize"), .go 0, .request 0 (.int 2) (lit "ping"), .go 0, .go 0, .go 1, .go 0,
      .emit ⟨lit "notifications/message", none⟩, .go 0, .go 1, .go 0, .go 0]
    (∀ o ∈ ops, match o with | .start _ | .close | .lost _ => False | _ => True) ∧
      (St.init.run (.start true :: ops)).calls.map (fun c => (c.init, c.stage)) = [(true, .done), (false, .done)] ∧
      (St.init.run (.start true :: ops)).log.length = 7 := by
  refine ⟨?_, by decide +kernel, by decide +kernel⟩
  intro o ho
  simp only [List.mem_cons, List.not_mem_nil, or_false] at ho
  rcases ho with rfl | rfl | rfl | rfl | rfl | rfl | rfl | rfl | rfl | rfl | rfl | rfl <;> trivial

namespace Handshake

theorem log_off_step (s : St D) (o : Op D) (ho : ∀ b, o ≠ .start b) (h : s.cur = none ∧ s.links = [] ∧ s.log = []) :
    (s.step o).cur = none ∧ (s.step o).links = [] ∧ (s.step o).log = [] := by
  obtain ⟨h1, h2, h3⟩ := h
  have hu : ∀ l, s.up l = false := fun l => by simp [St.up, h2]
  have ht : ∀ m, s.tell m = s := fun m => by simp [St.tell, h1]
  have hse : ∀ l m, s.send l m = s := fun l m => by simp [St.send, hu]
  cases o with
  | start b => exact absurd rfl (ho b)
  | stop => simp [St.step, h1, h2, h3]
  | close => simp [St.step, h1, h2, h3]
  | lost l => simp [St.step, h1, h2, h3]
  | arrive l m => simp [St.step, hu, h1, h2, h3]
  | note i =>
    simp only [St.step]; split
    · unfold St.handle; split <;> exact ⟨h1, h2, h3⟩
    · exact ⟨h1, h2, h3⟩
  | request l id m => simp [St.step, hu, h1, h2, h3]
  | direct id m => exact ⟨h1, h2, h3⟩
  | go k =>
    simp only [St.step]; split
    · unfold St.go
      split
      · split <;> exact ⟨h1, h2, h3⟩
      · split <;> exact ⟨h1, h2, h3⟩
      · split
        · rw [ht]; exact ⟨h1, h2, h3⟩
        · split
          · rw [hse]; exact ⟨h1, h2, h3⟩
          · exact ⟨h1, h2, h3⟩
      · exact ⟨h1, h2, h3⟩
    · exact ⟨h1, h2, h3⟩
  | emit n => simp only [St.step, ht]; exact ⟨h1, h2, h3⟩
  | handleInitialize => exact ⟨h1, h2, h3⟩

end Handshake

/-- A server that is used through `HandleJSONRPC` alone announces nothing. -/
theorem C126_silent_without_transport (ops : List (Op D)) (ho : ∀ b, Op.start b ∉ ops) : ((St.init : St D).run ops).log = [] :=
  (run_induct (P := fun s => s.cur = none ∧ s.links = [] ∧ s.log = []) (ok := fun o => ∀ b, o ≠ .start b) (fun s o h1 h2 => log_off_step s o h1 h2) ops St.init
    (fun o h b e => ho b (e ▸ h)) ⟨rfl, rfl, rfl⟩).2.2

example : ((St.init : St Empty).run [.direct (.int 1) (lit "initialize"), .go 0, .go 0, .go 0, .emit ⟨lit "x", none⟩]).calls.map Call.stage = [.done] := by
  decide +kernel

/-- A client that gets the notifications of the handshake has nothing in its caches of listings when it gets the answer: whatever the state of its caches was. -/
theorem C126_caches_dropped (c : Client.Cache D) (p t : Bool) (k : Client.Kind) :
    (c.run (tellings.map (fun m => .note p t (telling m)))).hit k = none := by
  have e : ∀ m ∈ tellings, Client.reaches p t (telling m : Notification D) = true := by
    intro m hm
    simp only [tellings, List.mem_cons, List.not_mem_nil, or_false] at hm
    rcases hm with rfl | rfl | rfl | rfl <;> simp [Client.reaches, telling, (by decide : ready ≠ lit "notifications/progress"),
      (by decide : ready ≠ lit "notifications/cancelled"), (by decide : ready ≠ lit "notifications/tasks/status"),
      (by decide : lit "notifications/tools/list_changed" ≠ lit "notifications/progress"), (by decide : lit "notifications/tools/list_changed" ≠ lit "notifications/cancelled"),
      (by decide : lit "notifications/tools/list_changed" ≠ lit "notifications/tasks/status"),
      (by decide : lit "notifications/resources/list_changed" ≠ lit "notifications/progress"), (by decide : lit "notifications/resources/list_changed" ≠ lit "notifications/cancelled"),
      (by decide : lit "notifications/resources/list_changed" ≠ lit "notifications/tasks/status"),
      (by decide : lit "notifications/prompts/list_changed" ≠ lit "notifications/progress"), (by decide : lit "notifications/prompts/list_changed" ≠ lit "notifications/cancelled"),
      (by decide : lit "notifications/prompts/list_changed" ≠ lit "notifications/tasks/status")]
  have keep : ∀ (c : Client.Cache D) n, (c.slots k).set = false → ((c.note p t n).slots k).set = false := by
    intro c n h
    unfold Client.Cache.note
    split
    · show (if _ then _ else _ : Client.Slot D).set = false
      split
      · rfl
      · exact h
    · exact h
  have drop : ∀ (c : Client.Cache D) m, m ∈ tellings → Client.invalidates m k = true → ((c.note p t (telling m)).slots k).set = false := by
    intro c m hm hi
    unfold Client.Cache.note
    rw [e m hm, if_pos rfl]
    show (if Client.invalidates m k = true then _ else _ : Client.Slot D).set = false
    rw [hi]; rfl
  have hs : ((c.run (tellings.map (fun m => .note p t (telling m)))).slots k).set = false := by
    simp only [tellings, List.map_cons, List.map_nil, Client.Cache.run, List.foldl_cons, List.foldl_nil, Client.Cache.step]
    cases k with
    | tools => exact keep _ _ (keep _ _ (drop _ _ (by simp [tellings]) (by decide)))
    | resources => exact keep _ _ (drop _ _ (by simp [tellings]) (by decide))
    | templates => exact keep _ _ (drop _ _ (by simp [tellings]) (by decide))
    | prompts => exact drop _ _ (by simp [tellings]) (by decide)
  unfold Client.Cache.hit
  rw [hs]
  simp

/-- The answer of an `initialize` is the last thing the client gets for it, not the first: four notifications come before it, and among them an `initialized`, which
is for clients to send. -/
theorem C126_answer_first_counterexample (id : RpcId) :
    ((St.init : St D).run ([.start true, .request 0 id (lit "initialize")] ++ List.replicate 7 (.go 0))).log =
      [(0, .note (some 0) ⟨lit "notifications/initialized", some (.obj [])⟩), (0, .note (some 0) ⟨lit "notifications/tools/list_changed", some (.obj [])⟩),
        (0, .note (some 0) ⟨lit "notifications/resources/list_changed", some (.obj [])⟩),
        (0, .note (some 0) ⟨lit "notifications/prompts/list_changed", some (.obj [])⟩), (0, .answer 0 id)] := by
  simp [St.run, St.step, St.go, St.tell, St.send, St.up, St.live, St.stage, St.init, isInit, tellings, telling, ready, List.replicate]

/-- A request that comes before `initialize` is answered like any other. -/
theorem C126_before_initialize_counterexample (id : RpcId) :
    ((St.init : St D).run [.start true, .request 0 id (lit "tools/call"), .go 0, .go 0]).log = [(0, .answer 0 id)] := by
  have : isInit (lit "tools/call") = false := by decide
  simp [St.run, St.step, St.go, St.tell, St.send, St.up, St.live, St.stage, St.init, this, tellings, telling, ready]

end Verif
