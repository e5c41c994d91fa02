import Verif.Http.ServerStopProps

/-!
C117, third part: what is left of the sessions and of the port when `Stop` has returned.
-/

namespace Verif.Http

/-- A session that is no longer in the map stays out of it. -/
theorem shut_out {x : HlSession} (h : x.known = false) : x.shut.known = false := by unfold HlSession.shut; rw [h]; exact h

theorem shut_known (x : HlSession) : x.shut.known = false := by
  unfold HlSession.shut
  split
  · rfl
  · rename_i h; simpa using h

/-- Session `k` was there when the sessions were closed, or will be when they are. -/
def Swept (k : Nat) (s : Hl) : Prop :=
  ((s.call = .flag ∨ s.call = .sweep) ∧ k < s.sessions.length) ∨ ∃ x : HlSession, s.sessions[k]? = some x ∧ x.known = false

theorem Swept.of {k : Nat} {s t : Hl} (h : Swept k s) (hc : t.call = s.call) (hl : s.sessions.length ≤ t.sessions.length)
    (hs : ∀ x : HlSession, s.sessions[k]? = some x → x.known = false → ∃ y : HlSession, t.sessions[k]? = some y ∧ y.known = false) : Swept k t := by
  rcases h with ⟨h1, h2⟩ | ⟨x, h1, h2⟩
  · exact .inl ⟨by rw [hc]; exact h1, by omega⟩
  · exact .inr (hs x h1 h2)

theorem Swept.same {k : Nat} {s t : Hl} (h : Swept k s) (hc : t.call = s.call) (hs : t.sessions = s.sessions) : Swept k t :=
  h.of hc (by rw [hs]; exact Nat.le_refl _) (fun x h1 h2 => ⟨x, by rw [hs]; exact h1, h2⟩)

theorem swept_use {k : Nat} {s : Hl} (h : Swept k s) (u : HlUse) : Swept k (s.use u) := by
  have md : ∀ (i : Nat) (g : HlSession → HlSession), (∀ x, x.known = false → (g x).known = false) → Swept k { s with sessions := s.sessions.modify i g } := by
    intro i g hg
    refine h.of rfl (by simp) fun x h1 h2 => ?_
    show ∃ y, (s.sessions.modify i g)[k]? = some y ∧ _
    rw [List.getElem?_modify, h1]
    refine ⟨_, rfl, ?_⟩
    split
    · exact hg x h2
    · exact h2
  unfold Hl.use
  split
  · exact h.same rfl rfl
  · cases u with
    | look => exact h
    | create =>
      refine h.of rfl (by simp) fun x h1 h2 => ⟨x, ?_, h2⟩
      show (s.sessions ++ [_])[k]? = _
      rw [List.getElem?_append_left (List.getElem?_eq_some_iff.mp h1).1]
      exact h1
    | remove i => exact md i _ (fun _ hx => shut_out hx)
    | push i => exact md i _ (fun x hx => by rw [hx]; exact hx)

theorem swept_step {k : Nat} {s : Hl} (h : Swept k s) (op : HlOp) : Swept k (s.step op) := by
  unfold Hl.step
  split
  · exact h
  · have idle : s.call = .idle → ∃ x : HlSession, s.sessions[k]? = some x ∧ x.known = false := by
      intro hc
      rcases h with ⟨h1 | h1, -⟩ | h1
      · rw [hc] at h1; cases h1
      · rw [hc] at h1; cases h1
      · exact h1
    cases op with
    | start =>
      dsimp only
      split
      · rename_i hc; unfold Hl.start; dsimp only; split <;> exact .inr (idle hc)
      · exact h
    | stop => dsimp only; split; (rename_i hc; exact .inr (idle hc)); exact h
    | destroy => dsimp only; split; (rename_i hc; exact .inr (idle hc)); exact h
    | caller =>
      dsimp only
      unfold Hl.caller
      have later : s.call ≠ .flag → s.call ≠ .sweep → ∃ x : HlSession, s.sessions[k]? = some x ∧ x.known = false := by
        intro h1 h2
        rcases h with ⟨h3 | h3, -⟩ | h3
        · exact absurd h3 h1
        · exact absurd h3 h2
        · exact h3
      cases hc : s.call with
      | idle => exact h
      | flag =>
        rcases h with ⟨-, h3⟩ | h3
        · exact .inl ⟨.inr rfl, h3⟩
        · exact .inr h3
      | sweep =>
        right
        show ∃ x, (s.sessions.map HlSession.shut)[k]? = some x ∧ _
        rw [List.getElem?_map]
        rcases h with ⟨-, h3⟩ | ⟨x, h3, -⟩
        · rw [List.getElem?_eq_getElem h3]; exact ⟨_, rfl, shut_known _⟩
        · rw [h3]; exact ⟨_, rfl, shut_known _⟩
      | close => exact .inr (later (by rw [hc]; exact (nomatch ·)) (by rw [hc]; exact (nomatch ·)))
      | halt => exact .inr (later (by rw [hc]; exact (nomatch ·)) (by rw [hc]; exact (nomatch ·)))
      | joinIo => dsimp only; split <;> exact .inr (later (by rw [hc]; exact (nomatch ·)) (by rw [hc]; exact (nomatch ·)))
      | joinSse => dsimp only; split <;> exact .inr (later (by rw [hc]; exact (nomatch ·)) (by rw [hc]; exact (nomatch ·)))
      | dHalt => dsimp only; split <;> exact .inr (later (by rw [hc]; exact (nomatch ·)) (by rw [hc]; exact (nomatch ·)))
      | dJoinIo => dsimp only; split <;> exact .inr (later (by rw [hc]; exact (nomatch ·)) (by rw [hc]; exact (nomatch ·)))
      | dJoinSse => dsimp only; split <;> exact .inr (later (by rw [hc]; exact (nomatch ·)) (by rw [hc]; exact (nomatch ·)))
      | frames => dsimp only; split <;> exact .inr (later (by rw [hc]; exact (nomatch ·)) (by rw [hc]; exact (nomatch ·)))
      | destroyed => exact h
    | io =>
      dsimp only
      unfold Hl.goIo
      split
      · exact h.same rfl rfl
      · split
        · exact h.same rfl rfl
        · exact h
      · exact h
    | accept o =>
      have sig : ∀ t : Hl, t.signal.call = t.call ∧ t.signal.sessions = t.sessions := by
        intro t; unfold Hl.signal; split <;> exact ⟨rfl, rfl⟩
      have fails : Swept k s.acceptFails := by
        unfold Hl.acceptFails
        split
        · exact h.same (sig _).1 (sig _).2
        · exact h.same (sig _).1 (sig _).2
      dsimp only
      split
      · unfold Hl.goAccept
        split
        · split
          · exact h.same (sig _).1 (sig _).2
          · exact h.same rfl rfl
        · split
          · exact h.same (sig _).1 (sig _).2
          · exact fails
        · split
          · exact h.same rfl rfl
          · exact fails
        · exact h
      · exact h
    | conn c r =>
      dsimp only
      split
      · unfold Hl.goConn
        split
        · split
          · exact h.same rfl rfl
          · exact h.same rfl rfl
          · split
            · split <;> exact h.same rfl rfl
            · exact h.same rfl rfl
        · exact h.same rfl rfl
        · exact h.same rfl rfl
        · exact h
      · exact h
    | work c u => dsimp only; split; exact swept_use h u; exact h
    | finish c => dsimp only; split; exact h.same rfl rfl; exact h
    | push i => dsimp only; split; exact swept_use h _; exact h
    | sse j =>
      dsimp only
      unfold Hl.goSse
      split
      · exact h.same rfl rfl
      · rename_i i hj
        split
        · rename_i x hx
          split
          · exact h.same rfl rfl
          · split
            · exact h.same rfl rfl
            · refine h.of rfl (by simp) fun y h1 h2 => ?_
              show ∃ z, (s.sessions.set i _)[k]? = some z ∧ _
              rw [List.getElem?_set]
              split
              · rename_i e
                subst e
                rw [hx] at h1
                cases h1
                rw [if_pos (List.getElem?_eq_some_iff.mp hx).1]
                exact ⟨_, rfl, h2⟩
              · exact ⟨y, h1, h2⟩
        · exact h
      · exact h
    | wrote j ok =>
      dsimp only
      unfold Hl.wrote
      split
      · exact h.same rfl rfl
      · exact h

/-- C117. When `Stop` has returned, none of the sessions that were there when it was called is served any more. -/
theorem C117_swept (ops more : List HlOp) (k : Nat) (hc : (Hl.init.run ops).call = .flag) (hk : k < (Hl.init.run ops).sessions.length)
    (hend : (Hl.init.run (ops ++ more)).call = .idle) : ∃ x : HlSession, (Hl.init.run (ops ++ more)).sessions[k]? = some x ∧ x.known = false := by
  rw [hl_run_append] at hend ⊢
  have h : Swept k ((Hl.init.run ops).run more) := hl_run_inv (P := Swept k) (.inl ⟨.inl hc, hk⟩) fun t op _ h => swept_step h op
  rcases h with ⟨h1 | h1, -⟩ | h1
  · rw [hend] at h1; cases h1
  · rw [hend] at h1; cases h1
  · exact h1

example : let ops : List HlOp := [.start, .io, .accept .ok, .accept .ok, .accept .ok, .conn 0 .post, .work 0 .create, .finish 0, .stop]
    let more : List HlOp := [.caller, .caller, .caller, .caller, .io, .caller, .caller]
    (Hl.init.run ops).call = .flag ∧ 0 < (Hl.init.run ops).sessions.length ∧ (Hl.init.run (ops ++ more)).call = .idle := by decide +kernel

/-! ### The port -/

/-- The accept loop has the port already, or will not get it; and once `Stop` has closed it, it is closed. -/
structure Unbound (s : Hl) : Prop where
  loop : s.accept ≠ .queued ∧ s.accept ≠ .resolving ∧ s.io ≠ .entry
  shut : s.call = .halt ∨ s.call = .joinIo ∨ s.call = .joinSse ∨ s.call = .idle → s.open_ = false
  call : s.call = .close ∨ s.call = .halt ∨ s.call = .joinIo ∨ s.call = .joinSse ∨ s.call = .idle

theorem Unbound.same {s t : Hl} (h : Unbound s) (h1 : t.accept = s.accept) (h2 : t.io = s.io) (h3 : t.open_ = s.open_) (h4 : t.call = s.call) : Unbound t :=
  ⟨by rw [h1, h2]; exact h.loop, by rw [h3, h4]; exact h.shut, by rw [h4]; exact h.call⟩

theorem unbound_use {s : Hl} (h : Unbound s) (u : HlUse) : Unbound (s.use u) := by
  unfold Hl.use
  split
  · exact h.same rfl rfl rfl rfl
  · cases u with
    | look => exact h
    | _ => exact h.same rfl rfl rfl rfl

theorem unbound_step {s : Hl} (h : Unbound s) (op : HlOp) (h1 : op ≠ .start) (h2 : op ≠ .stop) (h3 : op ≠ .destroy) : Unbound (s.step op) := by
  unfold Hl.step
  split
  · exact h
  · cases op with
    | start => exact absurd rfl h1
    | stop => exact absurd rfl h2
    | destroy => exact absurd rfl h3
    | caller =>
      dsimp only
      unfold Hl.caller
      have hl := h.loop
      rcases h.call with e | e | e | e | e
      · rw [e]; exact ⟨hl, fun _ => rfl, .inr (.inl rfl)⟩
      · rw [e]; exact ⟨hl, fun _ => h.shut (.inl e), .inr (.inr (.inl rfl))⟩
      · rw [e]
        dsimp only
        split
        · exact ⟨⟨hl.1, hl.2.1, (nomatch ·)⟩, fun _ => h.shut (.inr (.inl e)), .inr (.inr (.inr (.inl rfl)))⟩
        · exact h
      · rw [e]
        dsimp only
        split
        · exact ⟨hl, fun _ => h.shut (.inr (.inr (.inl e))), .inr (.inr (.inr (.inr rfl)))⟩
        · exact h
      · rw [e]; exact h
    | io =>
      dsimp only
      unfold Hl.goIo
      split
      · rename_i e; exact absurd e h.loop.2.2
      · split
        · exact ⟨⟨h.loop.1, h.loop.2.1, (nomatch ·)⟩, h.shut, h.call⟩
        · exact h
      · exact h
    | accept o =>
      have sig : ∀ t : Hl, t.signal.call = t.call ∧ t.signal.open_ = t.open_ ∧ t.signal.io = t.io := by
        intro t; unfold Hl.signal; split <;> exact ⟨rfl, rfl, rfl⟩
      have over : ∀ t : Hl, t.accept = .over → t.call = s.call → t.open_ = s.open_ → t.io = s.io → Unbound t := by
        intro t e1 e2 e3 e4
        exact ⟨⟨by rw [e1]; exact (nomatch ·), by rw [e1]; exact (nomatch ·), by rw [e4]; exact h.loop.2.2⟩, by rw [e2, e3]; exact h.shut, by rw [e2]; exact h.call⟩
      dsimp only
      split
      · unfold Hl.goAccept
        split
        · rename_i e; exact absurd e h.loop.1
        · rename_i e; exact absurd e h.loop.2.1
        · split
          · refine ⟨⟨?_, ?_, h.loop.2.2⟩, h.shut, h.call⟩ <;> (dsimp only; split <;> exact (nomatch ·))
          · unfold Hl.acceptFails
            split
            · exact over _ rfl (sig _).1 (sig _).2.1 (sig _).2.2
            · exact over _ rfl (sig _).1 (sig _).2.1 (sig _).2.2
        · exact h
      · exact h
    | conn c r =>
      dsimp only
      split
      · unfold Hl.goConn
        split
        · split
          · exact h.same rfl rfl rfl rfl
          · exact h.same rfl rfl rfl rfl
          · split
            · split <;> exact h.same rfl rfl rfl rfl
            · exact h.same rfl rfl rfl rfl
        · exact h.same rfl rfl rfl rfl
        · exact h.same rfl rfl rfl rfl
        · exact h
      · exact h
    | work c u => dsimp only; split; exact unbound_use h u; exact h
    | finish c => dsimp only; split; exact h.same rfl rfl rfl rfl; exact h
    | push i => dsimp only; split; exact unbound_use h _; exact h
    | sse j =>
      dsimp only
      unfold Hl.goSse
      split
      · exact h.same rfl rfl rfl rfl
      · split
        · split
          · exact h.same rfl rfl rfl rfl
          · split <;> exact h.same rfl rfl rfl rfl
        · exact h
      · exact h
    | wrote j ok =>
      dsimp only
      unfold Hl.wrote
      split
      · exact h.same rfl rfl rfl rfl
      · exact h

/-- C117. A server that listens, or whose accept loop is over, when `Stop` comes to the port does not hold the port any more when `Stop` has returned. Missing: `Stop` during the beginning of the
accept loop. -/
theorem C117_port_partial (ops more : List HlOp) (hc : (Hl.init.run ops).call = .close) (hio : (Hl.init.run ops).io ≠ .entry)
    (ha : (Hl.init.run ops).accept ≠ .queued ∧ (Hl.init.run ops).accept ≠ .resolving) (hm : HlOp.start ∉ more ∧ HlOp.stop ∉ more ∧ HlOp.destroy ∉ more)
    (hend : (Hl.init.run (ops ++ more)).call = .idle) : (Hl.init.run (ops ++ more)).open_ = false := by
  rw [hl_run_append] at hend ⊢
  have h : Unbound ((Hl.init.run ops).run more) := hl_run_inv (P := Unbound) ⟨⟨ha.1, ha.2, hio⟩, fun e => (by rw [hc] at e; rcases e with e | e | e | e <;> cases e), .inl hc⟩
    fun t op ho h => unbound_step h op (fun e => hm.1 (e ▸ ho)) (fun e => hm.2.1 (e ▸ ho)) (fun e => hm.2.2 (e ▸ ho))
  exact h.shut (.inr (.inr (.inr hend)))

example : let ops : List HlOp := [.start, .io, .accept .ok, .accept .ok, .stop, .caller, .caller]
    let more : List HlOp := [.caller, .caller, .io, .caller, .caller]
    (Hl.init.run ops).call = .close ∧ (Hl.init.run ops).open_ = true ∧ (Hl.init.run ops).accept = .listening ∧ (Hl.init.run (ops ++ more)).call = .idle := by decide +kernel

/-- C117 fails: when `Stop` comes before the accept loop has the port, the loop takes the port after `Stop` has looked for it; `Stop` returns, and the server still holds the port and takes
connections that nobody serves. -/
theorem C117_port_counterexample : ∃ ops : List HlOp, (Hl.init.run ops).call = .idle ∧ (Hl.init.run ops).log.getLast? = some .returned ∧ (Hl.init.run ops).open_ = true :=
  ⟨[.start, .io, .accept .ok, .stop, .caller, .caller, .caller, .accept .ok, .caller, .io, .caller, .caller], by decide +kernel⟩

end Verif.Http
