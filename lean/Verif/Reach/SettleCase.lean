import Verif.Reach.SettleProps
import Verif.Reach.Case

/-! A concrete execution without end that meets the hypotheses of `C136_ended_partial` and `C136_closed_partial`: the session is taken away while the server waits for the answer to a ping. -/

namespace Verif.Reach

open Verif.Await Verif.Client Verif.Server Verif.Http

/-- A ping is sent, and its session is closed. -/
def closeTrip : List (Op Empty Nat) :=
  opening.map .wire ++ [.call .ping, .go 0, .go 0, .go 0, .go 0, .wire (.world (.advance 0)), .wire (.world (.advance 0)), .wire (.world (.remove (lit "s1")))]

/-- After that the call has its turns, for ever. -/
def closeRun (t : Nat) : Op Empty Nat :=
  match closeTrip[t]? with
  | some op => op
  | none => if t % 2 = 0 then .deliver 0 else .go 0

theorem closeRun_late {t : Nat} (h : 15 ≤ t) : closeRun t = if t % 2 = 0 then .deliver 0 else .go 0 := by
  have : closeTrip[t]? = none := List.getElem?_eq_none_iff.2 (show closeTrip.length ≤ t from h)
  unfold closeRun
  rw [this]

theorem closeRun_turns : Turns closeRun 0 0 := by
  constructor
  · intro t
    refine ⟨2 * (t + 15), by omega, ?_⟩
    rw [closeRun_late (by omega), if_pos (by omega)]
  · intro t
    refine ⟨2 * (t + 15) + 1, by omega, ?_⟩
    rw [closeRun_late (by omega), if_neg (by omega)]

abbrev closeAt (t : Nat) : World Empty Nat := states demoCfg (World.init startedSelf readyCli) closeRun t

def waitsFor (w : World Empty Nat) (i n : Nat) : Bool :=
  match w.server.calls[i]? with
  | some x => match x.st with
    | .wait m _ => decide (m = n)
    | .check m _ => decide (m = n)
    | _ => false
  | none => false

theorem waitsFor_sound {w : World Empty Nat} {i n : Nat} (h : waitsFor w i n = true) :
    ∃ (x : SCall Empty) (k : Client.Outcome Empty → SBody Empty), w.server.calls[i]? = some x ∧ (x.st = .check n k ∨ x.st = .wait n k) := by
  unfold waitsFor at h
  split at h
  · rename_i x hx
    split at h
    · rename_i m k hst
      have := of_decide_eq_true h
      subst this
      exact ⟨x, k, hx, .inr hst⟩
    · rename_i m k hst
      have := of_decide_eq_true h
      subst this
      exact ⟨x, k, hx, .inl hst⟩
    · cases h
  · cases h

example : Turns closeRun 0 0 ∧
    (∃ (x : SCall Empty) (k : Client.Outcome Empty → SBody Empty), (closeAt 12).server.calls[0]? = some x ∧ (x.st = .check 0 k ∨ x.st = .wait 0 k)) ∧
    ∃ t m y z, (closeAt 12).slots[0]? = some t ∧ m ∈ named Hs.init (closeAt 14).link.srvDid ∧ m.ticket = t.1 ∧ (closeAt 14).link.hs.objs[m.obj]? = some y ∧ y.closed = false ∧
      (closeAt 15).link.hs.objs[m.obj]? = some z ∧ z.closed = true ∧ LetGo (closeAt 15).link t.1 := by
  refine ⟨closeRun_turns, waitsFor_sound (by decide +kernel), ?_⟩
  have ht : ((closeAt 12).slots[0]?).map (·.1) = some 0 := by decide +kernel
  obtain ⟨t, ht, ht0⟩ := Option.map_eq_some_iff.1 ht
  have hm : ((named Hs.init (closeAt 14).link.srvDid)[0]?).map (fun m => (m.ticket, m.obj, m.fut)) = some (0, 0, 0) := by decide +kernel
  obtain ⟨m, hm, hm0⟩ := Option.map_eq_some_iff.1 hm
  have hy : ((closeAt 14).link.hs.objs[0]?).map (·.closed) = some false := by decide +kernel
  obtain ⟨y, hy, hy0⟩ := Option.map_eq_some_iff.1 hy
  have hz : ((closeAt 15).link.hs.objs[0]?).map (fun z => (z.closed, (z.pend.outcomes.head?).map (·.1))) = some (true, some 0) := by decide +kernel
  obtain ⟨z, hz, hz0⟩ := Option.map_eq_some_iff.1 hz
  simp only [Prod.mk.injEq] at hm0 hz0
  obtain ⟨h1, h2, h3⟩ := hm0
  obtain ⟨⟨n, so⟩, hso, rfl⟩ := Option.map_eq_some_iff.1 hz0.2
  refine ⟨t, m, y, z, ht, List.mem_of_getElem? hm, h1.trans ht0.symm, by rw [h2]; exact hy, hy0, by rw [h2]; exact hz, hz0.1, .inr ⟨m, ?_, h1.trans ht0.symm, z, so, by rw [h2]; exact hz, ?_⟩⟩
  · obtain ⟨more, hmore⟩ := did_between demoCfg (World.init startedSelf readyCli) closeRun (show 14 ≤ 15 by decide)
    rw [← hmore, named_append]
    exact List.mem_append_left _ (List.mem_of_getElem? hm)
  · rw [h3]; exact List.mem_of_mem_head? hso

end Verif.Reach
