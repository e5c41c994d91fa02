import Verif.Ask.GoneProps
import Verif.Ask.Case

/-! A concrete execution that meets the hypotheses of `C130_gone` and `C130_ended_by`: a handler throws something that is not a `std::exception`. -/

namespace Verif.Ask

open Verif.Await Verif.Client Verif.Server Verif.InMemory

def goneTrip : List (Op Empty Nat) :=
  [.call .roots, .go 0, .go 0, .go 0, .go 0, .wire (.deliver false 0), .wire (.pop true), .wire (.handle true), .serve 0 { echoCli with roots := fun _ => .other }]

example : ((World.init startedSelf readyCli).run goneTrip).dead = true ∧ ((World.init startedSelf readyCli).run (goneTrip.take 8)).dead = false := by
  decide +kernel

end Verif.Ask
