import Verif.Reach.GoneProps
import Verif.Reach.Case

/-! A concrete execution that meets the hypotheses of `C136_gone` and `C136_ended_by`: the client's roots handler throws something that is not a `std::exception`. -/

namespace Verif.Reach

open Verif.Await Verif.Client Verif.Server Verif.Http

def goneTrip : List (Op Empty Nat) :=
  opening.map .wire ++ [.call .roots, .go 0, .go 0, .go 0, .go 0, .wire (.world (.advance 0)), .wire (.world (.advance 0)), .wire (.world (.pump 0 true)),
    .heed 0 { echoCli with roots := fun _ => .other } true true]

example : ((World.init startedSelf readyCli).run demoCfg goneTrip).dead = true ∧ ((World.init startedSelf readyCli).run demoCfg (goneTrip.take 15)).dead = false := by
  decide +kernel

end Verif.Reach
