import Verif.Pipe.GoneProps
import Verif.Pipe.Case

/-! A concrete execution that meets the hypotheses of `C135_gone` and `C135_ended_by`: a handler throws something that is not a `std::exception`. -/

namespace Verif.Pipe

open Verif.Await Verif.Client Verif.Server Verif.Duplex Verif.Stdio
open Verif.Whole (quietCfg)

def goneTrip : List (Op Empty Nat) :=
  [.call .roots, .go 0, .go 0, .go 0, .go 0, .wire false (.file 0 0)] ++ out false ++ [.wire true (.read 4000), .wire true .decode, .serve { echoCli with roots := fun _ => .other }]

example : ((World.init startedSelf readyCli).run quietCfg goneTrip).dead = true ∧ ((World.init startedSelf readyCli).run quietCfg (goneTrip.take 12)).dead = false := by
  decide +kernel

end Verif.Pipe
