import Verif.Back.GoneProps
import Verif.Back.Case

/-! A concrete execution that meets the hypotheses of `C134_gone` and `C134_ended_by`: a handler throws something that is not a `std::exception`. -/

namespace Verif.Back

open Verif.Await Verif.Client Verif.Server Verif.Shm
open Verif.Share (roomy)

def goneTrip : List (Op Empty Nat) :=
  [.call .roots, .go 0, .go 0, .go 0, .go 0, .file 0, .wire (.deliver false 0), .wire (.take true), .wire (.handle true), .serve 0 { echoCli with roots := fun _ => .other }]

example : ((World.init roomy startedSelf readyCli).run roomy false goneTrip).dead = true ∧ ((World.init roomy startedSelf readyCli).run roomy false (goneTrip.take 9)).dead = false := by
  decide +kernel

end Verif.Back
