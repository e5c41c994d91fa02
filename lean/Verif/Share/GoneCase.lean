import Verif.Share.GoneProps
import Verif.Share.Case

/-! A concrete execution that meets the hypotheses of `C133_gone` and `C133_ended_by`: a handler throws something that is not a `std::exception`. -/

namespace Verif.Share

open Verif.Await Verif.Client Verif.Server Verif.Shm
open Verif.Whole (toolArgs)

def goneTrip : List (Op Empty Nat) :=
  [.call (.callTool (lit "t") toolArgs), .go 0, .go 0, .file 0, .wire (.deliver true 0), .wire (.take false), .wire (.handle false), .serve 0 { echoEnv with tool := fun _ _ => .other }]

example : ((World.init roomy plainSelf echoSrv).run roomy true goneTrip).dead = true ∧ ((World.init roomy plainSelf echoSrv).run roomy true (goneTrip.take 7)).dead = false := by
  decide +kernel

end Verif.Share
