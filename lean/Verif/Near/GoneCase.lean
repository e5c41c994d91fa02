import Verif.Near.GoneProps
import Verif.Near.Case

/-! A concrete execution that meets the hypotheses of `C129_gone` and `C129_ended_by`: a handler throws something that is not a `std::exception`. -/

namespace Verif.Near

open Verif.Await Verif.Client Verif.Server Verif.InMemory
open Verif.Whole (toolArgs)

def goneTrip : List (Op Empty Nat) :=
  [.call (.callTool (lit "t") toolArgs), .go 0, .go 0, .wire (.deliver false 0), .wire (.pop true), .wire (.handle true), .serve 0 { echoEnv with tool := fun _ _ => .other }]

example : ((World.init plainSelf echoSrv).run goneTrip).dead = true ∧ ((World.init plainSelf echoSrv).run (goneTrip.take 6)).dead = false := by
  decide +kernel

end Verif.Near
