import Verif.Whole.GoneProps
import Verif.Whole.Case

/-! A concrete execution that meets the hypotheses of `C115_gone` and `C115_ended_by`: a handler throws something that is not a `std::exception`. -/

namespace Verif.Whole

open Verif.Await Verif.Client Verif.Server Verif.Duplex Verif.Stdio

def goneTrip : List (Op Empty Nat) :=
  [.call (.callTool (lit "t") toolArgs), .go 0, .go 0, .wire false (.file 0 0), .wire false (.push 0), .wire false .dequeue, .wire false (.write 999), .wire false .finish, .wire true (.read 4000),
   .wire true .decode, .serve { echoEnv with tool := fun _ _ => .other }]

example : ((World.init plainSelf echoSrv).run quietCfg goneTrip).dead = true ∧ ((World.init plainSelf echoSrv).run quietCfg (goneTrip.take 10)).dead = false := by
  decide +kernel

end Verif.Whole
