import Verif.Model.POParser
import Verif.Spec.Effect
/-
What a caller of `POParser::parse` can see of a parse.
-/
namespace Tgt.Spec

/-- How a parse ended, with the dictionary and the messages logged (oldest first). -/
inductive Observed where
  /-- returned normally -/
  | returned (d : Dictionary) (log : List Diag)
  /-- ended by a `std::exception` with this `what()` -/
  | threw (what : Str) (d : Dictionary) (log : List Diag)
  /-- ended by a `POParserError` -/
  | threwPo (d : Dictionary) (log : List Diag)
  /-- undefined behaviour or abort -/
  | crashed (f : Fault)
  /-- did not finish within the given fuel -/
  | unfinished
  deriving DecidableEq, Repr

/-- What is visible of a parse result. -/
def observe : Res PState Unit → Observed
  | .ok _ s => .returned s.dict s.log
  | .exn w s => .threw w s.dict s.log
  | .poError s => .threwPo s.dict s.log
  | .fault f => .crashed f
  | .diverge => .unfinished

namespace Observed

/-- The dictionary after a parse that ended normally or by an exception. -/
def dict? : Observed → Option Dictionary
  | returned d _ | threw _ d _ | threwPo d _ => some d
  | _ => none

/-- The messages logged by such a parse. -/
def log : Observed → List Diag
  | returned _ l | threw _ _ l | threwPo _ l => l
  | _ => []

/-- The same outcome with the messages transformed. -/
def mapLog (g : List Diag → List Diag) : Observed → Observed
  | returned d l => returned d (g l)
  | threw w d l => threw w d (g l)
  | threwPo d l => threwPo d (g l)
  | crashed f => crashed f
  | unfinished => unfinished

/-- Everything but the messages. -/
def noLog (o : Observed) : Observed := o.mapLog (fun _ => [])

/-- The parse came back: it returned or threw. -/
def Ended : Observed → Prop
  | returned .. | threw .. | threwPo .. => True
  | _ => False

end Observed

/-- What is visible, messages left out, of a parse that ended in this way with dictionary `d`. -/
def Ending.at (e : Ending) (d : Dictionary) : Observed :=
  match e with
  | .returned => .returned d []
  | .threw w => .threw w d []
  | .crashed f => .crashed f
  | .unfinished => .unfinished

/-- The messages that only pedantic mode prints (src/po_parser.cpp:177, 209). -/
def pedanticOnly : Diag → Bool
  | .po .warning _ _ m _ =>
    m == b!"keyword and string must be seperated by a single space" ||
    m == b!"leading whitespace before string"
  | _ => false

end Tgt.Spec
