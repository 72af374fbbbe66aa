import Verif.Base.Outcome
/-!
# Model of `include/arc_utilities/ros_helpers.hpp` and `src/roscpp_initializer.cpp`

The parameter server is a function from names to values of the type asked for; `none` stands for a parameter that is not
there or has another type. The overloads for a default value that is moved (ros_helpers.hpp:32-44, 60-72) have the same
body as those for a constant one.
-/
namespace Verif.RosNode
open Verif

/-- The severity of a logged message. Used for ros_helpers.hpp:18-30, 46-58. -/
inductive Severity where
  | debug
  | info
  | warn
  | fatal
deriving DecidableEq

/-- The outcome of a call and the severities of what it logs. Used for ros_helpers.hpp:18-30, 46-58. -/
structure Logged (α : Type) where
  logged : List Severity
  result : Out α

/-- `GetParam` (ros_helpers.hpp:18-30) and `GetVector` (125-138) -/
def getParam {T : Type} (server : String → Option T) (name : String) (default : T) : Logged T :=
  match server name with
  | some v => ⟨[.info], .ok v⟩
  | none => ⟨[.warn], .ok default⟩

/-- `GetParamDebugLog` (ros_helpers.hpp:46-58) -/
def getParamDebugLog {T : Type} (server : String → Option T) (name : String) (default : T) : Logged T :=
  match server name with
  | some v => ⟨[.debug], .ok v⟩
  | none => ⟨[.debug], .ok default⟩

/-- `GetParamOptional` (ros_helpers.hpp:74-87) and `GetVectorOptional` (140-153) -/
def getParamOptional {T : Type} (server : String → Option T) (name : String) : Logged (Option T) :=
  match server name with
  | some v => ⟨[.info], .ok (some v)⟩
  | none => ⟨[.debug], .ok none⟩

/-- `GetParamRequired` (ros_helpers.hpp:89-105) and `GetVectorRequired` (155-171) -/
def getParamRequired {T : Type} (server : String → Option T) (name : String) : Logged T :=
  match server name with
  | some v => ⟨[.debug, .info], .ok v⟩
  | none => ⟨[.debug, .fatal], .throws .invalidArgument⟩

/-- `GetParamRequiredDebugLog` (ros_helpers.hpp:107-123) and `GetVectorRequiredDebugLog` (173-189) -/
def getParamRequiredDebugLog {T : Type} (server : String → Option T) (name : String) : Logged T :=
  match server name with
  | some v => ⟨[.debug, .debug], .ok v⟩
  | none => ⟨[.debug, .fatal], .throws .invalidArgument⟩

/-! ### Starting a node -/

/-- Levels of the console (roscpp_initializer.cpp:19-37) -/
inductive Level where
  | debug
  | info
  | warn
  | error
  | fatal
deriving DecidableEq

/-- A call of `ros::init`: the arguments, the name and the options, which are 0 by default. Used for
roscpp_initializer.cpp:17-62, 64. -/
structure Init where
  argv : List (List Char)
  name : String
  options : Nat

/-- What the process has done with ROS. Used for roscpp_initializer.cpp:17-62, 64. -/
structure Process where
  levels : List (String × Level)
  inits : List Init
  spinning : Bool
  down : Bool

/-- The options of roscpp: `NoSigintHandler`, `AnonymousName`, `NoRosout`. Used for roscpp_initializer.cpp:39-49. -/
def noSigintHandler : Nat := 1
/-- `ros::init_options::AnonymousName`. Used for roscpp_initializer.cpp:39-49. -/
def anonymousName : Nat := 2
/-- `ros::init_options::NoRosout`. Used for roscpp_initializer.cpp:39-49. -/
def noRosout : Nat := 4

/-- roscpp_initializer.cpp:39-49: the options that the caller asks for -/
def gatherOptions (anonymous disableRosout disableSignals : Bool) : Nat :=
  let options := 0
  let options := if anonymous then options ||| anonymousName else options
  let options := if disableSignals then options ||| noSigintHandler else options
  if disableRosout then options ||| noRosout else options

/-- `init_node` (roscpp_initializer.cpp:17-62). The options are gathered (39-49) and not used in the call (58). An argument
is copied as a C string (52-56): it ends at its first zero. -/
def initNode (p : Process) (name : String) (argv : List (List Char)) (logLevel : Int)
    (anonymous disableRosout disableSignals : Bool) : Out Process :=
  let level : Option Level := match logLevel with
    | 0 => some .debug
    | 1 => some .info
    | 2 => some .warn
    | 3 => some .error
    | 4 => some .fatal
    | _ => none
  match level with
  | none => .throws .invalidArgument
  | some l =>
    let _options := gatherOptions anonymous disableRosout disableSignals
    .ok { p with
      levels := p.levels ++ [(name, l)]
      inits := p.inits ++ [⟨argv.map fun s => s.takeWhile (· ≠ '\x00'), name, 0⟩]
      spinning := true }

/-- `shutdown` (roscpp_initializer.cpp:64) -/
def shutdown (p : Process) : Process := { p with down := true }

end Verif.RosNode
