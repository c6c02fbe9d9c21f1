import Verif.Base.Bytes

/-!
# The logger: `src/Logger.cc`, `include/zenkit/Logger.hh`

Formatting (`vsnprintf`) is a parameter-free copy here: a message is the formatted text. Callbacks that log themselves are
not modelled.
-/

namespace Verif.Log

/-- `_s_callback` and `_s_level` (`src/Logger.cc:23-24`). A callback is represented by a number; `none` is an empty function. -/
structure State where
  callback : Option Nat := none
  level : Nat := 2
  deriving DecidableEq, Repr

/-- Calls of the interface. -/
inductive Op where
  /-- `Logger::set(lvl, cb)`; `set_default` and `use_logger` are instances -/
  | set (level : Nat) (cb : Option Nat)
  /-- `Logger::log(lvl, name, message)` -/
  | log (level : Nat) (name message : Bytes)
  deriving DecidableEq, Repr

/-- A call of a callback. -/
structure Call where
  callback : Nat
  level : Nat
  name : Bytes
  message : Bytes
  deriving DecidableEq, Repr

/-- `vsnprintf` into a buffer of 4096 bytes with the size 4095: at most 4094 characters (`src/Logger.cc:21, 79`). -/
def clip (message : Bytes) : Bytes := message.take 4094

/-- One call of the interface (`src/Logger.cc:69-91`). -/
def step (s : State) : Op → State × List Call
  | .set level cb => ({ callback := cb, level }, [])
  | .log level name message =>
    match s.callback with
    | none => (s, [])
    | some cb => if level > s.level then (s, []) else (s, [⟨cb, level, name, clip message⟩])

/-- A history of calls. -/
def run (s : State) : List Op → State × List Call
  | [] => (s, [])
  | op :: ops =>
    let (s', out) := step s op
    let (s'', out') := run s' ops
    (s'', out ++ out')

end Verif.Log
