/-
Model of `finmlkit/utils/log.py`: the set-up of the root logger, which every module runs on import.
Strings are lists of characters.
-/
import Verif.Prelude

namespace FinML

/-- `logging.getLevelName` on an upper-case name: the number of a known level.  For any other name Python returns a text. -/
def levelOf (s : List Char) : Option Int :=
  if s = "CRITICAL".toList ∨ s = "FATAL".toList then some 50
  else if s = "ERROR".toList then some 40
  else if s = "WARNING".toList ∨ s = "WARN".toList then some 30
  else if s = "INFO".toList then some 20
  else if s = "DEBUG".toList then some 10
  else if s = "NOTSET".toList then some 0
  else none

/-- The three environment variables, `log.py:22-24`. -/
structure LogEnv where
  fileLevel : Option (List Char)
  consoleLevel : Option (List Char)
  path : Option (List Char)

/-- Handlers of the root logger: of this library, or installed before by the application. -/
inductive LogHandler
  | foreign
  | console (level : Int)
  | file (path : List Char) (level : Int)
deriving DecidableEq

/-- What the set-up changes: handlers and level of the root logger, its propagation, and whether the loggers of the five
libraries were set to WARNING (`log.py:58-62`). -/
structure LogState where
  handlers : List LogHandler
  level : Int
  quiet : Bool
  propagate : Bool
deriving DecidableEq

/-- `os.path.dirname` is empty iff there is no slash. -/
def noDirectory (p : List Char) : Bool := !(p.contains '/')

/-- `log.py:58-65`. -/
def finishLogging (s : LogState) : LogState := { s with quiet := true, propagate := false }

/-- `log.py:7-65` `setup_logging`; `canMake` tells whether `os.makedirs` of the directory of a path succeeds.  An exception
leaves the state changed so far. -/
def setupLogging (canMake : List Char → Bool) (env : LogEnv) (s : LogState) : LogState × Except String Unit :=
  if s.handlers ≠ [] then (s, .ok ())
  else
    let fl := levelOf ((env.fileLevel.getD "DEBUG".toList).map Char.toUpper)
    let cl := levelOf ((env.consoleLevel.getD "INFO".toList).map Char.toUpper)
    match fl, cl with
    | some f, some c =>
      let s1 := { s with level := min f c, handlers := [.console c] }
      match env.path with
      | none => (finishLogging s1, .ok ())
      | some [] => (finishLogging s1, .ok ())
      | some (p :: ps) =>
        if noDirectory (p :: ps) then (s1, .error "FileNotFoundError")
        else if !canMake (p :: ps) then (s1, .error "OSError")
        else (finishLogging { s1 with handlers := [.console c, .file (p :: ps) f] }, .ok ())
    | none, none => (s, .error "ValueError")
    | _, _ => (s, .error "TypeError")

/-- The level of a handler. -/
def LogHandler.minLevel : LogHandler → Int
  | .foreign => 0
  | .console l => l
  | .file _ l => l

/-- The handlers that receive a record of level `l` logged through a logger without a level of its own
(`logging.Logger.isEnabledFor`, `callHandlers`). -/
def receivers (s : LogState) (l : Int) : List LogHandler :=
  if l < s.level then [] else s.handlers.filter (fun h => decide (h.minLevel ≤ l))

end FinML
