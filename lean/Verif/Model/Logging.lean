import Mathlib.Data.Nat.Notation

/-!
# Model of `src/legwork/_logging.py`

A stream is a number; whether it is a terminal can change between calls (it may be replaced or closed), so formatting is
given the current answer: `none` if the object has no method `isatty`. Of the standard library's `logging` the model has
`Formatter.format` without times and stack information, `Logger.isEnabledFor` for a logger with a level of its own, and
`Logger.callHandlers`. Records are objects: formatting stores the attribute `prefix` in them.
-/

namespace Legwork.logging

/-- `_BOLD`, _logging.py line 20. -/
def BOLD : String := "\x1b[1m"

/-- `_RESET`, _logging.py line 21. -/
def RESET : String := "\x1b[0m"

/-- `logging.INFO`, `logging.WARNING`, `logging.ERROR`, `logging.CRITICAL`. -/
def INFO : ℕ := 20
def WARNING : ℕ := 30
def ERROR : ℕ := 40
def CRITICAL : ℕ := 50

/-- `_LEVEL_COLOURS.get(levelno, "")`, _logging.py lines 22-26 and 50. -/
def level_colour (levelno : ℕ) : String :=
  if levelno = WARNING then "\x1b[33m"
  else if levelno = ERROR then "\x1b[31m"
  else if levelno = CRITICAL then "\x1b[31m"
  else ""

/-- A log record: its level and name, the message with its arguments filled in, the text of an exception if there is
one, and the attribute `prefix` once it has been set. -/
structure Record where
  levelname : String
  levelno : ℕ
  message : String
  exc_text : Option String
  pref : Option String

/-- What `getattr(stream, "isatty", ...)` finds for each stream. -/
abbrev Ttys : Type := ℕ → Option Bool

/-- `LegworkFormatter.use_colour`, _logging.py lines 43-45. -/
def use_colour (tty : Ttys) (stream : Option ℕ) : Bool :=
  match stream with
  | none => false
  | some s => (tty s).getD false

/-- `str.lower`, for names in ASCII. -/
def lower (s : String) : String := s.map Char.toLower

/-- The prefix, _logging.py lines 48-50. -/
def make_prefix (colour : Bool) (r : Record) : String :=
  let pre := "LEGWORK " ++ lower r.levelname
  if colour then BOLD ++ level_colour r.levelno ++ pre ++ RESET else pre

/-- `logging.Formatter.format` with the format `"%(prefix)s: %(message)s"` (_logging.py line 40). -/
def base_format (pre : String) (r : Record) : String :=
  let s := pre ++ ": " ++ r.message
  match r.exc_text with
  | none => s
  | some t => if s.toList.getLast? = some '\n' then s ++ t else s ++ "\n" ++ t

/-- `LegworkFormatter.format`, _logging.py lines 47-52: the text, and the record with its new prefix. -/
def format (tty : Ttys) (stream : Option ℕ) (r : Record) : String × Record :=
  let r' := { r with pref := some (make_prefix (use_colour tty stream) r) }
  (base_format (r'.pref.getD "") r', r')

/-- A handler writes to a stream what a formatter made; the formatter may have been given another stream. A handler that
is not LEGWORK's formats as the user likes. -/
inductive Handler
  | legwork (stream : ℕ) (formatter : Option ℕ)
  | other (stream : ℕ) (fmt : Record → String)

/-- `logging.Logger`. -/
structure Logger where
  handlers : List Handler
  level : ℕ
  propagate : Bool

/-- `logging.getLogger("LEGWORK")` the first time. -/
def Logger.new : Logger := ⟨[], 0, true⟩

/-- What happens when the module is imported, _logging.py lines 55-67; `stdout` is the current `sys.stdout`. -/
def setup (stdout : ℕ) (lg : Logger) : Logger :=
  if lg.handlers = [] then
    { handlers := lg.handlers ++ [.legwork stdout (some stdout)], level := INFO, propagate := false }
  else lg

/-- One handler: the stream written to, the line, and the record afterwards. -/
def handle (tty : Ttys) (hd : Handler) (r : Record) : (ℕ × String) × Record :=
  match hd with
  | .legwork stream formatter =>
    let x := format tty formatter r
    ((stream, x.1 ++ "\n"), x.2)
  | .other stream fmt => ((stream, fmt r ++ "\n"), r)

/-- All handlers, one after the other, with the same record. -/
def call_handlers (tty : Ttys) : List Handler → Record → List (ℕ × String) × Record
  | [], r => ([], r)
  | hd :: rest, r =>
    let x := handle tty hd r
    let y := call_handlers tty rest x.2
    (x.1 :: y.1, y.2)

/-- `logger.warning(message)` and the like for a logger with a level of its own; `root` are the handlers further up. -/
def log (tty : Ttys) (lg : Logger) (root : List Handler) (r : Record) : List (ℕ × String) :=
  if lg.level ≤ r.levelno then
    (call_handlers tty (lg.handlers ++ if lg.propagate then root else []) r).1
  else []

end Legwork.logging
