import Verif.Model.Logging

/-!
# Vocabulary for log messages
-/

namespace Legwork.Spec

/-- Where a terminal is in its input: in text, after an escape character, or inside a control sequence. -/
inductive Mode
  | text
  | escape
  | control

/-- What a terminal shows of its input: everything but control sequences, which are ESC `[`, then digits and semicolons,
then one more character. -/
def shownFrom : Mode → List Char → List Char
  | _, [] => []
  | .text, c :: cs => if c = '\x1b' then shownFrom .escape cs else c :: shownFrom .text cs
  | .escape, c :: cs => if c = '[' then shownFrom .control cs else c :: shownFrom .text cs
  | .control, c :: cs => if c.isDigit || c = ';' then shownFrom .control cs else shownFrom .text cs

/-- What a terminal shows of a text. -/
def shown (s : String) : List Char := shownFrom .text s.toList

/-- There is no escape character in the text. -/
def NoEscape (s : String) : Prop := '\x1b' ∉ s.toList

end Legwork.Spec
