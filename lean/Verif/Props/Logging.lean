import Verif.Spec.Logging
import Mathlib.Logic.Function.Iterate
import Mathlib.Tactic.SplitIfs
import Mathlib.Tactic.Common

/-!
# Log messages: C55, C71
-/

namespace Legwork.Props

open Legwork.logging Legwork.Spec

variable {tty : Ttys} {r : Record} {lg : Logger} {root : List Handler}

/-! ### C55 -/

/-- **C55** (text). Away from terminals, a message is `LEGWORK <level>: <message>`, followed by the exception on a new line
if there is one. -/
theorem C55_plain {stream : Option ℕ} (hs : ∀ s, stream = some s → tty s ≠ some true) (he : r.exc_text = none) :
    (format tty stream r).1 = "LEGWORK " ++ lower r.levelname ++ ": " ++ r.message := by
  have hc : use_colour tty stream = false := by
    unfold use_colour
    rcases stream with _ | s
    · rfl
    · have := hs s rfl
      simp only
      rcases ht : tty s with _ | _ | _
      · rfl
      · rfl
      · exact absurd ht this
  simp [format, base_format, make_prefix, hc, he]

/-- **C55** (text). On a terminal the prefix alone is bold, and has the colour of its level. -/
theorem C55_coloured {s : ℕ} (hs : tty s = some true) (he : r.exc_text = none) :
    (format tty (some s) r).1 =
      "\x1b[1m" ++ (if r.levelno = 30 then "\x1b[33m" else if r.levelno = 40 ∨ r.levelno = 50 then "\x1b[31m" else "") ++
        "LEGWORK " ++ lower r.levelname ++ "\x1b[0m" ++ ": " ++ r.message := by
  have hl : level_colour r.levelno =
      if r.levelno = 30 then "\x1b[33m" else if r.levelno = 40 ∨ r.levelno = 50 then "\x1b[31m" else "" := by
    unfold level_colour WARNING ERROR CRITICAL
    split_ifs <;> first | rfl | omega
  simp [format, base_format, make_prefix, use_colour, hs, he, hl, BOLD, RESET, String.append_assoc]

private theorem shown_append {a b : List Char} (ha : '\x1b' ∉ a) : shownFrom .text (a ++ b) = a ++ shownFrom .text b := by
  induction a with
  | nil => rfl
  | cons c a ih =>
    simp only [List.mem_cons, not_or] at ha
    rw [List.cons_append, shownFrom, if_neg fun h => ha.1 h.symm, ih ha.2, List.cons_append]

private theorem shown_no {a : List Char} (ha : '\x1b' ∉ a) : shownFrom .text a = a := by
  have := shown_append (b := []) ha
  simpa [shownFrom] using this

private theorem lower_no {s : String} (hs : NoEscape s) : '\x1b' ∉ (lower s).toList := by
  unfold lower NoEscape at *
  rw [String.toList_map]
  intro hm
  obtain ⟨c, hc, hl⟩ := List.mem_map.1 hm
  have : c = '\x1b' := by
    unfold Char.toLower at hl
    split at hl
    · rename_i h1
      exfalso
      have h2 := congrArg (fun c => c.val.toNat) hl
      have h3 : 65 ≤ c.val.toNat := UInt32.le_iff_toNat_le.1 h1.1
      have h4 : c.val.toNat ≤ 90 := UInt32.le_iff_toNat_le.1 h1.2
      change (c.val + ('a'.val - 'A'.val)).toNat = 27 at h2
      rw [UInt32.toNat_add] at h2
      have h5 : ('a'.val - 'A'.val).toNat = 32 := by decide
      rw [h5] at h2
      omega
    · exact hl
  exact hs (this ▸ hc)

/-- What follows the prefix. -/
private def rest (r : Record) : String :=
  match r.exc_text with
  | none => ": " ++ r.message
  | some t => if (": " ++ r.message).toList.getLast? = some '\n' then ": " ++ r.message ++ t else ": " ++ r.message ++ "\n" ++ t

private theorem base_format_eq (pre : String) (r : Record) : base_format pre r = pre ++ rest r := by
  have hl : (pre ++ ": " ++ r.message).toList.getLast? = (": " ++ r.message).toList.getLast? := by
    rw [String.append_assoc, String.toList_append]
    have hne : (": " ++ r.message).toList ≠ [] := by simp
    rw [List.getLast?_append]
    rw [List.getLast?_eq_some_getLast hne]
    rfl
  unfold base_format rest
  simp only
  rcases r.exc_text with _ | t
  · simp [String.append_assoc]
  · simp only [hl]
    split_ifs <;> simp [String.append_assoc]

private theorem shown_colour (n : ℕ) (cs : List Char) :
    shownFrom .text ((level_colour n).toList ++ cs) = shownFrom .text cs := by
  unfold level_colour
  split_ifs <;> rfl

private theorem pre_no {r : Record} (hl : NoEscape r.levelname) : '\x1b' ∉ ("LEGWORK " ++ lower r.levelname).toList := by
  rw [String.toList_append, List.mem_append, not_or]
  exact ⟨by decide, lower_no hl⟩

private theorem shown_format (hl : NoEscape r.levelname) (stream : Option ℕ) (tty : Ttys) :
    shown (format tty stream r).1 = ("LEGWORK " ++ lower r.levelname).toList ++ shownFrom .text (rest r).toList := by
  unfold shown
  change shownFrom .text (base_format (make_prefix (use_colour tty stream) r) { r with pref := _ }).toList = _
  rw [base_format_eq]
  change shownFrom .text (make_prefix (use_colour tty stream) r ++ rest r).toList = _
  unfold make_prefix
  simp only
  split_ifs
  · have hb : ∀ cs, shownFrom .text (BOLD.toList ++ cs) = shownFrom .text cs := fun _ => rfl
    have hres : ∀ cs, shownFrom .text (RESET.toList ++ cs) = shownFrom .text cs := fun _ => rfl
    have e : (BOLD ++ level_colour r.levelno ++ ("LEGWORK " ++ lower r.levelname) ++ RESET ++ rest r).toList =
        BOLD.toList ++ ((level_colour r.levelno).toList ++ (("LEGWORK " ++ lower r.levelname).toList ++
          (RESET.toList ++ (rest r).toList))) := by
      simp
    rw [e, hb, shown_colour, shown_append (pre_no hl), hres]
  · rw [String.toList_append, shown_append (pre_no hl)]

/-- **C55** (colours change nothing else). A terminal shows the same text for a coloured message as for a plain one,
whatever the message (it may have escape codes of its own). -/
theorem C55_same_text (hl : NoEscape r.levelname) (stream stream' : Option ℕ) (tty tty' : Ttys) :
    shown (format tty stream r).1 = shown (format tty' stream' r).1 := by
  rw [shown_format hl, shown_format hl]

/-- **C55** (no codes in files). If there are no escape characters in the message, there are none in what is written to
anything that is not a terminal, and what a terminal shows is that same text. -/
theorem C55_no_codes {stream : Option ℕ} (hl : NoEscape r.levelname) (hm : NoEscape r.message)
    (he : ∀ t, r.exc_text = some t → NoEscape t) (hs : ∀ s, stream = some s → tty s ≠ some true) (stream' : Option ℕ)
    (tty' : Ttys) :
    NoEscape (format tty stream r).1 ∧ shown (format tty' stream' r).1 = (format tty stream r).1.toList := by
  have hc : use_colour tty stream = false := by
    unfold use_colour
    rcases stream with _ | s
    · rfl
    · have := hs s rfl
      simp only
      rcases ht : tty s with _ | _ | _
      · rfl
      · rfl
      · exact absurd ht this
  have hr : '\x1b' ∉ (rest r).toList := by
    unfold NoEscape at hm he
    unfold rest
    rcases h : r.exc_text with _ | t
    · simp [hm]
    · have := he t h
      simp only
      split_ifs <;> simp [hm, this]
  have hf : (format tty stream r).1.toList = ("LEGWORK " ++ lower r.levelname).toList ++ (rest r).toList := by
    change (base_format (make_prefix (use_colour tty stream) r) { r with pref := _ }).toList = _
    rw [base_format_eq, hc, String.toList_append]
    rfl
  have hn : '\x1b' ∉ (format tty stream r).1.toList := by
    rw [hf, List.mem_append, not_or]
    exact ⟨pre_no hl, hr⟩
  refine ⟨hn, ?_⟩
  rw [C55_same_text hl stream' stream tty' tty]
  exact shown_no hn

/-- **C55** (handlers do not influence each other). The attribute `prefix` that formatting stores in a record is never read
again: each of LEGWORK's handlers writes the same line as it would alone, whichever handlers have had the record before. So
a log file gets no codes even if the same record was shown on a terminal before. -/
theorem C55_each_alone (hds : List Handler) (hd : Handler) (hh : ∀ s f, hd = .other s f → ∀ r p, f { r with pref := p } = f r)
    (r : Record) : (handle tty hd (call_handlers tty hds r).2).1 = (handle tty hd r).1 := by
  have hp : ∀ hds r, ∃ p, (call_handlers tty hds r).2 = { r with pref := p } := by
    intro hds
    induction hds with
    | nil => intro r; exact ⟨r.pref, rfl⟩
    | cons x hds ih =>
      intro r
      obtain ⟨p, hp⟩ := ih (handle tty x r).2
      refine ⟨p, ?_⟩
      change (call_handlers tty hds (handle tty x r).2).2 = _
      rw [hp]
      rcases x with ⟨s, f⟩ | ⟨s, f⟩ <;> rfl
  obtain ⟨p, hp⟩ := hp hds r
  rw [hp]
  rcases hd with ⟨s, f⟩ | ⟨s, f⟩
  · rfl
  · simp only [handle]
    rw [hh s f rfl]

/-! ### C71 -/

/-- **C71** (importing). However often the module is imported or reloaded, with whatever standard output, a logger that had
no handlers ends with exactly one, which is the one made first: it writes to the standard output of that time, uses colours
only if that is a terminal, and nothing is passed on. -/
theorem C71_setup (first : ℕ) (more : List ℕ) (hn : lg.handlers = []) :
    (more.foldl (fun l out => setup out l) (setup first lg)) =
      { handlers := [.legwork first (some first)], level := 20, propagate := false } := by
  have h1 : setup first lg = { handlers := [.legwork first (some first)], level := 20, propagate := false } := by
    unfold setup
    rw [if_pos hn, hn]
    rfl
  rw [h1]
  induction more with
  | nil => rfl
  | cons x more ih =>
    rw [List.foldl_cons]
    exact ih

/-- **C71** (the user's set-up). A logger that already has handlers is left alone. -/
theorem C71_configured (hn : lg.handlers ≠ []) (out : ℕ) : setup out lg = lg := if_neg hn

/-- **C71** (messages). After the import, a message of level INFO or above is written exactly once, to standard output, and
one of a lower level not at all, whatever handlers the root logger has. The level can be changed: then the same holds with
the new one. -/
theorem C71_once (out level : ℕ) (hn : lg.handlers = []) :
    log tty { setup out lg with level := level } root r =
      (if level ≤ r.levelno then [(out, (format tty (some out) r).1 ++ "\n")] else []) ∧
    (setup out lg).level = 20 := by
  have h1 := C71_setup out [] hn
  rw [List.foldl_nil] at h1
  rw [h1]
  unfold log
  exact ⟨rfl, rfl⟩

/-- A warning on a terminal and in a file. -/
example : (format (fun s => some (decide (s = 1))) (some 1) ⟨"WARNING", 30, "no SNR", none, none⟩).1 =
      "\x1b[1m\x1b[33mLEGWORK warning\x1b[0m: no SNR" ∧
    (format (fun s => some (decide (s = 1))) (some 2) ⟨"WARNING", 30, "no SNR", none, none⟩).1 = "LEGWORK warning: no SNR" := by
  have hl : lower "WARNING" = "warning" := by
    unfold lower
    rw [← String.toList_inj, String.toList_map]
    rfl
  constructor <;> (rw [← String.toList_inj]; simp [format, base_format, make_prefix, use_colour, hl]; try rfl)

example : NoEscape "WARNING" ∧ NoEscape "ERROR" ∧ shown "\x1b[1m\x1b[33mLEGWORK\x1b[0m: x" = "LEGWORK: x".toList := by
  refine ⟨by unfold NoEscape; decide, by unfold NoEscape; decide, rfl⟩

end Legwork.Props
