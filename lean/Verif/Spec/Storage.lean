import Verif.Model.Storage

/-!
# Specification of the publisher file format

A file is a sequence of lines; a good line is an integer, a comma and a float.  `parseInt` and
`FloatText.parse` stand for Python's `int` and `float`.
-/

namespace Verif.Spec

open Verif

/-- `ls` are the lines of the text: every line but possibly the last ends with its only newline, and
no line is empty. -/
inductive IsLines : List Text → Text → Prop
  | nil : IsLines [] []
  | last (m : Text) : m ≠ [] → '\n' ∉ m → IsLines [m] m
  | cons (m : Text) (ls : List Text) (t : Text) : '\n' ∉ m → IsLines ls t →
      IsLines ((m ++ ['\n']) :: ls) (m ++ '\n' :: t)

/-- White space around a number: tab to carriage return, space, next line, no-break space, ogham space,
the spaces 2000 to 200A, line and paragraph separator, narrow no-break space, mathematical space and
ideographic space (code points in hexadecimal). -/
def IntSpace (c : Char) : Prop :=
  c.toNat ∈ [0x9, 0xa, 0xb, 0xc, 0xd, 0x20, 0x85, 0xa0, 0x1680, 0x2000, 0x2001, 0x2002, 0x2003,
    0x2004, 0x2005, 0x2006, 0x2007, 0x2008, 0x2009, 0x200a, 0x2028, 0x2029, 0x202f, 0x205f, 0x3000]

/-- A decimal digit and its value. -/
def IsDigit (c : Char) (d : Nat) : Prop := c.toNat = 48 + d ∧ d < 10

/-- Digits of an integer literal with its value: at least one digit, and single underscores only
between digits. -/
inductive IsDigits : Text → Nat → Prop
  | one (c : Char) (d : Nat) : IsDigit c d → IsDigits [c] d
  | snoc (s : Text) (n : Nat) (c : Char) (d : Nat) : IsDigits s n → IsDigit c d →
      IsDigits (s ++ [c]) (10 * n + d)
  | under (s : Text) (n : Nat) (c : Char) (d : Nat) : IsDigits s n → IsDigit c d →
      IsDigits (s ++ ['_', c]) (10 * n + d)

/-- The line is `id,spend` with exactly one comma. -/
def LineIs (T : FloatText) (line : Text) (e : Int × ℚ) : Prop :=
  ∃ a b, line = a ++ ',' :: b ∧ ',' ∉ a ∧ ',' ∉ b ∧ parseInt a = some e.1 ∧ T.parse b = some e.2

/-- The spend survives printing and parsing and its text fits into one field of one line. -/
def Printable (T : FloatText) (x : ℚ) : Prop :=
  T.parse (T.fmt x ++ ['\n']) = some x ∧ ',' ∉ T.fmt x ∧ '\n' ∉ T.fmt x ∧ '\r' ∉ T.fmt x

end Verif.Spec
