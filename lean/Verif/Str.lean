import Verif.Base

/-! Python strings as lists of characters: `str(int)`, `zfill`, `startswith`, `os.path` pieces. -/

namespace Verif

/-- A Python `str`. Used throughout; Python itself, not one file of the repository. -/
abbrev Str := List Char

/-- The decimal digit character of `d < 10`. Used for `natStr`, image_chipper.py:154-158. -/
def digitChar (d : Nat) : Char := Char.ofNat (48 + d)

/-- Python `str(n)` for a non-negative int. Used for `chipPath`, image_chipper.py:154-158. -/
def natStr (n : Nat) : Str :=
  if _h : n < 10 then [digitChar n] else natStr (n / 10) ++ [digitChar (n % 10)]
termination_by n
decreasing_by omega

/-- Python `s.zfill(w)` for a string without sign. Used for `chipPath`, image_chipper.py:154-158. -/
def zfill (w : Nat) (s : Str) : Str := List.replicate (w - s.length) '0' ++ s

/-- `os.path.join(d, f)` on POSIX. Used for `chipPath`, image_chipper.py:154-158. -/
def pathJoin (d f : Str) : Str :=
  if f.head? = some '/' then f
  else if d = [] ∨ d.getLast? = some '/' then d ++ f
  else d ++ ['/'] ++ f

/-- `os.path.basename(p)`: what follows the last `/`. See pix4d_point_calc.py:62-112. -/
def basename (p : Str) : Str := (p.reverse.takeWhile (· ≠ '/')).reverse

/-- Python `s.replace(c, "")` for a single character.
Used for `chipPath`, image_chipper.py:154-158. -/
def removeChar (c : Char) (s : Str) : Str := s.filter (· ≠ c)

end Verif
