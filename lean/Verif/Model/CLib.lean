/-!
# C library functions used by the modelled code

Strings are lists of bytes before the terminating NUL (a byte 0 inside a list also ends it where
the model says so).  `<ctype.h>` is the C locale.
-/
namespace Gensio.CLib

/-- `isdigit`. -/
def isDigit (c : UInt8) : Bool := 48 ≤ c && c ≤ 57
/-- `isupper`. -/
def isUpper (c : UInt8) : Bool := 65 ≤ c && c ≤ 90
/-- `islower`. -/
def isLower (c : UInt8) : Bool := 97 ≤ c && c ≤ 122
/-- `toupper`. -/
def toUpper (c : UInt8) : UInt8 := if isLower c then c - 32 else c
/-- `isspace`. -/
def isSpace (c : UInt8) : Bool := c = 32 || (9 ≤ c && c ≤ 13)

/-- Value of the digits `s` after the value `acc`. -/
def digits (acc : Nat) : List UInt8 → Nat
  | [] => acc
  | c :: s => if isDigit c then digits (acc * 10 + (c.toNat - 48)) s else acc

/-- The text after the leading spaces and the sign of `strtoul`, and whether the sign was `-`. -/
def sign (s : List UInt8) : Bool × List UInt8 :=
  match s.dropWhile isSpace with
  | 45 :: r => (true, r)
  | 43 :: r => (false, r)
  | r => (false, r)

/-- `strtoul(s, &end, 10)` with a 64 bit `unsigned long`: value and the rest at `end`.  Without any
digit `end` is `s`.  A value that does not fit gives ULONG_MAX. -/
def strtoul10 (s : List UInt8) : Nat × List UInt8 :=
  let r := sign s
  match r.2 with
  | [] => (0, s)
  | c :: t =>
    if isDigit c then
      let v := digits 0 (c :: t)
      let v := if v ≥ 2 ^ 64 then 2 ^ 64 - 1 else if r.1 then (2 ^ 64 - v) % 2 ^ 64 else v
      (v, (c :: t).dropWhile isDigit)
    else (0, s)

/-- The text of `printf("%u")` / `%d` of a non-negative number. -/
def dec (n : Nat) : List UInt8 :=
  if n < 10 then [UInt8.ofNat (48 + n)] else dec (n / 10) ++ [UInt8.ofNat (48 + n % 10)]
termination_by n
decreasing_by omega

end Gensio.CLib
