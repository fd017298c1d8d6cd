/-
Strings, C library number scanning and outcomes.

`std::string` is modelled by `List Char`; bytes are characters and the locale is "C".
-/
namespace Iges

/-- `std::string`. -/
abbrev Str := List Char

/-- Outcome of a modelled C++ call: a value, undefined behaviour (null dereference,
out-of-range subscript, signed overflow, decrement of `begin()`, unbounded recursion) or an
uncaught C++ exception. -/
inductive Res (α : Type) where
  | ok : α → Res α
  | ub : Res α
  | exn : Res α
  deriving Repr, DecidableEq

namespace Res
/-- sequencing -/
def bind {α β : Type} (r : Res α) (f : α → Res β) : Res β :=
  match r with
  | .ok a => f a
  | .ub => .ub
  | .exn => .exn

instance : Monad Res where
  pure := Res.ok
  bind := Res.bind

@[simp] theorem bind_ok {α β : Type} (a : α) (f : α → Res β) : (Res.ok a >>= f) = f a := rfl
@[simp] theorem bind_ub {α β : Type} (f : α → Res β) : ((Res.ub : Res α) >>= f) = .ub := rfl
@[simp] theorem bind_exn {α β : Type} (f : α → Res β) : ((Res.exn : Res α) >>= f) = .exn := rfl
@[simp] theorem pure_eq {α : Type} (a : α) : (pure a : Res α) = .ok a := rfl
end Res

/-- `isspace` in the "C" locale (used by `strtol`, `strtod`, C11 7.4.1.10). -/
def isSpaceC (c : Char) : Bool :=
  c == ' ' || c == '\t' || c == '\n' || c == '\x0b' || c == '\x0c' || c == '\r'

/-- `isdigit`. -/
def isDigitC (c : Char) : Bool := '0' ≤ c && c ≤ '9'

/-- Value of a decimal digit string (leading zeros allowed), most significant digit first. -/
def digitsVal (s : Str) : Nat := s.foldl (fun a c => 10 * a + (c.toNat - 48)) 0

/-- Text of a natural number as `operator<<` prints it. -/
def natStr (n : Nat) : Str := Nat.toDigits 10 n

/-- Text of an integer as `operator<<(int)` prints it. -/
def intStr (n : Int) : Str :=
  match n with
  | .ofNat m => natStr m
  | .negSucc m => '-' :: natStr (m + 1)

/-- Result of `strtol(s, &end, 10)`: value, number of characters consumed
(0 when no conversion was possible, i.e. `end == s`) and whether `errno` was set. -/
structure Strtol where
  val : Int
  used : Nat
  err : Bool
  deriving Repr, DecidableEq

/-- `LONG_MAX` and `LONG_MIN` of an LP64 platform. -/
def longMax : Int := 9223372036854775807
def longMin : Int := -9223372036854775808

/-- Optional sign in front of a number: (is negative, characters used, remaining text). -/
def takeSign (s : Str) : Bool × Nat × Str :=
  match s with
  | '-' :: r => (true, 1, r)
  | '+' :: r => (false, 1, r)
  | r => (false, 0, r)

/-- `strtol(s, &end, 10)` of the C library (C11 7.22.1.4): skip white space, optional sign,
longest digit run; saturates and sets `ERANGE` outside the range of `long` (64 bit assumed).
The end of the list is the terminating NUL. -/
def strtol (s : Str) : Strtol :=
  let ws := s.takeWhile isSpaceC
  let r := s.dropWhile isSpaceC
  let (neg, n, r') := takeSign r
  let ds := r'.takeWhile isDigitC
  if ds.isEmpty then { val := 0, used := 0, err := false }
  else
    let v : Int := if neg then - (digitsVal ds : Int) else digitsVal ds
    let used := ws.length + n + ds.length
    if v > longMax then { val := longMax, used := used, err := true }
    else if v < longMin then { val := longMin, used := used, err := true }
    else { val := v, used := used, err := false }

/-- Conversion of a `long` to a 32-bit `int` (value modulo 2^32, as gcc and clang do). -/
def toI32 (x : Int) : Int := (x + 2147483648) % 4294967296 - 2147483648

/-- `INT_MAX`. -/
def intMax : Nat := 2147483647

/-- `std::string::find_first_of(char, pos)`: index of the first `c` at or after `pos`. -/
def findFrom (s : Str) (c : Char) (pos : Nat) : Option Nat :=
  let t := s.drop pos
  if c ∈ t then some (pos + t.idxOf c) else none

/-- `std::string::substr(pos, n)` for `pos ≤ size`. -/
def substr (s : Str) (pos n : Nat) : Str := (s.drop pos).take n

end Iges
