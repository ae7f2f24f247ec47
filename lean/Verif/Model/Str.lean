/-! # String helpers: src/common/helpers.h

Strings are lists of characters. -/

namespace T86

/-- `std::string` and `std::string_view`. Simplification: characters are Lean's; the C++ code works on bytes, and the
theorems that depend on it say that characters are ASCII. -/
abbrev Str := List Char

namespace Str

/-- The loop of `split_v` with a bound on the number of passes; every pass removes a character. `s.find(delim)` is the
length of the longest prefix without `delim`. Models: src/common/helpers.h:37-47. -/
def splitLoop (delim : Char) : Nat → Str → List Str
  | 0, _ => []
  | fuel + 1, s =>
    if s.isEmpty then []
    else
      let pre := s.takeWhile (· != delim)
      match s.dropWhile (· != delim) with
      | [] => [s]
      | _ :: rest => if pre.length != 0 then pre :: splitLoop delim fuel rest else splitLoop delim fuel rest

/-- Models: src/common/helpers.h:35-49 (`split_v`), 52-57 (`split`). -/
def split (s : Str) (delim : Char) : List Str := splitLoop delim (s.length + 1) s

/-- Models: src/common/helpers.h:59-69 (`join`). -/
def join (j : Str) : List Str → Str
  | [] => []
  | x :: l => if l.length != 0 then x ++ j ++ join j l else x ++ join j l

/-- The comparison loop. Models: src/common/helpers.h:108-112. -/
def prefixLoop (p o : Str) : List Nat → Bool
  | [] => true
  | i :: l => if p[i]? != o[i]? then false else prefixLoop p o l

/-- Models: src/common/helpers.h:104-114 (`is_prefix_of`). -/
def isPrefixOf (p o : Str) : Bool :=
  if p.length > o.length then false else prefixLoop p o (List.range p.length)

/-- `std::isspace` in the default locale. -/
def isSpace (c : Char) : Bool := c == ' ' || c == '\n' || c == '\t' || c == '\r' || c == '\x0b' || c == '\x0c'

/-- The last loop of `squash_strip_whitespace`, with the flag `last_space`. Models: src/common/helpers.h:125-133. -/
def squash (last : Bool) : Str → Str
  | [] => []
  | c :: s =>
    if !isSpace c then c :: squash false s
    else if !last then c :: squash true s
    else squash last s

/-- Models: src/common/helpers.h:116-135 (`squash_strip_whitespace`). -/
def squashStrip (s : Str) : Str :=
  let s := (s.reverse.dropWhile isSpace).reverse
  let s := s.dropWhile isSpace
  squash true s

/-- `std::isdigit`. -/
def isDigit (c : Char) : Bool := '0' ≤ c && c ≤ '9'

/-- The value of a digit. -/
def digit (c : Char) : Nat := c.toNat - 48

/-- The number written by a list of digits. -/
def digits (s : Str) : Nat := s.foldl (fun n c => 10 * n + digit c) 0

/-- `std::from_chars` to an unsigned 64-bit number: the longest prefix of digits; fails without digits and beyond 64 bits;
what follows is ignored. Models: src/common/helpers.h:82-102 (`svtonum<uint64_t>`, `svtonum<size_t>`). -/
def toUnsigned (s : Str) : Option Nat :=
  let d := s.takeWhile isDigit
  if d.isEmpty then none else if digits d < 2 ^ 64 then some (digits d) else none

/-- `std::from_chars` to a signed 64-bit number: as above with an optional `-` first.
Models: src/common/helpers.h:71-78 (`svtoi64`), 82-102 (`svtonum<int64_t>`). -/
def toSigned (s : Str) : Option Int :=
  match s with
  | '-' :: t =>
    let d := t.takeWhile isDigit
    if d.isEmpty then none else if digits d ≤ 2 ^ 63 then some (-(digits d : Int)) else none
  | _ =>
    let d := s.takeWhile isDigit
    if d.isEmpty then none else if digits d < 2 ^ 63 then some (digits d : Int) else none

/-- Decimal digits of a natural number, as `fmt::format("{}", n)` and `std::to_string` print it, with a bound on their
number. -/
def natLoop : Nat → Nat → Str
  | 0, _ => []
  | fuel + 1, n => if n < 10 then [Char.ofNat (48 + n)] else natLoop fuel (n / 10) ++ [Char.ofNat (48 + n % 10)]

/-- `fmt::format("{}", n)` for an unsigned number. -/
def ofNat (n : Nat) : Str := natLoop (n + 1) n

/-- `fmt::format("{}", n)` for a signed number. -/
def ofInt (n : Int) : Str := if n < 0 then '-' :: ofNat n.natAbs else ofNat n.natAbs

end Str
end T86
