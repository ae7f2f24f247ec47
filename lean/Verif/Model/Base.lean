/-!
# Base types of the model

Machine words, faults and the float parameter shared by all model files.
-/

namespace T86

/-- `int64_t`, `uint64_t` and `size_t` machine values.
Models: the value type used throughout src/t86 (e.g. src/t86/cpu/alu.h:29-30, src/t86/cpu.h:273). -/
abbrev Word := BitVec 64

/-- The C++ exceptions that the VM can raise. The payload strings are dropped.
Models: `std::out_of_range` from `vector::at` / `map::at` (src/t86/ram.cpp:52,63,73,77,
src/t86/cpu/register_allocation_table.cpp:97-103, src/t86/cpu.cpp:96,231), `T86ExecutionError`
(src/t86/cpu/register_allocation_table.cpp:75,87), `std::runtime_error`
(src/t86/cpu.cpp:312, src/t86/instructions/operand.cpp:97,105,300, src/t86/instruction.cpp:313,397,661,704). -/
inductive Exn
  | outOfRange
  | executionError
  | runtimeError
  deriving DecidableEq, Repr

/-- Everything that can go wrong, kept apart from ordinary results.
`ub` : C++ undefined behaviour, `abort` : a failed `assert` (live, CMakeLists.txt sets no NDEBUG),
`exn` : a C++ exception. -/
inductive Fault
  | ub
  | abort
  | exn (e : Exn)
  deriving DecidableEq, Repr

abbrev Res (α : Type) := Except Fault α

/-- How signed overflow of the C++ code itself is treated. `strict` is ISO C++ (undefined, the flags in
CMakeLists.txt do not include -fwrapv); `wrap` is what x86-64 compilers emit for these expressions
(two's complement). Every theorem says which mode it is about; most hold in both. -/
inductive Mode
  | strict
  | wrap
  deriving DecidableEq, Repr

/-- The floating point unit, a parameter of the model. Doubles are carried as their 64-bit patterns, as in
`utils::reinterpret_safe` (src/common/helpers.h:138-145) and `Cpu::setRegister(PhysicalRegister, double)`
(src/t86/cpu.cpp:165-168). `toInt` is `none` where `static_cast<int64_t>(double)` is undefined. -/
structure FloatOps where
  add : Word → Word → Word
  sub : Word → Word → Word
  mul : Word → Word → Word
  div : Word → Word → Word
  ltZero : Word → Bool
  eqZero : Word → Bool
  isInf : Word → Bool
  ofInt : Word → Word
  toInt : Word → Option Word

/-- Signed addition `x + y` on `int64_t` (C++ operator). -/
def sadd (m : Mode) (x y : Word) : Res Word :=
  if m = .strict ∧ ¬ (-(2^63 : Int) ≤ x.toInt + y.toInt ∧ x.toInt + y.toInt < 2^63) then .error .ub
  else .ok (x + y)

/-- Signed subtraction `x - y` on `int64_t` (C++ operator). -/
def ssub (m : Mode) (x y : Word) : Res Word :=
  if m = .strict ∧ ¬ (-(2^63 : Int) ≤ x.toInt - y.toInt ∧ x.toInt - y.toInt < 2^63) then .error .ub
  else .ok (x - y)

/-- Signed multiplication `x * y` on `int64_t` (C++ operator). -/
def smul (m : Mode) (x y : Word) : Res Word :=
  if m = .strict ∧ ¬ (-(2^63 : Int) ≤ x.toInt * y.toInt ∧ x.toInt * y.toInt < 2^63) then .error .ub
  else .ok (x * y)

/-- Signed negation `-x` on `int64_t` (C++ operator). -/
def sneg (m : Mode) (x : Word) : Res Word :=
  if m = .strict ∧ x = BitVec.intMin 64 then .error .ub else .ok (-x)

/-- Signed division `x / y` on `int64_t`: undefined for a zero divisor and for `INT64_MIN / -1`
(x86 traps on both, so also under `wrap`). -/
def sdivC (x y : Word) : Res Word :=
  if y = 0 ∨ (x = BitVec.intMin 64 ∧ y = -1) then .error .ub else .ok (x.sdiv y)

/-- Signed remainder `x % y` on `int64_t`, same undefined operands as division. -/
def smodC (x y : Word) : Res Word :=
  if y = 0 ∨ (x = BitVec.intMin 64 ∧ y = -1) then .error .ub else .ok (x.srem y)

/-- Unsigned division on `uint64_t`. -/
def udivC (x y : Word) : Res Word :=
  if y = 0 then .error .ub else .ok (x.udiv y)

/-- Left shift of an `int64_t` (C++20: modular result, undefined for a count outside 0..63). -/
def shlC (x y : Word) : Res Word :=
  if 0 ≤ y.toInt ∧ y.toInt < 64 then .ok (x <<< y.toNat) else .error .ub

/-- Right shift of an `int64_t` (C++20: arithmetic, undefined for a count outside 0..63). -/
def sarC (x y : Word) : Res Word :=
  if 0 ≤ y.toInt ∧ y.toInt < 64 then .ok (x.sshiftRight y.toNat) else .error .ub

end T86
