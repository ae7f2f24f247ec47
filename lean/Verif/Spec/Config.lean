import Verif.Model.Str

/-! # What a command line says about the settings of a program that uses the library -/

namespace T86

/-- The argument `arg` says that the setting `name` has the value `value`. The names of the three settings that have no option of their
own start with a space. -/
inductive Says : Str → Str → Str → Prop
  | verbose {arg : Str} (h : arg = "--verbose".toList ∨ arg = "-v".toList) : Says arg " verbose".toList "true".toList
  | interactive {arg : Str} (h : arg = "--interactive".toList ∨ arg = "-i".toList ∨ arg = "--repl".toList) :
      Says arg " mode".toList "interactive".toList
  | compile {arg : Str} (h : arg = "--compile".toList ∨ arg = "-c".toList) : Says arg " mode".toList "compile".toList
  /-- `-NAME=VALUE`, where the first `=` counts. -/
  | option {name value : Str} (h : '=' ∉ name) : Says (('-' :: name) ++ '=' :: value) ('-' :: name) value
  /-- `-NAME`, other than the seven above. -/
  | flag {name : Str} (h : '=' ∉ name)
      (h1 : '-' :: name ∉ ["--verbose".toList, "-v".toList, "--interactive".toList, "-i".toList, "--repl".toList, "--compile".toList, "-c".toList]) :
      Says ('-' :: name) ('-' :: name) []
  /-- Anything else is the name of the input. -/
  | input {arg : Str} (h : ∀ name, arg ≠ '-' :: name) : Says arg " input".toList arg

/-- No two arguments are about the same setting. -/
def NoRepeats (args : List Str) : Prop := args.Pairwise fun a b => ∀ name v w, Says a name v → ¬ Says b name w

/-- The command line says that a setting is the number `k`, or does not say anything about it and `k` is the default. -/
def Chosen (args : List Str) (name : Str) (default k : Nat) : Prop :=
  (∃ a ∈ args, ∃ text, Says a name text ∧ text ≠ [] ∧ (∀ c ∈ text, '0' ≤ c ∧ c ≤ '9') ∧ k = Str.digits text ∧ k < 2 ^ 64) ∨
  ((∀ a ∈ args, ∀ text, ¬ Says a name text) ∧ k = default)

/-- The settings of the machine and what they are if the command line does not say. -/
def machineDefaults : List (Str × Nat) :=
  [("-registerCnt".toList, 10), ("-floatRegisterCnt".toList, 5), ("-aluCnt".toList, 1), ("-reservationStationEntriesCnt".toList, 2),
   ("-ram".toList, 1024), ("-ramGates".toList, 4)]

end T86
