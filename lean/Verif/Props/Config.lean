import Verif.Model.Config
import Verif.Spec.Config
import Verif.Lemmas.Map
import Verif.Lemmas.Str
import Verif.Props.Asm

/-! # The configuration of a program that uses the library (C74)

`Says`, `NoRepeats` and `machineDefaults` are in `Verif/Spec/Config.lean`. -/

namespace T86
open Dbg Str Config

section
variable {c c' : Config} {args : List Str}

theorem setOption_iff {name value : Str} : setOption c name value = .ok c' ↔ c.find name = none ∧ c' = c.emplace name value := by
  unfold setOption
  cases c.find name with
  | some _ => simp
  | none => simp [eq_comm]

theorem takeWhile_ne {l r : Str} (h : '=' ∉ l) : (l ++ '=' :: r).takeWhile (· != '=') = l := by
  induction l with
  | nil => simp
  | cons a l ih =>
    simp only [List.mem_cons, not_or] at h
    have : (a != '=') = true := by simp; exact fun h1 => h.1 h1.symm
    simp [this, ih h.2]

theorem dropWhile_ne {l r : Str} (h : '=' ∉ l) : (l ++ '=' :: r).dropWhile (· != '=') = '=' :: r := by
  induction l with
  | nil => simp
  | cons a l ih =>
    simp only [List.mem_cons, not_or] at h
    have : (a != '=') = true := by simp; exact fun h1 => h.1 h1.symm
    simp [this, ih h.2]

theorem dropWhile_ne_nil {l : Str} (h : '=' ∉ l) : l.dropWhile (· != '=') = [] := by
  induction l with
  | nil => simp
  | cons a l ih =>
    simp only [List.mem_cons, not_or] at h
    have : (a != '=') = true := by simp; exact fun h1 => h.1 h1.symm
    simp [this, ih h.2]

theorem split_eq : ∀ (l : Str), '=' ∈ l → ∃ n v, l = n ++ '=' :: v ∧ '=' ∉ n
  | [], h => by cases h
  | a :: l, h => by
    by_cases ha : a = '='
    · exact ⟨[], l, by simp [ha], by simp⟩
    · obtain ⟨n, v, h1, h2⟩ := split_eq l (by simpa [show '=' ≠ a from fun h => ha h.symm] using h)
      exact ⟨a :: n, v, by simp [h1], by simp [h2, show '=' ≠ a from fun h => ha h.symm]⟩

/-- An option with a value is none of the words that have a meaning of their own. -/
theorem option_other {l r : Str} : (l ++ '=' :: r) ∉ ["--verbose".toList, "-v".toList, "--interactive".toList, "-i".toList, "--repl".toList,
    "--compile".toList, "-c".toList] := by
  intro h
  have : '=' ∈ l ++ '=' :: r := by simp
  simp only [List.mem_cons, List.not_mem_nil, or_false] at h
  rcases h with h | h | h | h | h | h | h <;> rw [h] at this <;> revert this <;> decide

theorem parseArg_other {arg : Str} (h : arg ∉ ["--verbose".toList, "-v".toList, "--interactive".toList, "-i".toList, "--repl".toList,
    "--compile".toList, "-c".toList]) : parseArg c arg =
      if arg.head? = some '-' then
        match arg.dropWhile (· != '=') with
        | [] => setOption c arg []
        | _ :: value => setOption c (arg.takeWhile (· != '=')) value
      else setOption c inputKey arg := by
  simp only [List.mem_cons, List.not_mem_nil, or_false, not_or] at h
  obtain ⟨h1, h2, h3, h4, h5, h6, h7⟩ := h
  unfold parseArg
  simp only [h1, h2, h3, h4, h5, h6, h7, decide_false, Bool.or_self, Bool.false_eq_true, if_false]
  rfl

/-- What an argument says is what is stored. -/
theorem parseArg_says {arg name value : Str} (h : Says arg name value) : parseArg c arg = setOption c name value := by
  cases h with
  | verbose h => rcases h with rfl | rfl <;> rfl
  | interactive h => rcases h with rfl | rfl | rfl <;> rfl
  | compile h => rcases h with rfl | rfl <;> rfl
  | @option name value h =>
    have hn : '=' ∉ '-' :: name := by simp [h]
    rw [parseArg_other option_other, dropWhile_ne hn, takeWhile_ne hn]
    rfl
  | @flag name h ho =>
    have hn : '=' ∉ '-' :: name := by simp [h]
    rw [parseArg_other ho, dropWhile_ne_nil hn]
    rfl
  | input h =>
    rw [parseArg_other, if_neg]
    · rfl
    · rintro hx
      cases arg with
      | nil => cases hx
      | cons a l =>
        simp only [List.head?_cons, Option.some.injEq] at hx
        exact h l (by rw [hx])
    · intro hx
      simp only [List.mem_cons, List.not_mem_nil, or_false] at hx
      rcases hx with hx | hx | hx | hx | hx | hx | hx <;> exact h _ hx

/-- Every argument says something. -/
theorem says_something (arg : Str) : ∃ name value, Says arg name value := by
  by_cases hs : ∃ n, arg = '-' :: n
  · obtain ⟨n, rfl⟩ := hs
    by_cases hm : '-' :: n ∈ ["--verbose".toList, "-v".toList, "--interactive".toList, "-i".toList, "--repl".toList, "--compile".toList, "-c".toList]
    · have hm' := hm
      simp only [List.mem_cons, List.not_mem_nil, or_false] at hm'
      rcases hm' with h | h | h | h | h | h | h
      · exact ⟨_, _, .verbose (.inl h)⟩
      · exact ⟨_, _, .verbose (.inr h)⟩
      · exact ⟨_, _, .interactive (.inl h)⟩
      · exact ⟨_, _, .interactive (.inr (.inl h))⟩
      · exact ⟨_, _, .interactive (.inr (.inr h))⟩
      · exact ⟨_, _, .compile (.inl h)⟩
      · exact ⟨_, _, .compile (.inr h)⟩
    · by_cases he : '=' ∈ n
      · obtain ⟨x, v, rfl, h2⟩ := split_eq n he
        exact ⟨_, _, .option h2⟩
      · exact ⟨_, _, .flag he hm⟩
  · exact ⟨_, _, .input fun n h => hs ⟨n, h⟩⟩

/-- Every argument says one thing only. -/
theorem says_one {arg n1 v1 n2 v2 : Str} (h1 : Says arg n1 v1) (h2 : Says arg n2 v2) : n1 = n2 ∧ v1 = v2 := by
  have h : setOption [] n1 v1 = setOption [] n2 v2 := (parseArg_says h1).symm.trans (parseArg_says h2)
  simpa [setOption, Map.find, Map.emplace] using h

theorem parseArgs_iff : ∀ {c : Config} {args : List Str}, (∃ c', parseArgs c args = .ok c') ↔
    (NoRepeats args ∧ ∀ a ∈ args, ∀ n v, Says a n v → c.find n = none)
  | c, [] => by simp [parseArgs, NoRepeats]
  | c, a :: l => by
    obtain ⟨n, v, hs⟩ := says_something a
    have e : parseArgs c (a :: l) = (setOption c n v).bind fun c => parseArgs c l := by
      show (parseArg c a).bind (fun c => parseArgs c l) = _
      rw [parseArg_says hs]
    rw [e]
    unfold NoRepeats
    rw [List.pairwise_cons]
    cases hf : c.find n with
    | some w =>
      have : setOption c n v = .error .runtime := by unfold setOption; rw [hf]
      rw [this]
      constructor
      · rintro ⟨_, h⟩; cases h
      · rintro ⟨_, h⟩
        have := h a (by simp) n v hs
        rw [hf] at this; cases this
    | none =>
      rw [setOption_iff.mpr ⟨hf, rfl⟩]
      show (∃ c', parseArgs (c.emplace n v) l = .ok c') ↔ _
      rw [parseArgs_iff]
      unfold NoRepeats
      constructor
      · rintro ⟨h1, h2⟩
        refine ⟨⟨fun b hb m x y hx hy => ?_, h1⟩, ?_⟩
        · obtain ⟨rfl, rfl⟩ := says_one hs hx
          have := h2 b hb n y hy
          rw [Map.find_emplace, if_pos rfl] at this
          cases this
        · intro b hb m x hx
          rcases List.mem_cons.mp hb with rfl | hb
          · obtain ⟨rfl, rfl⟩ := says_one hs hx; exact hf
          · have := h2 b hb m x hx
            rw [Map.find_emplace] at this
            split at this
            · cases this
            · exact this
      · rintro ⟨⟨h1, h2⟩, h3⟩
        refine ⟨h2, fun b hb m x hx => ?_⟩
        rw [Map.find_emplace]
        split
        · next h => subst h; exact absurd hx (h1 b hb _ _ _ hs)
        · exact h3 b (by simp [hb]) m x hx

theorem parseArgs_find : ∀ {c c' : Config} {args : List Str}, parseArgs c args = .ok c' → ∀ n v,
    c'.find n = some v ↔ c.find n = some v ∨ ∃ a ∈ args, Says a n v
  | c, c', [], h => by cases h; simp
  | c, c', a :: l, h => by
    intro m x
    obtain ⟨n, v, hs⟩ := says_something a
    have e : parseArgs c (a :: l) = (setOption c n v).bind fun c => parseArgs c l := by
      show (parseArg c a).bind (fun c => parseArgs c l) = _
      rw [parseArg_says hs]
    rw [e] at h
    cases hf : c.find n with
    | some w =>
      have : setOption c n v = .error .runtime := by unfold setOption; rw [hf]
      rw [this] at h; cases h
    | none =>
      rw [setOption_iff.mpr ⟨hf, rfl⟩] at h
      have hl := parseArgs_find (c := c.emplace n v) h m x
      rw [hl, Map.find_emplace]
      constructor
      · rintro (h1 | ⟨b, hb, h2⟩)
        · split at h1
          · next hm => subst hm; rw [hf] at h1; cases h1; exact .inr ⟨a, by simp, hs⟩
          · exact .inl h1
        · exact .inr ⟨b, by simp [hb], h2⟩
      · rintro (h1 | ⟨b, hb, h2⟩)
        · left
          rw [if_neg]; exact h1
          rintro rfl; rw [hf] at h1; cases h1
        · rcases List.mem_cons.mp hb with rfl | hb
          · obtain ⟨rfl, rfl⟩ := says_one hs h2
            left; rw [if_pos rfl, hf]; rfl
          · exact .inr ⟨b, hb, h2⟩

theorem setDefault_find {n m v : Str} : (c.setDefault n v).find m = if m = n then some ((c.find n).getD v) else c.find m := by
  unfold setDefault
  cases hf : c.find n with
  | some w =>
    simp only [Option.getD_some]
    split
    · next h => rw [h, hf]
    · rfl
  | none => simp only; rw [Map.find_emplace, hf]

/-- C74: a command line is accepted just if no two of its arguments are about the same setting. -/
theorem C74_accepts : (∃ c, parse [] args = .ok c) ↔ NoRepeats args := by
  have h := parseArgs_iff (c := []) (args := args)
  simp only [Map.find_nil, implies_true, and_true] at h
  rw [← h]
  unfold parse
  cases parseArgs [] args with
  | error e => exact ⟨fun h => h.elim fun _ h => (by cases h), fun h => h.elim fun _ h => (by cases h)⟩
  | ok c => exact ⟨fun _ => ⟨_, rfl⟩, fun _ => ⟨_, rfl⟩⟩

/-- C74: the settings after an accepted command line are those it says, each with the value it says; all that is added is that `verbose` is on
(this is not a release build in the sense of `NDEBUG`). -/
theorem C74_settings (h : parse [] args = .ok c) (name value : Str) :
    c.get name = .ok value ↔ (∃ a ∈ args, Says a name value) ∨ (name = " verbose".toList ∧ value = "true".toList) := by
  unfold parse at h
  cases hp : parseArgs [] args with
  | error e => rw [hp] at h; cases h
  | ok d =>
    rw [hp] at h
    cases h
    have hf := parseArgs_find hp
    have hg : ∀ (x : Config), x.get name = .ok value ↔ x.find name = some value := by
      intro x; unfold Config.get; cases x.find name <;> simp
    rw [hg, setDefault_find]
    simp only [Map.find_nil, reduceCtorEq, false_or] at hf
    by_cases hn : name = verboseKey
    · subst hn
      rw [if_pos rfl]
      cases hv : d.find verboseKey with
      | none =>
        have hv' : ∀ w, ¬ ∃ a ∈ args, Says a verboseKey w := fun w hw => by rw [← hf, hv] at hw; cases hw
        simp only [Option.getD_none, Option.some.injEq]
        exact ⟨fun h => .inr ⟨rfl, h.symm⟩, fun h => h.elim (fun h => absurd h (hv' _)) (fun h => h.2.symm)⟩
      | some w =>
        obtain ⟨a, ha, hs⟩ := (hf _ _).mp hv
        have hw : w = "true".toList := by
          cases hs; rfl
        simp only [Option.getD_some, Option.some.injEq]
        constructor
        · rintro rfl; exact .inl ⟨a, ha, hs⟩
        · rintro (⟨b, hb, hs'⟩ | ⟨_, rfl⟩)
          · have := (hf verboseKey value).mpr ⟨b, hb, hs'⟩
            rw [hv] at this; simpa using this
          · exact hw
    · rw [if_neg hn, hf]
      exact ⟨.inl, fun h => h.elim id fun h => absurd h.1 hn⟩

/-- C74: whatever the command line is, verbose output is on. -/
theorem C74_verbose (h : parse [] args = .ok c) : c.verbose = true := by
  have hs := (C74_settings h verboseKey "true".toList).2 (.inr ⟨rfl, rfl⟩)
  unfold Config.get at hs
  unfold verbose
  generalize "true".toList = x at hs ⊢
  cases hc : c.find verboseKey with
  | none => rw [hc] at hs; cases hs
  | some y =>
    rw [hc] at hs; cases hs
    show decide (x = x) = true
    simp

/-- C74: the mode is interactive just if an argument says so. -/
theorem C74_interactive (h : parse [] args = .ok c) :
    c.interactive = true ↔ ∃ a ∈ args, a = "--interactive".toList ∨ a = "-i".toList ∨ a = "--repl".toList := by
  have hs := C74_settings h modeKey "interactive".toList
  have : c.interactive = true ↔ c.get modeKey = .ok "interactive".toList := by
    unfold interactive Config.get
    generalize "interactive".toList = x
    cases c.find modeKey with
    | none => exact ⟨fun h => (by cases h), fun h => (by cases h)⟩
    | some y =>
      show decide (y = x) = true ↔ _
      rw [decide_eq_true_eq]
      exact ⟨fun h => by rw [h], fun h => by cases h; rfl⟩
  rw [this, hs]
  constructor
  · rintro (⟨a, ha, hs⟩ | ⟨hn, _⟩)
    · refine ⟨a, ha, ?_⟩
      generalize hv : "interactive".toList = v at hs
      generalize hk : modeKey = k at hs
      cases hs with
      | interactive h => exact h
      | verbose _ => cases hv
      | compile _ => cases hv
      | option _ => cases hk
      | flag _ _ => cases hk
      | input _ => cases hk
    · cases hn
  · rintro ⟨a, ha, h⟩
    exact .inl ⟨a, ha, .interactive h⟩

/-- C74: the input is the one argument that does not start with a dash; without one there is an exception. -/
theorem C74_input (h : parse [] args = .ok c) (file : Str) : c.input = .ok file ↔ file ∈ args ∧ ∀ name, file ≠ '-' :: name := by
  have hs := C74_settings h inputKey file
  have : c.input = .ok file ↔ c.get inputKey = .ok file := by
    unfold input Config.get; exact Iff.rfl
  rw [this, hs]
  constructor
  · rintro (⟨a, ha, hs⟩ | ⟨hn, _⟩)
    · generalize hk : inputKey = k at hs
      cases hs with
      | input h => exact ⟨ha, h⟩
      | interactive _ => cases hk
      | verbose _ => cases hk
      | compile _ => cases hk
      | option _ => cases hk
      | flag _ _ => cases hk
    · cases hn
  · rintro ⟨h1, h2⟩
    exact .inl ⟨file, h1, .input h2⟩

theorem init_find {name : Str} {d : Nat} (hm : (name, d) ∈ machineDefaults) :
    (CpuConfig.init c).find name = some ((c.find name).getD (Str.ofNat d)) := by
  unfold CpuConfig.init
  simp only [machineDefaults, List.mem_cons, Prod.mk.injEq, List.not_mem_nil, or_false] at hm
  rcases hm with ⟨rfl, rfl⟩ | ⟨rfl, rfl⟩ | ⟨rfl, rfl⟩ | ⟨rfl, rfl⟩ | ⟨rfl, rfl⟩ | ⟨rfl, rfl⟩ <;>
    simp only [setDefault_find] <;> rfl

theorem stoul_digits {s : Str} (h : s ≠ []) (hd : ∀ c ∈ s, isDigit c = true) (hb : digits s < 2 ^ 64) : stoul s = .ok (digits s) := by
  cases s with
  | nil => exact absurd rfl h
  | cons a s =>
    have ha : isDigit a = true := hd a (by simp)
    have hsp : isSpace a = false := by
      simp only [isDigit, Bool.and_eq_true, decide_eq_true_eq] at ha
      unfold isSpace
      simp only [Bool.or_eq_false_iff, beq_eq_false_iff_ne]
      refine ⟨⟨⟨⟨⟨?_, ?_⟩, ?_⟩, ?_⟩, ?_⟩, ?_⟩ <;> rintro rfl <;> exact absurd ha.1 (by decide)
    have hm : a ≠ '-' := by rintro rfl; revert ha; decide
    have hp : a ≠ '+' := by rintro rfl; revert ha; decide
    have ht : (a :: s).takeWhile isDigit = a :: s := by
      clear h hb ha hsp hm hp
      generalize a :: s = l at hd
      induction l with
      | nil => rfl
      | cons b l ih =>
        rw [List.takeWhile_cons_of_pos (hd b (by simp)), ih fun c hc => hd c (by simp [hc])]
    unfold stoul
    simp only [List.dropWhile_cons, hsp, Bool.false_eq_true, if_false, List.head?_cons, Option.some.injEq, hm, hp, decide_false, Bool.or_self,
      List.isEmpty_cons, ht, Nat.not_le.mpr hb]

/-- C74: a setting of the machine is the number the command line says, and its default if the command line does not say. -/
theorem C74_number (h : parse [] args = .ok c) {name : Str} {d k : Nat} (hm : (name, d) ∈ machineDefaults) (hk : Chosen args name d k) :
    CpuConfig.number c name = .ok k := by
  have hv : name ≠ " verbose".toList := by
    rintro rfl
    simp [machineDefaults] at hm
  have hf : ∀ v, c.find name = some v ↔ ∃ a ∈ args, Says a name v := by
    intro v
    have := C74_settings h name v
    simp only [hv, false_and, or_false] at this
    rw [← this]
    unfold Config.get; cases c.find name <;> simp
  have hn : CpuConfig.number c name = stoul ((c.find name).getD (Str.ofNat d)) := by
    unfold CpuConfig.number Config.get
    rw [init_find hm]
    rfl
  rw [hn]
  rcases hk with ⟨a, ha, t, h1, h2, h3, rfl, h4⟩ | ⟨h1, rfl⟩
  · rw [(hf t).mpr ⟨a, ha, h1⟩]
    exact stoul_digits h2 (fun c hc => by simp [isDigit, h3 c hc]) h4
  · have : c.find name = none := by
      cases hx : c.find name with
      | none => rfl
      | some v => obtain ⟨a, ha, hs⟩ := (hf v).mp hx; exact absurd hs (h1 a ha v)
    have hb : k < 2 ^ 64 := by
      simp only [machineDefaults, List.mem_cons, Prod.mk.injEq, List.not_mem_nil, or_false] at hm
      omega
    rw [this]
    exact (stoul_digits (ofNat_ne_nil k) (ofNat_isDigit k) (by rw [ofNat_digits]; exact hb)).trans (by rw [ofNat_digits])

variable {f a s m g r : Nat}

/-- C74, the machines made with one, two or three sizes: the sizes that are not given are those of the command line, and there are two entries in
the reservation station for each arithmetic unit. What is missing: the setting for the entries of the reservation station has no effect, and the
machine made without any size is not the one of the command line (`C74_default_machine`). -/
theorem C74_machine_partial (h : parse [] args = .ok c) (hf : Chosen args "-floatRegisterCnt".toList 5 f) (ha : Chosen args "-aluCnt".toList 1 a)
    (hm : Chosen args "-ram".toList 1024 m) (hg : Chosen args "-ramGates".toList 4 g) (regs fregs memory : Nat) :
    Sizes.one c regs = .ok ⟨regs, f, a, 2 * a, m, g⟩ ∧ Sizes.two c regs fregs = .ok ⟨regs, fregs, a, 2 * a, m, g⟩ ∧
    Sizes.three c regs fregs memory = .ok ⟨regs, fregs, a, 2 * a, memory, g⟩ := by
  have h1 : CpuConfig.number c CpuConfig.floatRegisters = .ok f := C74_number h (by decide) hf
  have h2 : CpuConfig.number c CpuConfig.alus = .ok a := C74_number h (by decide) ha
  have h3 : CpuConfig.number c CpuConfig.ram = .ok m := C74_number h (by decide) hm
  have h4 : CpuConfig.number c CpuConfig.ramGates = .ok g := C74_number h (by decide) hg
  have h5 : ∀ x y z, Sizes.three c x y z = .ok ⟨x, y, a, 2 * a, z, g⟩ := by
    intro x y z
    unfold Sizes.three
    rw [h2, h4]; rfl
  refine ⟨?_, ?_, h5 _ _ _⟩
  · unfold Sizes.one; rw [h1, h3]; exact h5 _ _ _
  · unfold Sizes.two; rw [h3]; exact h5 _ _ _

/-- C74: the machine made without any size has as many float registers as arithmetic units were asked for, and as many memory cells as entries of
the reservation station; what was said about float registers and memory has no effect. -/
theorem C74_default_machine (h : parse [] args = .ok c) (hr : Chosen args "-registerCnt".toList 10 r) (ha : Chosen args "-aluCnt".toList 1 a)
    (hs : Chosen args "-reservationStationEntriesCnt".toList 2 s) (hg : Chosen args "-ramGates".toList 4 g) :
    Sizes.none c = .ok ⟨r, a, a, 2 * a, s, g⟩ := by
  have h1 : CpuConfig.number c CpuConfig.registers = .ok r := C74_number h (by decide) hr
  have h2 : CpuConfig.number c CpuConfig.alus = .ok a := C74_number h (by decide) ha
  have h3 : CpuConfig.number c CpuConfig.stations = .ok s := C74_number h (by decide) hs
  have h4 : CpuConfig.number c CpuConfig.ramGates = .ok g := C74_number h (by decide) hg
  unfold Sizes.none Sizes.three
  rw [h1, h2, h3, h4]; rfl

/-- C74 fails for the machine made without any size: with an empty command line it has 2 memory cells and one float register, not 1024 and 5. -/
theorem C74_default_wrong : parse [] [] = .ok [(" verbose".toList, "true".toList)] ∧
    Sizes.none [(" verbose".toList, "true".toList)] = .ok ⟨10, 1, 1, 2, 2, 4⟩ ∧
    Sizes.one [(" verbose".toList, "true".toList)] 10 = .ok ⟨10, 5, 1, 2, 1024, 4⟩ := by
  decide +kernel

/-- C74: register operands are made for the registers of the machine. What is missing: there is one too many (`C74_reg_wrong`). -/
theorem C74_reg_partial (h : parse [] args = .ok c) (hr : Chosen args "-registerCnt".toList 10 r) (i : Nat) :
    (i < r → c.reg i = .ok (.gp i)) ∧ (r < i → c.reg i = .error .runtime) := by
  have h1 : CpuConfig.number c CpuConfig.registers = .ok r := C74_number h (by decide) hr
  unfold Config.reg
  rw [h1]
  constructor
  · intro hi
    show (if i > r then _ else _) = _
    rw [if_neg (by omega)]; rfl
  · intro hi
    show (if i > r then _ else _) = _
    rw [if_pos hi]

/-- C74 fails for the register after the last one: it is made, though the machine of that size has no such register. -/
theorem C74_reg_wrong (h : parse [] args = .ok c) (hr : Chosen args "-registerCnt".toList 10 r) : c.reg r = .ok (.gp r) := by
  have h1 : CpuConfig.number c CpuConfig.registers = .ok r := C74_number h (by decide) hr
  unfold Config.reg
  rw [h1]
  show (if r > r then _ else _) = _
  rw [if_neg (by omega)]; rfl

end

/-- A command line with several kinds of arguments; the value of a setting starts after the first `=`. -/
example : (parse [] ["prog.t86".toList, "-ram=64".toList, "-i".toList, "-aluCnt=2".toList, "-name=a=b".toList] >>= fun c => do
      return (← c.get "-name".toList, c.interactive, ← c.input, ← Sizes.one c 3)) =
    .ok ("a=b".toList, true, "prog.t86".toList, ⟨3, 5, 2, 4, 64, 4⟩) := by
  decide +kernel

example : Chosen ["-ram=64".toList] "-ram".toList 1024 64 ∧ Chosen ["-ram=64".toList] "-aluCnt".toList 1 1 ∧
    NoRepeats ["-ram=64".toList] := by
  have hs : Says "-ram=64".toList "-ram".toList "64".toList := .option (name := "ram".toList) (value := "64".toList) (by decide)
  refine ⟨.inl ⟨_, by simp, _, hs, by decide, by decide, by decide, by decide⟩, .inr ⟨?_, rfl⟩, by simp [NoRepeats]⟩
  intro a ha t ht
  rw [List.mem_singleton] at ha
  subst ha
  exact absurd (says_one hs ht).1 (by decide)

/-- The same setting twice is rejected. -/
example : parse [] ["-i".toList, "--compile".toList] = .error .runtime ∧ parse [] ["a".toList, "b".toList] = .error .runtime := by decide +kernel

end T86
