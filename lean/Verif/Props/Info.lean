import Verif.Lemmas.InfoStops
import Verif.Props.Source
import Verif.Props.Asm

/-! # C51: files with debugging information

`FileSyn` (Spec/Info) says what a file in the documented format contains. `stod` is the library function reading a floating
point number; the theorems hold for all such functions. -/

set_option linter.unusedSimpArgs false
set_option linter.unusedVariables false

namespace T86
open Dbg Str Asm

variable {stod : Str → Except Err Word}

/-- From a file in the documented format, with any sections in any order and layout, the debugger reads exactly the last line
table, the last debugging information entry and the lines of the source text that are in it. -/
theorem C51_read {l : List Part} {src : Option Str} {s : Str} (h : FileSyn stod l src s) :
    Info.read stod s
      = .ok ⟨(l.filterMap Part.table).getLast?.map .ofEntries, (l.filterMap Part.die).getLast?, src.map sourceLines⟩ :=
  Info.read_eq h

/-- Of the same file, the assembler makes exactly its instructions and data, whatever debugging information and source text
there is: both tools can be given one file. -/
theorem C51_assemble {l : List Part} {src : Option Str} {s : Str} (h : FileSyn stod l src s) (hne : l ≠ [] ∨ src ≠ none)
    (ht : ∀ p, Part.code (.text p) ∈ l → ∀ x ∈ p, x.2.Writable ∧ ∀ a, Operand.memImm a ∈ x.2.shown → a.toNat < 2 ^ 31)
    (hd : ∀ d, Part.code (.data d) ∈ l → ∀ x ∈ d, x.Bytes) :
    assemble stod s = .ok ⟨(l.map Part.instrs).flatten, (l.map Part.cells).flatten⟩ := by
  refine assemble_file h hne fun p hp => ?_
  cases p with
  | code x =>
    cases x with
    | text q =>
      intro y hy
      refine ⟨(ht q hp y hy).1, fun o ho => ?_⟩
      cases o with
      | memImm a => exact (ht q hp y hy).2 a ho
      | _ => trivial
    | data d => exact hd d hp
  | _ => trivial

/-- The addresses of the lines are those of the file's line table; the last entry for a line counts. -/
theorem C51_lines {l : List Part} {src : Option Str} {s : Str} {t : List (Nat × Nat)} (h : FileSyn stod l src s)
    (ht : (l.filterMap Part.table).getLast? = some t) :
    ∃ u, Info.read stod s = .ok u ∧ ∀ n, lineToAddr u.lines n = entryOf t n := by
  refine ⟨_, C51_read h, fun n => ?_⟩
  simp only [ht, Option.map_some]
  exact C36_line t n

/-- Reading any text ends: with debugging information or an error. -/
theorem C51_terminates (hst : ∀ w, stod w ≠ .error .diverge) (s : Str) : Info.read stod s ≠ .error .diverge :=
  Info.read_terminates hst s

/-! ## Text that is not in the format is not always rejected -/

/-- The parts of the result one can compare. -/
def Info.Infos.attrs (u : Info.Infos) : Option (Tag × List Attr × Nat) := u.top.map fun d => (d.tag, d.attrs, d.children.length)

deriving instance DecidableEq for Except

/-- An entry that does not begin with a name is read as the attribute named last: here `3` is taken for `ATTR_size`. -/
theorem C51_stale_name : (Info.read (fun _ => .error .invalid) ".debug_info DIE_scope: { ATTR_size: 1, 3: 2 }".toList).map
    (·.attrs) = .ok (some (.scope, [.size 1, .size 2], 0)) := by decide +kernel

/-- Unknown names are skipped without an error. -/
theorem C51_unknown_skipped : (Info.read (fun _ => .error .invalid) ".debug_info DIE_scope: { AT_size, ATTR_id: 1 }".toList).map
    (·.attrs) = .ok (some (.scope, [.id 1], 0)) := by decide +kernel

/-- Anything closes a location program in backticks. -/
theorem C51_backtick : (Info.read (fun _ => .error .invalid) ".debug_info DIE_variable: { ATTR_location: `ADD ] }".toList).map
    (·.attrs) = .ok (some (.variable, [.location [.add]], 0)) := by decide +kernel

/-! ## Examples -/

/-- A file with all kinds of sections. -/
def exFile : Str := ".text\n0 MOV R0, 1\n1 HALT\n.debug_line\n0: 0 # first\n1: 1\n.junk x y 1\n.debug_info\nDIE_scope: {ATTR_id: 0, ATTR_location: [PUSH SP; PUSH -2; ADD],}\n.debug_source\nx = 1\nend".toList

example : (Info.read (fun _ => .error .invalid) exFile).map (·.attrs)
    = .ok (some (.scope, [.id 0, .location [.push (.reg "SP".toList), .push (.off (-2)), .add]], 0)) := by decide +kernel

example : (Info.read (fun _ => .error .invalid) exFile).map (fun u => ([0, 1, 2].map (lineToAddr u.lines), u.source))
    = .ok ([some 0, some 1, none], some ["x = 1".toList, "end".toList]) := by decide +kernel

example : assemble (fun _ => .error .invalid) exFile = .ok ⟨[.mov (.val (.reg (.gp 0))) (.imm 1), .halt], []⟩ := by decide +kernel

/-- A file in the sense of `FileSyn`, with instructions, an entry with an attribute, and a source text. -/
example : FileSyn (fun _ => .error .invalid)
    [.code (.text [(none, .halt)]), .info (.mk .scope [.id 7] [])] (some "a\nb".toList)
    ".text HALT\n.debug_info DIE_scope:{ATTR_id:7,}\n.debug_source\na\nb".toList := by
  have h : PartsSyn ([.dot, .id "text".toList, .id "HALT".toList] ++ ((.dot :: .id "debug_info".toList ::
      (.id "DIE_scope".toList :: .colon :: .lbrace :: (([.id "ATTR_id".toList, .colon, .num 7] ++ .comma :: []) ++ [.rbrace]))) ++ []))
      [.code (.text [(none, .halt)]), .info (.mk .scope [.id 7] [])] :=
    .cons (.code (.text [(none, .halt)])) (.cons (.info (.mk (tag := .scope) rfl (.attr (.id 7) .nil))) .nil)
  refine .source (c := '\n') h ?_
  have id : ∀ {c : Char} {w g s rest : Str} {ts : List Tok}, Gap g → Lexer.isIdStart c = true → (∀ d ∈ w, Lexer.isIdChar d = true) →
      Opening (fun _ => .error .invalid) ts s rest → (∀ d r, s = d :: r → Lexer.isIdChar d = false) →
      Opening (fun _ => .error .invalid) (.id (c :: w) :: ts) (g ++ ((c :: w) ++ s)) rest := fun hg hc hw hr hs =>
    .cons hg (.id hc hw) hr fun d r e hh => by rw [Lexer.grows_id, hs d r e] at hh; cases hh
  have sym : ∀ {t : Tok} {w : String} {g s rest : Str} {ts : List Tok}, Gap g → t.symbol = some w →
      Opening (fun _ => .error .invalid) ts s rest → (∀ c, ¬ t.grows c) →
      Opening (fun _ => .error .invalid) (t :: ts) (g ++ (w.toList ++ s)) rest := fun hg hw hr hs =>
    .cons hg (.symbol hw) hr fun c r e => hs c
  have sp : Gap [' '] := .blank (by decide) .nil
  have nl : Gap ['\n'] := .blank (by decide) .nil
  have nodot : ∀ c, ¬ Tok.grows .dot c := fun c h => h
  refine sym (g := []) .nil (w := ".") rfl ?_ nodot
  refine id (g := []) (c := 't') (w := "ext".toList) (s := " HALT\n.debug_info DIE_scope:{ATTR_id:7,}\n.debug_source\na\nb".toList)
    .nil (by decide) (by decide) ?_ (by intro d r e; cases e; decide)
  refine id (g := [' ']) (c := 'H') (w := "ALT".toList) (s := "\n.debug_info DIE_scope:{ATTR_id:7,}\n.debug_source\na\nb".toList)
    sp (by decide) (by decide) ?_ (by intro d r e; cases e; decide)
  refine sym (g := ['\n']) nl (w := ".") rfl ?_ nodot
  refine id (g := []) (c := 'd') (w := "ebug_info".toList) (s := " DIE_scope:{ATTR_id:7,}\n.debug_source\na\nb".toList)
    .nil (by decide) (by decide) ?_ (by intro d r e; cases e; decide)
  refine id (g := [' ']) (c := 'D') (w := "IE_scope".toList) (s := ":{ATTR_id:7,}\n.debug_source\na\nb".toList)
    sp (by decide) (by decide) ?_ (by intro d r e; cases e; decide)
  refine sym (g := []) .nil (w := ":") rfl ?_ (fun c h => h)
  refine sym (g := []) .nil (w := "{") rfl ?_ (fun c h => h)
  refine id (g := []) (c := 'A') (w := "TTR_id".toList) (s := ":7,}\n.debug_source\na\nb".toList)
    .nil (by decide) (by decide) ?_ (by intro d r e; cases e; decide)
  refine sym (g := []) .nil (w := ":") rfl ?_ (fun c h => h)
  refine .cons (g := []) (w := "7".toList) (s := ",}\n.debug_source\na\nb".toList) .nil (.num (w := "7".toList) (by decide) (by decide) (by decide)) ?_
    (by intro c r e; cases e; rw [Lexer.grows_num]; decide)
  refine sym (g := []) .nil (w := ",") rfl ?_ (fun c h => h)
  refine sym (g := []) .nil (w := "}") rfl ?_ (fun c h => h)
  refine sym (g := ['\n']) nl (w := ".") rfl ?_ nodot
  refine id (g := []) (c := 'd') (w := "ebug_source".toList) (s := "\na\nb".toList)
    .nil (by decide) (by decide) ?_ (by intro d r e; cases e; decide)
  exact .nil _

end T86
