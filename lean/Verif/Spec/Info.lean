import Verif.Spec.Asm
import Verif.Model.InfoParse

/-! # The format of debugging information (docs/source-info.md)

Which tokens stand for a location program, an attribute, an entry, and what a file with several sections contains. The
definitions do not refer to the parser's functions. -/

namespace T86
open Dbg Str

/-- Items with a separator between them, which may also follow the last one. -/
inductive Items {α : Type} (sep : Tok) (P : List Tok → α → Prop) : List Tok → List α → Prop
  | nil : Items sep P [] []
  | last {ts : List Tok} {a : α} (h : P ts a) : Items sep P ts [a]
  | cons {ts us : List Tok} {a : α} {l : List α} (h : P ts a) (hl : Items sep P us l) :
      Items sep P (ts ++ sep :: us) (a :: l)

/-- A number with or without `-`. -/
inductive OffsetSyn : List Tok → Word → Prop
  | pos (n : Nat) : OffsetSyn [.num n] (BitVec.ofInt 64 n)
  | neg (n : Nat) : OffsetSyn [.minus, .num n] (BitVec.ofInt 64 (-(n : Int)))

/-- An instruction of a location program. -/
inductive LocSyn : List Tok → LocIns → Prop
  | base {ts : List Tok} {w : Word} (h : OffsetSyn ts w) : LocSyn (.id "BASE_REG_OFFSET".toList :: ts) (.baseOffset w)
  | pushNum {ts : List Tok} {w : Word} (h : OffsetSyn ts w) : LocSyn (.id "PUSH".toList :: ts) (.push (.off w))
  | pushReg (n : Str) : LocSyn [.id "PUSH".toList, .id n] (.push (.reg n))
  | add : LocSyn [.id "ADD".toList] .add
  | deref : LocSyn [.id "DEREFERENCE".toList] .deref

/-- A location program: at most one instruction in backticks, or any number in brackets. -/
inductive ProgramSyn : List Tok → List LocIns → Prop
  | none : ProgramSyn [.backtick, .backtick] []
  | one {ts : List Tok} {i : LocIns} (h : LocSyn ts i) : ProgramSyn (.backtick :: (ts ++ [.backtick])) [i]
  | many {ts : List Tok} {l : List LocIns} (h : Items .semi LocSyn ts l) : ProgramSyn (.lbrack :: (ts ++ [.rbrack])) l

/-- A member of a structured type: `offset: {type: name}`. -/
inductive MemberSyn : List Tok → Member → Prop
  | mk (offset type : Nat) (name : Str) :
      MemberSyn [.num offset, .colon, .lbrace, .num type, .colon, .id name, .rbrace] ⟨name, type, BitVec.ofNat 64 offset⟩

/-- An attribute. -/
inductive AttrSyn : List Tok → Attr → Prop
  | name (n : Str) : AttrSyn [.id "ATTR_name".toList, .colon, .id n] (.name n)
  | quoted (n : Str) : AttrSyn [.id "ATTR_name".toList, .colon, .str n] (.name n)
  | type (n : Nat) : AttrSyn [.id "ATTR_type".toList, .colon, .num n] (.type n)
  | id (n : Nat) : AttrSyn [.id "ATTR_id".toList, .colon, .num n] (.id n)
  | beginAddr (n : Nat) : AttrSyn [.id "ATTR_begin_addr".toList, .colon, .num n] (.beginAddr n)
  | endAddr (n : Nat) : AttrSyn [.id "ATTR_end_addr".toList, .colon, .num n] (.endAddr n)
  | size (n : Nat) : AttrSyn [.id "ATTR_size".toList, .colon, .num n] (.size n)
  | members {ts : List Tok} {l : List Member} (h : Items .comma MemberSyn ts l) :
      AttrSyn (.id "ATTR_members".toList :: .colon :: .lbrace :: (ts ++ [.rbrace])) (.members l)
  | location {ts : List Tok} {l : List LocIns} (h : ProgramSyn ts l) :
      AttrSyn (.id "ATTR_location".toList :: .colon :: ts) (.location l)

/-- The names of the kinds of entries. -/
def Dbg.Tag.text : Tag → Option String
  | .function => some "DIE_function"
  | .primitiveType => some "DIE_primitive_type"
  | .structuredType => some "DIE_structured_type"
  | .pointerType => some "DIE_pointer_type"
  | .arrayType => some "DIE_array_type"
  | .variable => some "DIE_variable"
  | .scope => some "DIE_scope"
  | .unit => some "DIE_compilation_unit"
  | .name => none
  | .invalid => none

mutual

/-- An entry: its kind, and its attributes and the entries under it in braces. -/
inductive DieSyn : List Tok → Die → Prop
  | mk {tag : Tag} {n : String} {ts : List Tok} {as : List Attr} {ds : List Die} (hn : tag.text = some n) (h : BodySyn ts as ds) :
      DieSyn (.id n.toList :: .colon :: .lbrace :: (ts ++ [.rbrace])) (.mk tag as ds)

/-- Attributes and entries, in any order, with commas between them and possibly one after the last. -/
inductive BodySyn : List Tok → List Attr → List Die → Prop
  | nil : BodySyn [] [] []
  | lastAttr {ts : List Tok} {a : Attr} (h : AttrSyn ts a) : BodySyn ts [a] []
  | lastDie {ts : List Tok} {d : Die} (h : DieSyn ts d) : BodySyn ts [] [d]
  | attr {ts us : List Tok} {a : Attr} {as : List Attr} {ds : List Die} (h : AttrSyn ts a) (hb : BodySyn us as ds) :
      BodySyn (ts ++ .comma :: us) (a :: as) ds
  | die {ts us : List Tok} {d : Die} {as : List Attr} {ds : List Die} (h : DieSyn ts d) (hb : BodySyn us as ds) :
      BodySyn (ts ++ .comma :: us) as (d :: ds)

end

/-- A section of a file. -/
inductive Part
  /-- Instructions or data. -/
  | code (x : Sect)
  /-- A table of lines and addresses. -/
  | lines (l : List (Nat × Nat))
  /-- A debugging information entry. -/
  | info (d : Die)
  /-- A section no tool knows. -/
  | other (name : Str)

/-- The tokens of a section. -/
inductive PartSyn : List Tok → Part → Prop
  | code (x : Sect) : PartSyn x.toks (.code x)
  | lines (l : List (Nat × Nat)) :
      PartSyn (.dot :: .id "debug_line".toList :: (l.map fun e => [.num e.1, .colon, .num e.2]).flatten) (.lines l)
  | info {ts : List Tok} {d : Die} (h : DieSyn ts d) : PartSyn (.dot :: .id "debug_info".toList :: ts) (.info d)
  | empty : PartSyn [.dot, .id "debug_info".toList] (.info (.mk .invalid [] []))
  | other {n : Str} {ts : List Tok}
      (hn : n ∉ ["text", "data", "debug_line", "debug_info", "debug_source"].map String.toList) (ht : .dot ∉ ts) :
      PartSyn (.dot :: .id n :: ts) (.other n)

/-- The tokens of several sections. -/
inductive PartsSyn : List Tok → List Part → Prop
  | nil : PartsSyn [] []
  | cons {ts us : List Tok} {p : Part} {l : List Part} (h : PartSyn ts p) (hl : PartsSyn us l) : PartsSyn (ts ++ us) (p :: l)

/-- The text begins with these tokens, with any blanks, line breaks and comments before and between them, and then goes on with
the rest; the last token ends before the rest. -/
inductive Opening (stod : Str → Except Err Word) : List Tok → Str → Str → Prop
  | nil (rest : Str) : Opening stod [] rest rest
  | cons {t : Tok} {ts : List Tok} {g w s rest : Str} (hg : Gap g) (hw : Spells stod t w) (hr : Opening stod ts s rest)
      (hs : ∀ c r, s = c :: r → ¬ t.grows c) : Opening stod (t :: ts) (g ++ (w ++ s)) rest

/-- A file with these sections and possibly, at the end, the text of the source program, which begins after the character
that follows the section's name. -/
inductive FileSyn (stod : Str → Except Err Word) : List Part → Option Str → Str → Prop
  | plain {ts : List Tok} {l : List Part} {s : Str} (h : PartsSyn ts l) (hs : Layout stod ts s) : FileSyn stod l none s
  | source {ts : List Tok} {l : List Part} {c : Char} {text s : Str} (h : PartsSyn ts l)
      (hs : Opening stod (ts ++ [.dot, .id "debug_source".toList]) s (c :: text)) : FileSyn stod l (some text) s

/-- The instructions of a section. -/
def Part.instrs : Part → List Instr
  | .code x => x.instrs
  | _ => []

/-- The data of a section. -/
def Part.cells : Part → List Word
  | .code x => x.cells
  | _ => []

/-- The line table of a section. -/
def Part.table : Part → Option (List (Nat × Nat))
  | .lines l => some l
  | _ => none

/-- The entry of a section. -/
def Part.die : Part → Option Die
  | .info d => some d
  | _ => none

end T86
