import Verif.Model.Asm
import Verif.Model.Print

/-! # What it means that a text consists of some tokens, and which instructions can be written

These definitions describe the assembly language; they do not refer to the lexer's or the parser's functions, only to the token
and character classes. -/

namespace T86
open Dbg Str

/-! ## Tokens in a text -/

/-- Blanks and complete comments. -/
inductive Gap : Str → Prop
  | nil : Gap []
  | blank {c : Char} {g : Str} (h : isSpace c = true) (hg : Gap g) : Gap (c :: g)
  | comment {b g : Str} (h : '\n' ∉ b) (hg : Gap g) : Gap ('#' :: b ++ '\n' :: g)

/-- The end of a text: blanks and comments, the last of which may be unfinished. -/
inductive Ending : Str → Prop
  | gap {g : Str} (h : Gap g) : Ending g
  | comment {g b : Str} (hg : Gap g) (h : '\n' ∉ b) : Ending (g ++ '#' :: b)

/-- The inside of a string literal and the string it stands for. -/
inductive Quoted : Str → Str → Prop
  | nil : Quoted [] []
  | plain {c : Char} {w s : Str} (h1 : c ≠ '"') (h2 : c ≠ '\\') (h : Quoted w s) : Quoted (c :: w) (c :: s)
  | newline {w s : Str} (h : Quoted w s) : Quoted ('\\' :: 'n' :: w) ('\n' :: s)
  | tab {w s : Str} (h : Quoted w s) : Quoted ('\\' :: 't' :: w) ('\t' :: s)
  | backslash {w s : Str} (h : Quoted w s) : Quoted ('\\' :: '\\' :: w) ('\\' :: s)
  | quote {w s : Str} (h : Quoted w s) : Quoted ('\\' :: '"' :: w) ('"' :: s)

/-- The text of the tokens with only one. -/
def Tok.symbol : Tok → Option String
  | .dot => some "." | .lbrack => some "[" | .rbrack => some "]" | .lbrace => some "{" | .rbrace => some "}"
  | .lparen => some "(" | .rparen => some ")" | .semi => some ";" | .bang => some "!" | .plus => some "+"
  | .minus => some "-" | .times => some "*" | .less => some "<" | .dollar => some "$" | .slash => some "/"
  | .greater => some ">" | .comma => some "," | .assign => some "=" | .eq => some "==" | .neq => some "!="
  | .geq => some ">=" | .leq => some "<=" | .colon => some ":" | .backtick => some "`" | .arrow => some "->"
  | .land => some "&&" | .lor => some "||" | .band => some "&" | .bor => some "|" | .xor => some "^"
  | .lsh => some "<<" | .rsh => some ">>" | .mod => some "%"
  | .id _ => none | .num _ => none | .float _ => none | .str _ => none | .eof => none

/-- The token is written so. -/
inductive Spells (stod : Str → Except Err Word) : Tok → Str → Prop
  | symbol {t : Tok} {w : String} (h : t.symbol = some w) : Spells stod t w.toList
  | id {c : Char} {w : Str} (h : Lexer.isIdStart c = true) (hw : ∀ d ∈ w, Lexer.isIdChar d = true) :
      Spells stod (.id (c :: w)) (c :: w)
  | num {w : Str} (h0 : w ≠ []) (h : ∀ d ∈ w, isDigit d = true) (hn : digits w < 2 ^ 31) : Spells stod (.num (digits w)) w
  | float {c : Char} {w : Str} {x : Word} (h : isDigit c = true) (hw : ∀ d ∈ w, isDigit d = true ∨ d = '.') (hd : '.' ∈ w)
      (hx : stod (c :: w) = .ok x) : Spells stod (.float x) (c :: w)
  | str {w s : Str} (h : Quoted w s) : Spells stod (.str s) ('"' :: w ++ ['"'])

/-- A character that, written directly after the token, would become a part of it. -/
def Tok.grows (t : Tok) (c : Char) : Prop :=
  match t with
  | .id _ => Lexer.isIdChar c = true
  | .num _ => isDigit c = true ∨ c = '.'
  | .float _ => isDigit c = true ∨ c = '.'
  | .bang => c = '='
  | .assign => c = '='
  | .minus => c = '>'
  | .greater => c = '=' ∨ c = '>'
  | .less => c = '=' ∨ c = '<'
  | .band => c = '&'
  | .bor => c = '|'
  | _ => False

/-- The text consists of these tokens, with any blanks, line breaks and comments before, between and after them; two tokens may
touch unless they would merge. -/
inductive Layout (stod : Str → Except Err Word) : List Tok → Str → Prop
  | nil {e : Str} (h : Ending e) : Layout stod [] e
  | cons {t : Tok} {ts : List Tok} {g w rest : Str} (hg : Gap g) (hw : Spells stod t w) (hr : Layout stod ts rest)
      (hs : ∀ c r, rest = c :: r → ¬ t.grows c) : Layout stod (t :: ts) (g ++ (w ++ rest))

/-! ## Instructions that can be written -/

/-- A register with a name in the assembly language: `IP`, `SP`, `BP` or `R` with a number that is an `int`. -/
def Reg.Named : Reg → Prop
  | .gp i => i < 2 ^ 31
  | .flags => False
  | _ => True

/-- A number that can be written: a natural number that is an `int`, with or without `-`. -/
def Word.Literal (w : Word) : Prop := w.toInt.natAbs < 2 ^ 31

/-- An expression all whose parts can be written. -/
def RegExpr.Named : RegExpr → Prop
  | .reg r => r.Named
  | .regImm r w => r.Named ∧ Word.Literal w
  | .regReg r s => r.Named ∧ s.Named
  | .regScaled r w => r.Named ∧ Word.Literal w
  | .regImmReg r w s => r.Named ∧ Word.Literal w ∧ s.Named
  | .regRegScaled r s w => r.Named ∧ s.Named ∧ Word.Literal w
  | .regImmRegScaled r w s v => r.Named ∧ Word.Literal w ∧ s.Named ∧ Word.Literal v

/-- An operand all whose parts can be written. -/
def Operand.Named : Operand → Prop
  | .imm w => Word.Literal w
  | .fimm _ => True
  | .val e => e.Named
  | .freg i => i < 2 ^ 31
  | .memImm _ => True
  | .mem e => e.Named

/-- `R` or `i`. -/
def Operand.isImmReg : Operand → Prop
  | .imm _ => True
  | .val (.reg _) => True
  | _ => False

/-- `[i]`, `[R]` or `[R + i]`. -/
def Operand.isSimpleMem : Operand → Prop
  | .memImm _ => True
  | .mem (.reg _) => True
  | .mem (.regImm _ _) => True
  | _ => False

/-- `R + i`. -/
def Operand.isRegPlusImm : Operand → Prop
  | .val (.regImm _ _) => True
  | _ => False

/-- `F` or a floating point number. -/
def Operand.isFloatImmReg : Operand → Prop
  | .fimm _ => True
  | .freg _ => True
  | _ => False

/-- Any of the eight memory operands. -/
def Operand.isMem : Operand → Prop
  | .memImm _ => True
  | .mem _ => True
  | _ => False

/-- The operands `MOV` takes. -/
def MovShape : Operand → Operand → Prop
  | .val (.reg _), v => v.isImmReg ∨ v.isMem ∨ (∃ f, v = .freg f)
  | .freg _, v => v.isFloatImmReg ∨ (∃ r, v = .val (.reg r)) ∨ (∃ a, v = .memImm a) ∨ (∃ r, v = .mem (.reg r))
  | .memImm _, v => v.isImmReg ∨ ∃ f, v = .freg f
  | .mem _, v => v.isImmReg ∨ ∃ f, v = .freg f
  | .fimm _, v => v.isImmReg ∨ ∃ f, v = .freg f
  | _, _ => False

/-- The operands each instruction takes in the assembly language. -/
def Instr.Shape : Instr → Prop
  | .mov d v => MovShape d v
  | .lea _ m => (∃ e, m = .mem e) ∧ ∀ r, m ≠ .mem (.reg r)
  | .bin op risc d r v => op ≠ .mod ∧ risc = false ∧ d = r ∧ (v.isImmReg ∨ v.isRegPlusImm ∨ v.isSimpleMem)
  | .fbin _ _ v => v.isFloatImmReg
  | .cmp _ v => v.isImmReg ∨ v.isSimpleMem
  | .fcmp _ v => v.isFloatImmReg
  | .jmp a => a.isImmReg
  | .jcc _ a => a.isImmReg ∨ a.isSimpleMem
  | .loop _ a => a.isImmReg
  | .call a => a.isImmReg
  | .push v => v.isImmReg
  | .fpush v => v.isFloatImmReg
  | .clf => False
  | _ => True

/-- An instruction of the assembly language. -/
def Instr.Writable (i : Instr) : Prop := i.Shape ∧ ∀ o ∈ i.shown, o.Named

/-- The operand can be read back from its text: an address in brackets is printed unsigned and must be an `int`; a floating
point number must be printed as digits with a point and be read back exactly. -/
def Operand.Legible (stod : Str → Except Err Word) (ftos : Word → Str) : Operand → Prop
  | .memImm a => a.toNat < 2 ^ 31
  | .fimm x => Spells stod (.float x) (ftos x)
  | _ => True

end T86

namespace T86

/-! ## The tokens of an instruction -/

/-- The token of a register. -/
def Reg.tk (r : Reg) : Tok := .id r.print

/-- The tokens of a number. -/
def intToks (w : Word) : List Tok := if w.toInt < 0 then [.minus, .num w.toInt.natAbs] else [.num w.toInt.natAbs]

/-- The tokens of a register expression. -/
def RegExpr.toks : RegExpr → List Tok
  | .reg r => [r.tk]
  | .regImm r w => r.tk :: .plus :: intToks w
  | .regReg r s => [r.tk, .plus, s.tk]
  | .regScaled r w => r.tk :: .times :: intToks w
  | .regImmReg r w s => r.tk :: .plus :: (intToks w ++ [.plus, s.tk])
  | .regRegScaled r s w => r.tk :: .plus :: s.tk :: .times :: intToks w
  | .regImmRegScaled r w s v => r.tk :: .plus :: (intToks w ++ (.plus :: s.tk :: .times :: intToks v))

/-- The tokens of an operand. -/
def Operand.toks : Operand → List Tok
  | .imm w => intToks w
  | .fimm x => [.float x]
  | .val e => e.toks
  | .freg i => [.id (printFloatReg i)]
  | .memImm a => [.lbrack, .num a.toNat, .rbrack]
  | .mem e => .lbrack :: (e.toks ++ [.rbrack])

/-- The tokens of the operands after the first. -/
def moreToks : List Operand → List Tok
  | [] => []
  | o :: l => .comma :: (o.toks ++ moreToks l)

/-- The tokens of an instruction. -/
def Instr.toks (i : Instr) : List Tok :=
  match i.shown with
  | [] => [.id i.name]
  | o :: l => .id i.name :: (o.toks ++ moreToks l)

/-! ## Programs -/

/-- An item of a data section: a number with or without a sign, or a string. -/
inductive DataItem
  | num (n : Nat)
  | neg (n : Nat)
  | str (s : Str)

/-- The tokens of an item. -/
def DataItem.toks : DataItem → List Tok
  | .num n => [.num n]
  | .neg n => [.minus, .num n]
  | .str s => [.str s]

/-- The value of a character: a signed byte. -/
def charValue (c : Char) : Int := if c.toNat < 128 then c.toNat else c.toNat - 256

/-- The cells of an item: one for a number; one for each character of a string and a zero. -/
def DataItem.cells : DataItem → List Word
  | .num n => [BitVec.ofInt 64 n]
  | .neg n => [BitVec.ofInt 64 (-n)]
  | .str s => s.map (fun c => BitVec.ofInt 64 (charValue c)) ++ [0]

/-- The characters of an item are bytes. -/
def DataItem.Bytes : DataItem → Prop
  | .str s => ∀ c ∈ s, c.toNat < 256
  | _ => True

/-- A section of a program: instructions, each with its tokens and possibly an address before them, or data. -/
inductive Sect
  | text (l : List (Option Nat × Instr))
  | data (l : List DataItem)

/-- The tokens of a section. -/
def Sect.toks : Sect → List Tok
  | .text l => .dot :: .id "text".toList :: (l.map fun x => (x.1.toList.map Tok.num) ++ x.2.toks).flatten
  | .data l => .dot :: .id "data".toList :: (l.map DataItem.toks).flatten

/-- The instructions of a section. -/
def Sect.instrs : Sect → List Instr
  | .text l => l.map (·.2)
  | .data _ => []

/-- The data of a section. -/
def Sect.cells : Sect → List Word
  | .text _ => []
  | .data l => (l.map DataItem.cells).flatten

/-- The text of a program: one instruction a line. -/
def listing (ftos : Word → Str) (p : List Instr) : Str :=
  ".text\n".toList ++ (p.map fun i => i.print ftos ++ ['\n']).flatten

end T86
