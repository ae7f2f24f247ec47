import Verif.Props.Cli

/-! # Cases of C60: `memory` and `assemble` -/

set_option maxRecDepth 100000

namespace T86
open Dbg Str
namespace Cli
open Job

/-- Non-vacuity for `C60_memory_partial`: at the start of the program no access to memory is under way, and `memory set` is carried out. -/
example :
    Done exEnv "memory set 5 7".toList (exAfter []) (exAfter ["memory set 5 7"]) ∧ Is .memory "memory set 5 7".toList ∧
    (exAfter []).process = some (Sample.started Sample.calls) ∧ (∀ a, (Sample.started Sample.calls).link.vm.cpu.settled a) ∧
    (exAfter ["memory set 5 7"]).process.map (fun n => n.link.vm.cpu.ram.mem.getD 5 0) = some 7 := by
  have h1 : (Sample.started Sample.calls).link.vm.cpu.ram.reads = [] := by decide +kernel
  have h2 : (Sample.started Sample.calls).link.vm.cpu.wm.ws = [] := by decide +kernel
  refine ⟨exAfter_done [] "memory set 5 7" (by decide +kernel) (by decide +kernel), by unfold Is; decide, rfl, fun a => ⟨?_, ?_⟩, by decide +kernel⟩
  · rw [h1]; simp
  · rw [h2]; simp

/-- The debugger with two instructions to be assembled, and a line after them. -/
def exAsm : Cli := { exCli with input := ["MOV R1, 9".toList, "NOP".toList, [], "help".toList] }

theorem exAsm_done (raw : Str) (h1 : (typed exEnv raw exAsm).1 = .ok ())
    (h2 : Out.error ∉ (typed exEnv raw exAsm).2.out.drop exAsm.out.length) : Done exEnv raw exAsm (typed exEnv raw exAsm).2 :=
  ⟨Prod.ext h1 rfl, h2⟩

/-- Non-vacuity for `C60_assemble`: two instructions are assembled over the third and the fourth of the program. -/
example :
    Done exEnv (line ["assemble".toList, "interactive".toList, ofNat 2]) exAsm
      (typed exEnv (line ["assemble".toList, "interactive".toList, ofNat 2]) exAsm).2 ∧
    exAsm.input = ["MOV R1, 9".toList, "NOP".toList] ++ [] :: ["help".toList] ∧
    (Op.write (BitVec.ofNat 64 2) ["MOV R1, 9".toList, "NOP".toList]).Text Sample.host (fun s i => s = i.print Sample.host.ftos ∧ Plain Sample.host i)
      (Sample.started Sample.calls) Sample.calls (overwrite Sample.calls 2 [.mov (.val (.reg (.gp 1))) (.imm 9), .nop]) := by
  have hb : (Sample.started Sample.calls).bps = [] := by decide +kernel
  have hp : ∀ i ∈ [Instr.mov (.val (.reg (.gp 1))) (.imm 9), .nop], Plain Sample.host i := by
    intro i hi
    simp only [List.mem_cons, List.not_mem_nil, or_false] at hi
    rcases hi with rfl | rfl <;>
      simp [Plain, Instr.Writable, Instr.Shape, MovShape, Operand.isImmReg, Operand.isMem, Instr.shown, Operand.Named,
        RegExpr.Named, Reg.Named, Operand.Legible, Word.Literal]
  have h1 : (typed exEnv (line ["assemble".toList, "interactive".toList, ofNat 2]) exAsm).1 = .ok () := by decide +kernel
  have h2 : Out.error ∉ (typed exEnv (line ["assemble".toList, "interactive".toList, ofNat 2]) exAsm).2.out.drop exAsm.out.length := by decide +kernel
  have h3 : exAsm.input = ["MOV R1, 9".toList, "NOP".toList] ++ [] :: ["help".toList] := by decide +kernel
  refine ⟨exAsm_done _ h1 h2, h3, ?_⟩
  have h4 : "MOV R1, 9".toList = (Instr.mov (.val (.reg (.gp 1))) (.imm 9)).print Sample.host.ftos := by decide +kernel
  have h5 : "NOP".toList = Instr.nop.print Sample.host.ftos := by decide +kernel
  have h6 : List.Forall₂ (fun s i => s = i.print Sample.host.ftos ∧ Plain Sample.host i) ["MOV R1, 9".toList, "NOP".toList]
      [.mov (.val (.reg (.gp 1))) (.imm 9), .nop] := .cons ⟨h4, hp _ (by simp)⟩ (.cons ⟨h5, hp _ (by simp)⟩ .nil)
  refine ⟨_, h6, hp, rfl, ?_⟩
  intro b bp h
  rw [hb] at h
  cases h

end Cli
end T86
