# Formal model of t86-with-debug: design

Source: `/repo` (C++20), read as text, never built or run here. Model and proofs: `/verif/lean` (Lean 4.33.0).

## 1. Trusted base

* Lean's kernel. Every property theorem depends on at most `propext`, `Classical.choice` and `Quot.sound`
  (`lean/Verif/Axioms.lean` prints them). No axioms of our own, no `sorry`, no `native_decide`, no `bv_decide`.
* The reading of the C++ source: nothing ties the model to the code except the citations. Every definition names the file
  and lines it models, and every simplification is stated in the comment beside it.
* Undefined behaviour (UB), failed `assert`s and C++ exceptions are distinct outcomes (`Fault.ub`, `Fault.abort`,
  `Fault.exn`), never silently given a value. The repo is built with `-O2` without `-fwrapv` and without `-DNDEBUG`
  (CMakeLists.txt), so signed overflow is formally UB and asserts are live.
* Doubles are 64-bit patterns; floating-point operations are parameters (`FloatOps`), so theorems hold for any
  floating-point unit. What needs IEEE facts states them as hypotheses.

## 2. Conventions

* `Word = BitVec 64` for int64_t/uint64_t/size_t machine values, `Nat` for container sizes, counters and ids that
  cannot reach 2^64 in any run that fits in memory (stated where used).
* `std::map`/`unordered_map` = association lists or functions, `std::list`/`vector` = `List`.
* Model files: `Verif/Model/*.lean`; independent specifications: `Verif/Spec/*.lean`; helper lemmas:
  `Verif/Lemmas/*.lean`; property theorems with their non-vacuity examples: `Verif/Props/*.lean`.
* Where the code violates a property, the negation is proved with a concrete witness, and the part that does hold is
  proved with suffix `_partial`. See section 5 (findings).

## 3. Plan per property

| id | modelled | proof |
|----|----------|-------|
| C01, C02 | `Alu.subtract`, flag encoding, all sixteen jump conditions | arithmetic over `BitVec 64`/`Int`, for all operands |
| C03, C04 | every function of `alu.cpp` with its UB conditions | result/flag equations against an integer specification |
| C05 | `Flags` conversions | all flag sets; all words |
| C06 | registers, the 18 operand forms, `requirement`, `supply`, the fetch loop | induction on the fetch; formula specification |
| C07, C08, C11, C14, C47 | complete tick-level CPU: fetch, decode, renaming, reservation station, write manager, RAM, prediction, unroll | simulation invariant between pipeline states and sequential ISA states, induction over ticks |
| C09 | same model, fault outcomes | corollary of the simulation for memory faults; negation for division (witness run) |
| C10, C21 | same plus trap flag, `Debug::Work` reasons | invariant; negation witness for C21 |
| C12 | `checkWrite`, `GetResponsibleRegister` | decision logic, all debug register contents |
| C13 | RAT objects, subscription counts, `nextFreeRegister` | counting invariant, pigeonhole |
| C15 | `RAM` | invariant over op sequences |
| C16 | sequential ISA and the instruction semantics; pairs of single steps of the pipelined machine (`Verif/Props/StackRun.lean`) | equational; the pairs by C33 |
| C17 | CPU model | stages of the oldest instruction; each tick reaches a later stage, RAM and ALU waits are bounded |
| C18 | CPU model plus `POKEDATA` | negation witness; partial theorem for settled memory |
| C19, C20 | `OS`, `Debug::Work`, `T86Process` message handling | state machine, all messages |
| C22, C23, C24 | lexer, assembler parser, printer | round trip by structural lemmas |
| C25 | `helpers.h` | list induction |
| C26, C27 | framing and queues | induction over chunkings / interleavings |
| C28..C35, C46 | `Native`, `T86Process`, `Arch` over an abstract debuggee | invariants over operation histories |
| C36..C41 | debug-information structures | structural induction |
| C42..C44 | expression grammar and evaluator | round trip, refinement to 64-bit arithmetic |
| C45 | `ProgramBuilder` | invariant over call sequences |
| C48 | CPU model | invariant over ticks |
| C50 | `ProgramBuilder`, `validate` | case analysis |
| C51 | parser of debugging information, assembler | grammar as an inductive relation, round trip over it; termination by a measure on the unread text |
| C46, C52, C53, whatever is met | the same; `Verif/Spec/Over.lean` says where the steps lead on the sequential machine | the runs of the loops are cut at what is met first (`Verif/Lemmas/OverAll.lean`) |
| C52, C53 | `Source::StepIn`, `StepOver`, `Native::PerformStepOut` over the modelled debuggee | induction over the passes of the loops, from the session invariant |
| C54..C56 | breakpoints by line and name, display of values, numbered results | reduction to C30, C36, C38, C42, C49; induction over strings and histories |
| C57..C66 | the command line `dbg-cli/CLI.h` on top of `Native`, `Source` and the VM | text lemmas of C25; a frame lemma per handler; session invariants as in C30 |
| C67 | `t86-cli/main.cpp`, `OS::Run` without a debugger, on top of the assembler and the CPU | composition of C07, C17, C22, C24 and C51 |
| C68 | undefined outcomes of the CPU model, against a specification of what lies ahead of a state (`Spec/Hazard`) | the invariant of C07, with the queue of memory writes and the station kept free of undefined behaviour unless a hazardous state is reachable |
| C69 | the debugger library on the protocol on the machine (`Model/Native`) and the command line on it (`Model/Cli`), against the sequential machine and `t86-cli FILE` (C67) | an invariant of sessions: what is shown is a state the sequential machine gets to; lines that only look are calls that only look |
| C70, C71, C72 | the machine with the records of `StatsLogger` beside it (`Model/Stats`); the sequential machine says what was executed (`Isa.path`) | an invariant of runs: each instruction in flight has a history of stages in the records so far, and the records of instructions that have retired are complete |
| C73 | `Native`, `T86Process`, protocol and VM as for C31; the sequential machine says what the program comes to (`Spec/Return`) | progress: in each tick the oldest instruction in flight comes closer to its end, so the machine stops after at most 24 ticks for each instruction (`Lemmas/Fit`, `Lemmas/Return`); the hazards (C68) before the next stop (`Lemmas/HazardVm`); for stepping over a call, induction on the instructions of the callee, continuing each time the instruction after the call is passed in a deeper call (`Lemmas/ReturnOver`, and `Lemmas/ReturnMet` for a callee that stops on the way, `Lemmas/ReturnWatch` for one that writes to a watched address; `Lemmas/ReturnLine`, `Spec/ReturnWrites` and `Lemmas/ReturnWrites` for such a write in a line or before a return); for lines and functions, induction on the instructions passed over (`Spec/ReturnOut`, `Lemmas/ReturnOut`; `Spec/ReturnMet`, `Lemmas/ReturnMeet` if something else is met before); for the typed lines, with C66 (`Props/ReturnCli`) |
| C74 | `Config`, `Cpu::Config`, the constructors of `Cpu`, `Reg` (`Model/Config`); `Spec/Config` says what an argument means | induction over the command line |
| C75 | the operators of `cpu/register.*`, with overload resolution (`Model/RegArith`) | induction over expressions, ring laws of 64-bit numbers |
| C78 | `TypedValueToString`, `TypeToString`, `HandleExpression` (`Model/SourceDbg`, `Model/Cli`); `Spec/Display` says how values are written | induction over values; a type without a name repeats on the way along its pointers; decimal notations are told apart by what ends them |
| C79 | `EvaluateTypeAndLocation`, `Dereference`, `GetVariableLocation`, `GetScopedVariables`, `HandleFrame` (`Model/Expr`, `Model/SourceDbg`, `Model/Cli`); `Spec/Variable` says what is stored where in a state of the sequential machine | induction over the derivation that a value of a type is at a place; a type that has a value is no deeper than there are types, so the fuel suffices |
| C80 | `Cli::Run`, `ExitProcess`, the dispatch of commands (`Model/Cli`); `Spec/CliLoop` says what it is to carry out a list of lines | every handler keeps what has been printed and, but for `assemble`, the rest of the input; induction over the rest of the input |
| C77 | `processDetailedStats`, `getSignature` (`Model/StatsDetail`) | induction over the instructions entered into the table; C71 for their life times |
| C76 | the counters of the lexer, `CreateError` (`Model/Position`) | the reader of `Model/Lexer` run with positions; invariant: the counters count what has been read |
| C49 | `Native`, `T86Process`, protocol and VM | case analysis on the messages, from the session invariant |

## 4. What is modelled, and what is not

| code | model | remarks |
|------|-------|---------|
| `t86/cpu/alu.*`, `cpu/register.*` | `Model/Alu`, `Model/Machine` | strict variant (signed overflow is UB) and wrapping variant, chosen by a parameter |
| `t86/instructions/operand.*`, `requirements.*`, `product.*` | `Model/Operand` | all 18 operand forms |
| `t86/instruction.*` | `Model/Instr` | all instructions |
| `t86/ram.*` | `Model/Ram` | latency, gates |
| `t86/cpu/memory_writes_manager.*` | `Model/Writes` | dangling references are UB |
| `t86/cpu.*`, `reservation_station.*`, `register_allocation_table.*`, `branchpredictor.h` | `Model/Cpu` | one tick is one total function; the predictor is a parameter |
| `t86/os.*`, `t86/debug.*` | `Model/Vm` | debug loop and message handling |
| `t86-cli/main.cpp`, `OS::Run` without a debugger | `Model/Run` | the command line itself (argparse) is left out |
| operators of `cpu/register.*` | `Model/RegArith` | which operator C++ chooses is part of the model |
| positions in texts | `Model/Position` | the texts of messages are not modelled, the positions in them are |
| `common/config.h`, `Cpu::Config`, constructors of `Cpu`, `program/helpers.*` | `Model/Config` | the sizes of the machine; the pipeline theorems hold for all sizes |
| `common/helpers.h` | `Model/Str` | the string helpers |
| `common/TCP.h`, `threads_messenger.h` | `Model/Message` | as event sequences; no real sockets or threads |
| `t86/program/*` | `Model/Builder` | |
| `common/parsing.*`, `t86-parser/parser.*` | `Model/Lexer`, `Model/Asm`, `Model/Load` | number conversion of floats is a parameter |
| `toString` of instructions and operands | `Model/Print` | |
| `debugger/T86Process.*`, `Arch.h`, `Breakpoint.h`, `Watchpoint.h`, `Native.*` | `Model/DbgBase`, `Protocol`, `Process`, `Native` | the debuggee is the modelled VM itself, not an abstraction |
| `debugger/Source/LineMapping`, `SourceFile`, `Die.h`, `LocExpr.h`, `ExpressionInterpreter`, `Type.h`, lookups of `Source.cpp` | `Model/Source` | |
| `debugger/Source/Parser.*` | `Model/InfoParse` | the three sections and the tree of entries |
| `debugger/Source/ExpressionParser`, `Expression` | `Model/ExprParse`, `Model/Expr` | |
| `debugger/Source/Source.cpp` (stepping, breakpoints by line, display of values, results) | `Model/SourceDbg` | |
| `t86/utils/stats_logger.*` | `Model/Stats` | the records, the life times and the averages before division, over all instructions and by kind (`Model/StatsDetail`); which operand was waited for is not followed |
| `dbg-cli/CLI.h` | `Model/Cli` | all commands; colours and padding are left out, `attach` to another machine is not followed, the file is assumed readable |

Not modelled: logging, socket set-up, line editing and history of the terminal (`linenoise`), thread scheduling below
the messenger operations, and wall-clock time. No listed property speaks about them.

Two choices recur in the statements:

* *strict and wrap*. Signed overflow in `alu.cpp` is UB by the language rules. A host `h` says whether an overflowing operation is a
  distinct outcome (`Fault.ub`) or wraps around as the hardware would. Theorems hold for both unless they say otherwise.
* *pipeline theorems are relative to runs without a fault*: a fault in the C++ sense (an exception, a failed assertion, UB) ends the model's
  run. The theorems say what holds for every state reached before. `UbPossible`/`risky` name the programs whose in-flight instructions
  can divide by zero.

## 5. Findings

Places where the code does something else than a user expects. "Proved" names the theorem that shows it on the model.

CPU and VM

* Two in-flight writes to one address make `MemoryWritesManager` keep references into a container that has changed (UB in C++). Two stores to one
  cell, one right after the other, do this. Proved: `C67_two_stores`. `C68_cause` says
  which programs can have undefined behaviour at all.
* `t86-cli` ends with exit status 0 also when the program failed; numbers that are too long, data that does not fit and a file that does not begin with a token abort it. Proved:
  `C67_failure_is_silent`, `C67_aborts`.
* The statistics divide the sum of all ticks in the fetch stage, less one, by the number of instructions and call it the average of fetch stalls;
  one should be subtracted for each instruction. The same for decode stalls. Proved: `C72_stalls_wrong`, `C77_stalls_wrong`. While instructions are in flight the
  statistics cannot be shown, because an assertion fails. Proved: `C71_available`.
* `LEA R, [R + R]` reads the third element of a two-element vector (UB).
* The trap flag stays set when a step ends at a `BKPT` or a watchpoint, so the next continue stops after one instruction. Proved:
  `C21_continue_single_steps`, `C31_step_mode`.
* `POKEDATA` at a stop is not seen by a load that is already under way. Proved: `C18_stale_read`.
* A division by zero on a mispredicted path kills the VM. Proved: `C09_speculative_division`.
* `POP SP` fails an assertion. `MOV IP, x` is accepted by the assembler but does not jump; `MOV 0.5, x` is accepted, too, and throws.
  Proved: `C07_move_to_ip`, `C07_not_sensible`.
* `ADD dest, reg, val` checks `reg` instead of `dest` for special registers in `validate`. Proved: `C50_three_operands`.
* `FCMP` sets the overflow flag from `isinf`, so signed jumps after it are wrong for infinities.
* `NEG` of the least integer clears the overflow flag; `IMUL` of the least integer by -1 is UB also where overflow wraps. Proved in
  `Props/Alu`.
* Shifts by 0 or by 64 and more, `DIV`/`MOD` by zero, and least integer / -1 are UB.
* An index outside memory or text in a `PEEK`/`POKE` message kills the VM. Proved: `C35_breakpoint_outside`.
* The TCP reader does not loop over a short read of the length header. Proved: `C26_split_header`.

Assembler and printer

* `[R1 - R2]` assembles as `[R1 + R2]`; `-X` for a non-number gives the negation of the previous number; `[R1 + R2 * ]` fails an assertion.
* Bracketed addresses of 2^31 and more print as negative numbers and do not parse back. Proved: `C22_negative_address`.
* Numbers above `INT_MAX` throw `std::out_of_range`.

Native debugger

* `WriteText` over a disabled breakpoint writes `BKPT` into the debuggee. Proved: `C30_write_disabled`.
* `RemoveWatchpoint` does not write the debug registers back. Proved: `C33_still_active`, `C33_removed_hit`.
* `SetAllBreakpoints` rejects any list that has an address in common with the present one, and forgets the saved text of disabled
  breakpoints. `SetAllWatchpoints` erases while it iterates (UB).
* A `BKPT` of the program itself cannot be passed with a breakpoint on it. Proved: `C31_own_bkpt`, `C31_own_bkpt_stuck`, `C69_own_bkpt`.
* Stepping over a call ignores a disabled breakpoint behind the call and a breakpoint at the entry of the callee. Proved: `C46_disabled`,
  `C46_entry`.
* If the cell to which a CALL writes the return address is watched, stepping over the call throws the report of the watchpoint away and stops
  after one instruction of the callee with a report of a single step (`Native.cpp:129-131`). Proved: `C46_watch_lost`.
* Range checks wrap modulo 2^64, and the memory size is assumed instead of asked for. Proved: `C35_wraps`, `C35_believed_size`.
* A rejected `WriteText` is partly applied. Proved: `C35_write_applied`.
* With more than ten registers no breakpoint stop can be handled. Proved: `C34_many_registers`.

Source-level debugger

* An outer variable declared after an inner scope hides the inner one. Proved: `C39_outer_hides_inner`.
* `DEREFERENCE` in location expressions keeps its operand and dereferences offsets twice. Proved: `C40_dereference_keeps`,
  `C40_dereference_address`.
* The expression parser does not know `<=` and `>=`, ignores what follows an expression, gives `&&` and `||` a higher precedence than `==`
  and groups assignments from the left. Proved: `C42_comparison_lost`, `C42_trailing_ignored`, `C42_logical_binds_tighter`, `C42_assign_left`.
* The first token of an expression, and of an instruction typed after `assemble`, is read outside the `try`, so an error there is not reported
  as a `DebuggerError` but ends the debugger. Proved: `C59_expression_ends`, `C59_instruction_ends`.
* The parser of debugging information reads its first token in a constructor that is `noexcept`, so an error there ends the process at once
  (`Info.read`).
* The difference of two pointers counts cells, not elements; a negative array index reads outside of a vector; overflows are UB of the
  debugger; `&&` and `||` evaluate both operands. Proved: `C43_pointer_difference`, `C43_negative_index`, `C43_overflow`,
  `C43_no_short_circuit`.
* Assigning to a variable of type float stores the assigned number converted to an unsigned integer, not its bits
  (`Expression.cpp:300-309`, `324-328`: `SetRaw` takes a `uint64_t`). After `f = 1.5` the cell holds 1, which reads back as 4.9e-324:
  `C44_float`, `C44_float_truncated`. A variable whose location depends on its own contents is elsewhere after an assignment: `C44_moves`.
* The parser of debugging information takes an attribute without a name for one with the name read last, skips what it does not know,
  and does not check the closing backtick of a location. Proved: `C51_stale_name`, `C51_unknown_skipped`, `C51_backtick`.
* A step over a line passes a breakpoint at a `CALL` inside the line without reporting it. Proved: `C52_over_misses`.
* An array of characters without a zero is shown with what follows it in memory. Proved: `C55_array_overrun`.
* A type that contains itself by value recurses without end.
* The name of a pointer type that points to itself is sought without end. Proved: `C78_type_loop`. In a string, a line feed and a backslash
  followed by an `n` look alike, so `C78_distinct` leaves strings out.
* The parser of debugging information accepts the type `unsigned`, but a variable of this type cannot be read: `NOT_IMPLEMENTED` throws a
  `std::runtime_error`, which ends the debugger (Expression.cpp:47-49). Proved: `C79_unsigned`, `C79_ends` (typing `frame` is enough).
* An array of elements of an unknown type is shown as `<unknown>*` (Source.cpp:403-405), not as `<unknown>[]`; `TypeText` follows the code here.
* The flags cannot be read by name: `GetRegister("FLAGS")` is rejected. Proved: `C49_read_register`.

Configuration

* `Cpu()` calls the constructor `Cpu(registerCount, floatRegisterCount, ramSize)` with the numbers of registers, of arithmetic units and of
  entries of the reservation station: by default the machine has one float register and two memory cells. Proved: `C74_default_machine`,
  `C74_default_wrong`. The setting `-reservationStationEntriesCnt` has no other effect.
* `Reg(index)` makes the register after the last one. Proved: `C74_reg_wrong`.

* `Bp() + 1 + 2` makes the operand BP + 1 + R2: there is no operator that adds a number to an offset, and the number is converted to a
  register, as the constructor `Register(size_t)` is not explicit (`register.h:42`). Proved: `C75_second_number`.
* `(Reg(1) + Reg(2)) * 4` makes R1 + R2 * 4 (`register.cpp:69-71`). Proved: `C75_product_of_sum`.
* The message about a character that begins no token counts lines and columns from 0, all others count from 1 (`parsing.cpp:184`,
  `parser.h:87`). Proved: `C76_counted_from_zero`. An unknown name of an instruction is reported at the token after it, since the
  name is compared after the next token was read.

Command line

* `memory set x 1`, with an address that is no number, uses an uninitialised address; `assemble interactive x` and an expression that begins
  with an unfinished string end the debugger; `attach` without a port dereferences a null pointer. Proved: `C59_set_unread`,
  `C59_assemble_ends`, `C59_expression_ends`, `C59_attach`.
* A tab is a blank but not the end of a word. `breakpoint unset` is documented but not known. Proved: `C57_tab`, `C57_unset`.
* `disassemble range` does not print its end, which is documented as included. Proved: `C63_range_exclusive`.
* `disassemble range` with an end before its beginning (proved: `C63_range_reversed`), `memory get` of a range that wraps around, and `frame` with a `char*` variable that
  points outside of memory end the debuggee (a consequence of `C35_wraps`).
* `memory setstr` loses repeated blanks inside the string. Proved: `C62_blanks`.
* `breakpoint set f` for a function `f` whose first instruction begins no line dereferences an empty optional, and `enable`, `disable` and `remove` fail an
  assertion, after the breakpoint has been changed. Proved: `C65_no_line`.
* If several lines begin at the same address, setting a breakpoint on one of them reports the last one. Proved: `C65_other_line`. The list of breakpoints counts
  lines from zero, all other commands count from one. Proved: `C65_list_zero`.
* After `run` is typed again a disabled breakpoint has lost the instruction it stands for. Proved: `C64_disabled`.
* `run` with a file that is no program ends the debugger, because a `ParserError` is not caught. Proved: `C64_broken`. So does
  `run` with data that does not fit the memory asked for: the exception leaves the thread of the machine. Proved: `C64_too_big`.

Documentation

* `docs/t86-isa.md` gives JLE the condition of JL and ZF; the code tests JL or ZF, as it should. Proved: `C05_jle_table`.
