import json
P=[]
def p(id,title,statement,quant,why,anchors):
    P.append(dict(id=id,title=title,statement=statement,quantifier=quant,why_tests_cant=why,anchors=anchors))
p("C01","Signed comparison jumps are exact",
"After CMP x, y the jumps JL, JLE, JG, JGE, JE/JZ, JNE/JNZ are taken exactly when x<y, x<=y, x>y, x>=y, x=y, x!=y as signed 64-bit integers (when the subtraction is performed with two's-complement wrap-around).",
"all pairs of 64-bit operand values and all six signed conditions",
"2^128 operand pairs; the interesting ones sit at overflow boundaries and a sample cannot show that no pair is wrong",
["src/t86/cpu/alu.cpp: subtract","src/t86/instruction.cpp: CMP::execute, JL, JLE, JG, JGE, JE, JNE"])
p("C02","Unsigned comparison jumps are exact",
"After CMP x, y the jumps JA, JAE, JB, JBE are taken exactly when x>y, x>=y, x<y, x<=y as unsigned 64-bit integers.",
"all pairs of 64-bit operand values and all four unsigned conditions",
"2^128 operand pairs",
["src/t86/cpu/alu.cpp: subtract","src/t86/instruction.cpp: JA, JAE, JB, JBE"])
p("C03","ADD/SUB/INC/DEC/NEG value and flags",
"ADD, SUB, INC, DEC, NEG leave the mathematical result modulo 2^64; carry is set exactly on unsigned overflow/borrow, overflow exactly when the signed result does not fit in 64 bits, sign and zero describe the stored result (NEG clears carry and overflow always). The C++ evaluation is free of undefined behaviour exactly when the signed result fits.",
"all 64-bit operands",
"2^128 operand pairs per instruction",
["src/t86/cpu/alu.cpp: add, subtract, negate","src/t86/instruction.cpp: BinaryArithmeticInstruction::execute, UnaryArithmeticInstruction::execute"])
p("C04","MUL/DIV/IMUL/IDIV/MOD/AND/OR/XOR/NOT/LSH/RSH value and flags",
"Each instruction leaves the documented result (unsigned or signed product, truncated quotient/remainder, bitwise combination, shift), carry/overflow are set exactly when the documented condition holds, and the operation is undefined (division by zero, INT64_MIN/-1, shift count outside 1..63, signed product overflow) exactly on the listed operands.",
"all 64-bit operands of all eleven operations",
"2^128 operand pairs per instruction; undefined cases cannot be tested at all",
["src/t86/cpu/alu.cpp"])
p("C05","Flags survive the trip through the FLAGS register",
"Storing a flag set in the FLAGS register and decoding it for a conditional jump gives back the same four flags, and decoding looks at bits 0..3 only.",
"all flag combinations and all 64-bit register values",
"2^64 register values",
["src/t86/cpu/alu.cpp: Flags::operator int64_t, Flags::Flags(int64_t)"])
p("C06","Every addressing mode denotes its documented formula",
"Fetching an operand of any of the 18 operand forms reads exactly the registers it names and, for memory forms, exactly one memory cell whose address is the documented sum reg + imm + reg*scale (mod 2^64), and yields the documented value, whatever the register and memory contents; the fetch always terminates.",
"all operand forms, all register files, all memories",
"unbounded combinations of operand shapes, register contents and offsets",
["src/t86/instructions/operand.cpp: requirement, supply","src/t86/instruction.cpp: MOV::execute, LEA::execute"])
p("C07","The out-of-order pipelined CPU computes what the sequential ISA says",
"For every program and machine configuration, after any number of clock ticks the architectural state visible to a user (registers, flags, memory, output, consumed input, program counter) is the state reached by executing the retired instructions one at a time in program order.",
"all programs, all register/ALU/reservation-station/RAM-gate configurations, all initial memories, all inputs, any number of ticks",
"the state space of pipeline contents, renamings, in-flight stores and predictions is unbounded",
["src/t86/cpu.cpp: tick","src/t86/cpu/reservation_station.cpp","src/t86/cpu/register_allocation_table.cpp","src/t86/cpu/memory_writes_manager.cpp","src/t86/ram.cpp"])
p("C08","Mis-speculated instructions leave no architectural trace",
"Instructions fetched past a wrongly predicted jump never change registers, memory, output or input of the machine; recovery restarts at the real destination.",
"all programs and all pipeline states in which a prediction turns out wrong",
"needs every interleaving of wrong-path execution with older instructions",
["src/t86/cpu.cpp: unrollSpeculation, checkBranchPrediction","src/t86/cpu/reservation_station.cpp: clear"])
p("C09","Faults on a wrong path are not reported",
"A program that would run without error when executed sequentially never stops with a CPU error (and never crashes the VM) because of an instruction that was only fetched speculatively.",
"all programs and pipeline states",
"depends on timing between a slow jump and a faulting younger instruction",
["src/t86/cpu/reservation_station.cpp: Entry::readMemory, Entry::retire","src/t86/cpu/alu.cpp: divide"])
p("C10","Single-stepping retires exactly one instruction",
"Resuming with the trap flag set stops again after exactly one instruction has taken effect, with an empty pipeline and IP naming the next instruction.",
"all programs, all machine states at a stop, any instruction",
"every instruction kind in every pipeline state",
["src/t86/cpu/reservation_station.cpp: Entry::retire","src/t86/cpu.cpp: tick","src/t86/debug.cpp: Work"])
p("C11","A software breakpoint stops precisely",
"When BKPT retires the machine stops with interrupt 3, every older instruction has taken effect, no younger one has, and IP is the address after BKPT.",
"all programs and pipeline states",
"younger instructions may already have executed out of order when the breakpoint retires",
["src/t86/instruction.cpp: BKPT::retire","src/t86/cpu.cpp: tick, unrollSpeculation"])
p("C12","Watchpoints trigger exactly on retired writes to watched cells",
"A retiring store raises the hardware-breakpoint interrupt exactly when some active debug register holds the stored address, and the control register then identifies a matching register; the debugger decodes that register.",
"all debug register contents and store addresses",
"2^64 addresses times all control register values",
["src/t86/cpu.cpp: checkWrite","src/debugger/Arch.h: GetResponsibleRegister"])
p("C13","Renaming never runs out of physical registers and never clobbers a live value",
"At every reachable state the reference count of a physical register equals the number of live table entries naming it, a register handed out by renaming is named by no live table, and allocation never fails.",
"all histories of rename/copy/destroy/unroll and all configurations",
"unbounded histories",
["src/t86/cpu/register_allocation_table.cpp","src/t86/cpu.cpp: renameRegister, nextFreeRegister"])
p("C14","Loads see the program-order latest store",
"A load that is answered (by forwarding or by RAM) gets the value of the youngest older store to that address, or the memory content if there is none, even though stores complete later and reads take several ticks and may be left over from cancelled instructions.",
"all interleavings of loads, stores, ticks and cancellations",
"unbounded interleavings; stale in-flight reads are only visible in rare schedules",
["src/t86/ram.cpp","src/t86/cpu/memory_writes_manager.cpp","src/t86/cpu.cpp: readMemory"])
p("C15","RAM latency and gates",
"A read that is accepted becomes available after exactly readLatency ticks and stays available for that tick; at most gatesCnt reads are in flight; a write is visible to direct inspection immediately and is reported pending for exactly writeLatency+1 ticks unless superseded.",
"all sequences of reads, writes and ticks",
"unbounded histories",
["src/t86/ram.cpp"])
p("C16","PUSH/POP and CALL/RET are inverse",
"PUSH v followed by POP r puts v in r and restores SP; CALL d followed by RET resumes after the call with SP restored; memory outside the used cell is untouched.",
"all machine states with a valid stack cell, all values and registers",
"all 64-bit values and stack positions",
["src/t86/instruction.cpp: PUSH, POP, FPUSH, FPOP, CALL, RET"])
p("C17","The pipeline never deadlocks",
"As long as no fault or stop occurs, the oldest instruction retires after a bounded number of ticks, so every program that halts sequentially also halts on the CPU.",
"all programs of parseable instructions, all reachable pipeline states",
"liveness over unbounded executions",
["src/t86/cpu.cpp: tick","src/t86/cpu/reservation_station.cpp","src/t86/ram.cpp"])
p("C18","Memory written by the debugger is what the program reads next",
"After the debugger writes a memory cell at a stop, the next load of that cell by the resumed program returns the written value.",
"all stop states, addresses and values",
"depends on stores and reads still in flight at the stop",
["src/t86/debug.cpp: Work (POKEDATA)","src/t86/cpu.cpp: setMemory, readMemory","src/t86/ram.cpp: set"])
p("C19","Stop reasons reach the debugger unchanged",
"The reason string reported for a stop (START, SW_BKPT, HW_BKPT, SINGLESTEP, HALT, CPU_ERROR) is decoded by the debugger to the matching event and every other reply is rejected; an interrupt number has exactly one reason.",
"all interrupt numbers, all reply strings",
"all strings",
["src/t86/os.cpp: DispatchInterrupt","src/t86/debug.cpp: ReasonToString","src/debugger/T86Process.cpp: GetReason"])
p("C20","Debug protocol peek/poke round trips",
"After a POKE of a register, float register, debug register, memory cell or instruction, the corresponding PEEK returns the poked value and every other observable is unchanged; PEEK commands and unknown commands change nothing.",
"all machine states, all indices and values, all command sequences",
"unbounded sequences and 64-bit values",
["src/t86/debug.cpp: Work","src/debugger/T86Process.cpp"])
p("C21","Continue runs to the next real stop",
"After any stop, CONTINUE never reports a single-step stop.",
"all histories of steps and continues",
"needs specific histories (a step that lands on a breakpoint)",
["src/t86/debug.cpp: Work","src/t86/cpu.cpp: setTrapFlag, unsetTrapFlag, tick"])
p("C22","Instruction text round trip",
"The text shown for an instruction is accepted by the assembler and yields the same instruction, so writing back an instruction that was read (as breakpoint removal does) restores the program.",
"all instructions the assembler can produce",
"infinitely many instructions",
["src/t86/instruction.cpp: Instruction::toString","src/t86/instructions/operand.cpp: toString","src/t86-parser/parser.cpp: Instruction"])
p("C23","Layout does not change an assembled program",
"Inserting blanks, newlines between tokens or comments does not change the token sequence, and hence the assembled program.",
"all token sequences and all layouts",
"infinitely many layouts",
["src/common/parsing.cpp: Lexer::getNext"])
p("C24","Data section layout",
"The data section is the concatenation of its items in order: a number is one cell, a string is one cell per character followed by a zero cell; program start copies exactly these cells to memory from address 0.",
"all data sections",
"unbounded sections",
["src/t86-parser/parser.cpp: Data","src/t86/cpu.cpp: start"])
p("C25","String helper laws",
"split yields exactly the maximal non-empty runs between delimiters, join of the pieces of a delimiter-free list splits back to that list, is_prefix_of is the prefix relation, squash_strip_whitespace leaves single inner blanks and is idempotent.",
"all strings and delimiters",
"infinitely many strings",
["src/common/helpers.h"])
p("C26","Message framing over TCP",
"The sequence of messages received is the sequence sent, for every message content and however the network splits the byte stream.",
"all message sequences, all splittings of the stream",
"unbounded schedules of partial reads",
["src/common/TCP.h: Send, Receive"])
p("C27","In-process messenger is a FIFO in both directions",
"Messages sent by one side are received by the other in order, none lost, duplicated or invented, for any interleaving of sends and receives.",
"all interleavings",
"unbounded schedules",
["src/common/threads_messenger.h"])
p("C28","Breakpoints are invisible to the debugger user",
"Whatever breakpoints have been set, enabled, disabled or removed, reading the program text through the debugger shows the original instructions.",
"all histories of breakpoint operations and text reads/writes",
"unbounded histories",
["src/debugger/Native.cpp: ReadText, SetBreakpoint, EnableSoftwareBreakpoint, DisableSoftwareBreakpoint"])
p("C29","Removing breakpoints restores the program",
"Once every breakpoint is removed or disabled the debuggee's program text equals the original text (plus explicit text writes).",
"all histories of breakpoint and text operations",
"unbounded histories",
["src/debugger/Native.cpp: UnsetBreakpoint, DisableSoftwareBreakpoint, WriteText"])
p("C30","A breakpoint is armed exactly when it is enabled",
"The debuggee's text holds BKPT at an address exactly when the debugger lists an enabled breakpoint there (or the program itself has BKPT there).",
"all histories of breakpoint operations",
"unbounded histories",
["src/debugger/Native.cpp: CreateSoftwareBreakpoint, WriteText"])
p("C31","Resuming from a breakpoint runs the original instruction and re-arms the breakpoint",
"Continuing or stepping from an address with an enabled breakpoint executes the original instruction once and leaves the same breakpoints armed.",
"all debugger and debuggee states",
"all program states",
["src/debugger/Native.cpp: StepOverBreakpoint, ContinueExecution, PerformSingleStep"])
p("C32","Watchpoint registers are allocated without conflict",
"Each watchpoint has its own debug register holding its address with its activation bit set; at most four exist; a fifth request and a duplicate request are rejected without changing anything.",
"all histories of watchpoint operations",
"unbounded histories",
["src/debugger/Native.cpp: SetWatchpointWrite, GetFreeDebugRegister","src/debugger/Arch.h: SetDebugRegister, ActivateDebugRegister, DeactivateDebugRegister"])
p("C33","Removing a watchpoint stops it from triggering",
"After a watchpoint is removed, writes to its address no longer interrupt the debuggee.",
"all histories of watchpoint operations and writes",
"unbounded histories",
["src/debugger/Native.cpp: RemoveWatchpoint"])
p("C34","A breakpoint stop reports the breakpoint's address and leaves IP there",
"When the debuggee stops on an armed breakpoint the reported address and the IP seen afterwards are the address of the breakpoint.",
"all breakpoint addresses and debuggee states",
"all addresses; cached events",
["src/debugger/Native.cpp: MapReasonToEvent, WaitForDebugEvent"])
p("C35","Out-of-range memory and text accesses are rejected",
"Debugger reads and writes that do not lie completely within memory/text are rejected with an error and change nothing.",
"all 64-bit addresses and lengths",
"2^128 address/length pairs, wrap-around",
["src/debugger/T86Process.cpp: ReadMemory, WriteMemory","src/debugger/Native.cpp: ReadText, WriteText"])
p("C36","Line/address mapping",
"Looking up the address of a line and the line of an address agree with the mapping table: an address maps to the greatest line mapped to it, a line to its own address, and unmapped ones to nothing.",
"all line mappings, lines and addresses",
"unbounded tables",
["src/debugger/Source/LineMapping.cpp","src/debugger/Source/Source.cpp: AddrToLine, LineToAddr"])
p("C37","Source lines",
"Line i of the loaded source file is the i-th newline-terminated piece of the file text and joining the lines reproduces the text.",
"all file contents",
"unbounded texts",
["src/debugger/Source/SourceFile.h","src/debugger/Source/SourceFile.cpp"])
p("C38","Function lookup by address and by name agree",
"An address inside the range of a function (and of no other) is attributed to that function; its name looks up its own range.",
"all function tables and addresses",
"unbounded tables",
["src/debugger/Source/Source.cpp: GetFunctionNameByAddress, GetFunctionAddrByName"])
p("C39","Variable lookup obeys scoping",
"The variables visible at an address are exactly those of the enclosing scopes, and an inner declaration hides an outer one of the same name.",
"all debug-information trees and addresses",
"unbounded trees",
["src/debugger/Source/Source.cpp: FindVariables, GetActiveVariables"])
p("C40","Location expressions evaluate as specified",
"PUSH/BASE_REG_OFFSET/ADD/DEREFERENCE expressions evaluate on the debuggee state to the documented register or address.",
"all location expressions and debuggee states",
"unbounded expressions",
["src/debugger/Source/ExpressionInterpreter.cpp"])
p("C41","Type sizes",
"The size computed for a type is the documented one: primitives and pointers one cell, arrays length times element size, structures their declared size.",
"all type trees",
"unbounded nesting",
["src/debugger/Source/Source.h: GetTypeSize"])
p("C42","Expression grammar",
"Every printed expression tree (with the parentheses the documented precedence requires) parses back to the same tree, for all operators.",
"all expression trees",
"infinitely many expressions",
["src/debugger/Source/ExpressionParser.cpp"])
p("C43","Expression evaluation is 64-bit C-like arithmetic",
"Evaluating an expression over integer variables yields the value of the corresponding 64-bit arithmetic, pointers advance by the pointed-to size, division by zero is rejected.",
"all expression trees and variable values",
"infinitely many expressions",
["src/debugger/Source/Expression.cpp"])
p("C44","Assignment through the debugger stores the assigned value",
"After assigning to a variable, reading the variable yields the assigned value and no other location changes.",
"all locations, types and values",
"all 64-bit values, all float values",
["src/debugger/Source/Expression.cpp: Assignment, SetRaw, EvaluateTypeAndLocation"])
p("C45","Program builder labels",
"The label returned when adding an instruction is its address in the built program, patching changes exactly the named jump's destination, data labels point at the added data.",
"all sequences of builder calls",
"unbounded call sequences",
["src/t86/program/programbuilder.h"])
p("C46","Step over executes a call as one step",
"Stepping over a CALL whose callee returns stops at the instruction after the call with the original set of breakpoints; stepping over another instruction is a single step.",
"all debuggee programs and breakpoint sets",
"unbounded callee behaviours",
["src/debugger/Native.cpp: PerformStepOver"])
p("C47","In-order retirement and I/O order",
"Instructions retire in program order; characters and numbers printed, and input consumed, appear in program order, each exactly once.",
"all programs and pipeline states",
"out-of-order completion",
["src/t86/cpu/reservation_station.cpp: executeAndRetire","src/t86/instruction.cpp: PUTCHAR, PUTNUM, GETCHAR"])
p("C48","Resource counts of the reservation station",
"The number of occupied entries never exceeds the configured maximum and free ALUs plus entries executing on an ALU always equals the configured ALU count.",
"all programs, configurations and ticks",
"unbounded executions, including flushes in the middle of execution",
["src/t86/cpu/reservation_station.cpp"])
p("C49","Memory and registers are read and written exactly",
"At a stop, reading memory returns the program's cells in order and reading a register returns its value; writing memory or a register changes exactly the named cells or register, and what was written is read back; reads change nothing; unknown register names are rejected.",
"all stops of all debugging sessions, all addresses, lengths, values and register names",
"every reachable debuggee state, renamed registers and pending memory writes included",
["src/debugger/Native.cpp: ReadMemory, SetMemory, GetRegister, SetRegister","src/debugger/T86Process.cpp: ReadMemory, SetMemory, FetchRegisters, SetRegisters","src/t86/debug.cpp: Work"])
p("C50","The program builder rejects instructions that overwrite special registers",
"Adding an instruction fails exactly when the instruction would overwrite a register it has to spare: IP and FLAGS for arithmetic and MOV, these and SP and BP for LEA, IP for POP.",
"all instructions, all builder states",
"all combinations of instructions and operands",
["src/t86/program/programbuilder.h: add","src/t86/instruction.cpp: validate"])
p("C51","Debugging information is read as written",
"A file in the documented format, laid out in any way (white space, comments, order and repetition of sections, optional separators), is read as exactly the line table, the tree of entries and the source lines it writes down; the same file assembles to exactly its program, whatever debugging sections surround it; and reading ends for every text.",
"all line tables, all trees of entries of any depth, all source texts, all layouts; for termination all texts",
"unboundedly many files and layouts, with entries nested to any depth",
["src/debugger/Source/Parser.cpp: Parser","src/t86-parser/parser.cpp: Parser::Parse","src/common/parsing.cpp: Lexer"])
p("C52","Stepping by source lines reaches the next line",
"A step by source lines executes the current instruction and then every instruction up to the first one at which a line of the line table begins, and stops there; if it meets a breakpoint, a BKPT, a watched write or the end before, it stops there and reports that. A step over does the same but passes each call on the way, with its callee, as one instruction. Breakpoints and watchpoints are the same afterwards.",
"all programs, all line tables, all states of a debugger session, any number of instructions in a line, any number of calls and any depth of recursion",
"unboundedly many programs, line tables and session histories; lines of any length",
["src/debugger/Source/Source.cpp: StepIn, StepOver","src/debugger/Native.cpp: PerformStepOver, DoRawSingleStep"])
p("C53","Stepping out leads to the caller",
"Stepping out executes instructions, each call with its callee as one, up to and including the first RET at this level, and stops at the instruction after it.",
"all programs, all states of a debugger session, any number of instructions and calls before the RET",
"unboundedly many programs and session histories; functions of any length",
["src/debugger/Native.cpp: PerformStepOut, PerformStepOver"])
p("C54","Breakpoints on lines and functions are at their first instruction",
"Setting, enabling, disabling or removing the breakpoint of a source line works on the instruction at which the line begins by the line table and on no other one; a line at which no instruction begins is refused without any effect. A place given as text is a line number, counted from 1, or the name of a function, meaning its first instruction.",
"all line tables, all lines, all function names, all states of a debugger session",
"unboundedly many line tables and session histories",
["src/debugger/Source/Source.cpp: SetSourceSoftwareBreakpoint, UnsetSourceSoftwareBreakpoint, EnableSourceSoftwareBreakpoint, DisableSourceSoftwareBreakpoint, GetAddressFromString"])
p("C55","Values are shown as they are",
"A pointer to char is shown with exactly the bytes in memory from its address up to the first zero (newline and tab escaped), and with an error if there is no zero before the end of memory; an integer or another pointer is shown as a number that denotes its value. Showing does not change the debuggee.",
"all memory contents, all addresses, strings of any length, all 64-bit values",
"strings of any length at any address; all 64-bit values",
["src/debugger/Source/Source.cpp: ReadMemoryAsString, TypedValueToString"])
p("C56","Earlier results keep their number and value",
"Each evaluated expression whose result is kept gets the next number, from 0 on; from then on `$k` evaluates to the result with the number k, however it is written, at every stop, whatever has been evaluated or executed since.",
"all sequences of evaluations of any expressions, all stops in between, all ways to write `$k`",
"unboundedly long sequences of evaluations and executions",
["src/debugger/Source/Source.cpp: EvaluateExpression","src/debugger/Source/Expression.cpp: ExpressionEvaluator","src/debugger/Source/ExpressionParser.cpp: primary"])
p("C57","Commands may be shortened, and help is found under the same words",
"The first word of a line is understood as the first command, in the documented order, whose name begins with it; each full name means its command; only the words of a line matter, not the blanks around them; `help` followed by a word tells about the command for which this word stands; any other word is answered with the list of commands.",
"all lines, all words, all states of the debugger",
"all texts a user may type",
["src/dbg-cli/CLI.h: HandleCommand, HandleHelp, check_command, Run","src/common/helpers.h: squash_strip_whitespace"])
p("C58","A program that has finished stays finished",
"When a command makes the program reach its end, this is reported. From then on, whatever is typed, commands that would execute instructions are refused without any effect, until the program is started again.",
"all lines, all sequences of lines, all programs, all states of the debugger",
"unboundedly many sessions",
["src/dbg-cli/CLI.h: HandleContinue, HandleStep, HandleNext, HandleFinish, HandleStepi, HandleINext, ReportDebugEvent"])
p("C59","A line that is not understood has no effect",
"Before a program is started commands only print a hint; an empty line does nothing; a parameter that should be an address and is not one is reported as an error, and nothing else happens.",
"all lines, all parameters, all states of the debugger",
"all texts a user may type",
["src/dbg-cli/CLI.h: HandleCommand, ParseAddress, HandleBreakpoint, HandleWatchpoint, HandleDisassemble, HandleSource, HandleMemory, HandleAssemble"])
p("C60","What is proved of debugging sessions holds for what is typed",
"Each line that is carried out without an error leads from a state of a debugging session to a state of the same session: the debugger still shows the program text without its breakpoints, and the program still behaves as if it had not been stopped.",
"all lines, all sequences of lines, all programs, all states of a debugger session",
"unboundedly many lines and session histories",
["src/dbg-cli/CLI.h: Cli"])
p("C61","Memory and registers on the command line",
"`memory get` and `memory getstr` print exactly the cells asked for, as numbers after their addresses or as characters. `memory set` replaces exactly the cells from the address on by the values. Cells outside of memory are refused without a change. `register`, `register get` and `register set` print and replace exactly the registers of the machine, and refuse other names.",
"all addresses, amounts, values, registers and names, in every state of a debugger session in which the machine stands still at these cells",
"unboundedly many machine states and parameters",
["src/dbg-cli/CLI.h: HandleMemory, HandleRegister"])
p("C62","Strings are stored as written",
"`memory setstr` stores the characters of the quoted string, with escapes replaced, and a zero in consecutive cells from the address on and changes no other cell.",
"all strings and ways to quote them, all addresses, all states of a debugger session",
"unboundedly many strings",
["src/dbg-cli/CLI.h: HandleMemory", "src/common/helpers.h: utils"])
p("C63","Listings show the program as written, with breakpoints and the next instruction",
"`disassemble range`, `from`, `function` and `disassemble` alone print exactly the instructions asked for, each with its address, as the program was written (without the breakpoints in it), and mark the breakpoints, whether they are enabled, and the next instruction. `source` and `source from` do the same for source lines.",
"all programs, addresses, amounts, debugging information and states of a debugger session",
"unboundedly many programs, ranges and session histories",
["src/dbg-cli/CLI.h: HandleDisassemble, HandleSource, PrintText, PrintCode, PrettyPrintText, GetPrettyBp, GetPrettyBpForLine"])
p("C64","A program is started, and started again, from its beginning",
"`run` starts the program of the file on a machine of the requested size, stopped before its first instruction with its data in memory, and all breakpoints and watchpoints of an earlier run are in place again.",
"all files, options, and states of the debugger before",
"unboundedly many programs and sets of breakpoints",
["src/dbg-cli/CLI.h: HandleRun, ParseOptionalCommand, ParseProgram", "src/debugger/Native.cpp: SetAllBreakpoints, SetAllWatchpoints"])
p("C65","Breakpoints and watchpoints on the command line",
"`breakpoint iset`, `ienable`, `idisable`, `iremove` with an address and `set`, `enable`, `disable`, `remove` with a line or a function change exactly the breakpoint at that address, at the beginning of that line or at the beginning of that function, say so, and change nothing else; if the breakpoint is not there (or already there, for setting), they are refused without any effect. `watchpoint iset` and `irem` do the same for watched addresses, of which there are at most four. `breakpoint list` and `watchpoint list` print each of them once, sorted by address.",
"all addresses, lines, function names, debugging information and states of a debugger session",
"unboundedly many programs, line tables and session histories",
["src/dbg-cli/CLI.h: HandleBreakpoint, HandleWatchpoint"])
p("C66","At every stop the debugger says why and shows where",
"After `istep`, `inext`, `step`, `next`, `finish` and `continue` the debugger reports the event, unless it is the end of a step, and shows the place of the next instruction: the instructions around it for the commands on instructions, the source lines around it otherwise (if there is a line). The program has executed one instruction after `istep`, the instructions up to the next beginning of a line after `step`, and all instructions up to the next event after `continue`, and the breakpoints and watchpoints are the same as before.",
"all programs, inputs, debugging information, lines typed and states of a debugger session",
"unboundedly many programs and session histories",
["src/dbg-cli/CLI.h: SourceLevelStep, NativeLevelStep, HandleFinish, HandleContinue, ReportDebugEvent, ReportBreak, PrettyPrintText, PrettyPrintCode"])
p("C67","Running a file prints exactly what its instructions print",
"`t86-cli FILE` assembles the file and runs it: if the instructions of the file, executed one after the other from cleared registers and memory with the data of the file, come to a halt, the process ends with exit status 0 and has printed exactly what they print. At any time before, what has been printed is what some first part of the instructions prints. A file that is not a program is refused with an exit status other than 0, and nothing runs.",
"all files, machine sizes, inputs and numbers of clock ticks",
"unboundedly many programs and lengths of execution",
["src/t86-cli/main.cpp: main", "src/t86/os.cpp: OS::Run, OS::DispatchInterrupt", "src/t86/cpu.cpp: Cpu::start, Cpu::tick"])
p("C68","Undefined behaviour has its cause in the program",
"If the behaviour of the machine becomes undefined, then the program, executed one instruction after the other, gets to a state in which one of the next few instructions along the path the processor expects (as many as it works on at once) has no result (a division by zero or one that overflows, a shift by too much, reading input that is at its end, a number out of range), is a LEA of the sum of two registers, or writes to the same cell as another of them. So a program that avoids this runs, halts and fails exactly as its instructions do when they are executed in order, and a run of its file ends having printed exactly what they print.",
"all programs, data, inputs, machine sizes and numbers of clock ticks, where signed overflow wraps",
"unboundedly many programs, and which instructions are in flight together depends on the timing of memory and the other instructions",
["src/t86/cpu.cpp: Cpu::tick", "src/t86/cpu/reservation_station.cpp: ReservationStation::executeAll", "src/t86/cpu/memory_writes_manager.cpp", "src/t86/cpu/alu.cpp", "src/t86-cli/main.cpp: main"])
p("C69","Watching a program does not change what it does",
"In a debugging session in which nothing is written, whatever is read, wherever breakpoints and watchpoints are set, disabled, hit and removed, and however the program is stepped and continued: the debugger always shows a state that the program gets to by itself, every call takes the program forward by executing its own instructions, and calls that only look execute none. What the program has printed in the session is the beginning of what it prints when it is run without a debugger, and all of it when it has come to its end. The same holds for lines typed at the command line that write nothing. The program has no BKPT of its own.",
"all programs without BKPT, data, inputs, machine sizes, sequences of successful calls, or of typed lines that are carried out, of any length",
"unboundedly many programs, and unboundedly many histories of breakpoints, watchpoints, steps and continues; the debugger replaces instructions and steps over its own replacements behind the back of the program",
["src/debugger/Native.cpp: Native::SetBreakpoint, Native::PerformSingleStep, Native::PerformStepOver, Native::ContinueExecution, Native::WaitForDebugEvent", "src/debugger/T86Process.cpp", "src/t86/debug.cpp: Debug::Work", "src/t86/cpu.cpp: Cpu::tick", "src/dbg-cli/CLI.h: Cli::HandleCommand"])
p("C70","The statistics count what was executed",
"Keeping statistics does not change what the processor does. When a program has halted, the instructions counted are exactly the instructions executed, in order, one that was executed several times as many times and none that was fetched only because of a wrong prediction, and the number of ticks is the number of ticks the processor worked. At any time before, the instructions counted are those executed so far and then those in the pipeline.",
"all programs, data, inputs, machine sizes and numbers of clock ticks",
"unboundedly many programs and lengths of execution; instructions fetched by mistake have to disappear from the statistics again at every wrong prediction",
["src/t86/utils/stats_logger.cpp: StatsLogger::registerNewInstruction, logPipelineUnroll, processBasicStats", "src/t86/cpu.cpp: Cpu::tick, Cpu::unrollSpeculation"])
p("C71","The life time of an instruction is the time it spent in the processor",
"When a program has halted, the life time the statistics compute for each instruction executed is the number of ticks from its fetch to its retirement, its parts are the numbers of ticks it spent in each stage, no tick is counted twice or left out, and the time of execution is the one its kind of instruction takes. The statistics can be shown exactly when no instruction is in flight; otherwise an assertion fails.",
"all programs, data, inputs, machine sizes and numbers of clock ticks",
"unboundedly many programs; how long an instruction waits depends on all instructions in flight with it",
["src/t86/utils/stats_logger.cpp: StatsLogger::accumulativeInstructionLifeTime, processBasicStats", "src/t86/utils/stats_logger.h: StatsLogger::InstructionLifeTime"])
p("C72","The averages shown are averages over the instructions executed",
"When a program has halted, each of the averages shown (life time, stalls in the fetch and the decode stage, waiting for an ALU, executing, waiting for retirement, retirement) is the sum of that time over the instructions executed, divided by their number.",
"all programs, data, inputs and machine sizes",
"unboundedly many programs and lengths of execution",
["src/t86/utils/stats_logger.cpp: StatsLogger::processAverageLifetime, accumulativeInstructionLifeTime"])
p("C73","Control comes back to the debugger",
"At a stop, a single step comes back after exactly one instruction, and continuing comes back when the program, executed one instruction after the other, comes to its end, to a breakpoint or to a watched write; what is reported is exactly that, and the program is then in the state the sequential machine is in. Stepping over a call comes back when the callee returns without meeting any of these, however often it calls itself; in the same way stepping into or over a source line comes back when the program comes to the beginning of a line, and stepping out of a function when the function returns. If one of these is met before, they come back there and report it, unless it is a breakpoint on a call that is stepped over or the write of the return address by such a call. The lines istep, inext, step, next, finish and continue typed at the debugger come back likewise, and show where the program is. The machine needs at most 24 ticks for each instruction. The only other outcome is undefined behaviour of the machine, and if overflow is defined this needs a hazardous state (C68) on the way. For watched writes no debug register is left over from a removed watchpoint (C33).",
"all programs, data, inputs, machine sizes, breakpoints, watchpoints and histories of the debug session",
"that something always comes back is a liveness property of the pipelined machine and the message exchange; it needs an argument about progress, not runs",
["src/debugger/Native.cpp: Native::PerformSingleStep, PerformStepOver, PerformStepOut, ContinueExecution, WaitForDebugEvent, MapReasonToEvent","src/debugger/Source/Source.cpp: Source::StepIn, StepOver","src/dbg-cli/CLI.h: Cli::HandleCommand","src/debugger/T86Process.cpp: T86Process::Singlestep, ResumeExecution, Wait, GetReason","src/t86/cpu.cpp: Cpu::tick","src/t86/os.cpp: OS::run","src/t86/debug.cpp"])
p("C74","The settings are those of the command line",
"A program that uses the library and hands its command line to the configuration gets exactly the settings the command line says: an option -NAME=VALUE sets NAME to everything after the first equals sign, the flags for verbose output and for the mode and the name of the input have their meaning, nothing else is set except that verbose output is on, and a command line that speaks about a setting twice is rejected. A machine made afterwards has, for each size its maker does not give, the size the command line says or the default, and register operands can be made for the registers of that machine only.",
"all command lines, that is, all lists of strings, and all sizes given by the maker",
"unboundedly many command lines, with every combination, order and repetition of options",
["src/common/config.h: Config::parse, setOption, get, setDefaultIfMissing, interactive, input", "src/t86/cpu.cpp: Cpu::Config, Cpu::Cpu", "src/t86/program/helpers.cpp: Reg"])
p("C75","An operand written as an expression over registers has the value of the expression",
"When a user of the library writes an operand with the operators for registers, such as Mem(Bp() - 3) or Reg(1) + 2 - Reg(2) * 4, and this compiles, the operand the machine evaluates has the value of that expression in 64-bit arithmetic, whatever is in the registers. Every form of operand can be written, and writing one is not undefined behaviour unless the least 64-bit number is to be negated.",
"all expressions over registers and numbers with plus, minus and times, all contents of registers and memory",
"unboundedly many expressions, and which operator is chosen depends on types and implicit conversions",
["src/t86/cpu/register.cpp", "src/t86/cpu/register.h", "src/t86/program/helpers.cpp: Mem", "src/t86/instructions/operand.cpp: Operand::supply"])
p("C76","A message about a rejected text names the place",
"When a program, an instruction typed in, an expression or debugging information is rejected, the message names the line and the column, counted from 1, of the first character of the token at which reading stopped: all tokens before it were accepted as the beginning of a text, and none after it was looked at. Keeping track of positions does not change what is accepted.",
"all texts, with any comments, blank lines, indentation and strings over several lines",
"unboundedly many texts, each of which can be wrong at any place",
["src/common/parsing.h: Lexer::GetChar, RecordTokLoc, MakeToken", "src/common/parsing.cpp: Lexer::getNext, ParseNumber, ParseString", "src/t86-parser/parser.h: Parser::CreateError", "src/debugger/Source/Parser.h: CreateError", "src/debugger/Source/ExpressionParser.h: CreateError"])
p("C77","The detailed statistics tell the kinds of instructions apart",
"When a program has halted, the detailed statistics show one group of averages for each kind of instruction that was executed, a kind being the name of the instruction and the forms of its operands. Each group counts exactly the instructions of its kind that were executed, its averages are averages over these, and the groups together count every instruction executed. Different kinds have different headings.",
"all programs, data, inputs and machine sizes",
"unboundedly many programs, with any mixture of kinds and any lengths of execution",
["src/t86/utils/stats_logger.cpp: StatsLogger::processDetailedStats, processAverageLifetime", "src/t86/instruction.cpp: Instruction::getSignature, Signature::toString", "src/t86/instructions/operand.cpp: Operand::getType, typeToString"])
p("C78","Values and types are shown as they are",
"The debugger shows a value of type int in decimal notation with its sign, a pointer as an unsigned number, a character between apostrophes, a pointer to char and an array of char together with the string, any other array as the list of its members and a structure as the list of its members with their names. Its type is shown by its name, with an asterisk for each pointer and brackets for each array. What is printed determines the value: two values of one type without strings and floating-point numbers are shown alike only if they are the same. Showing a value changes nothing.",
"all types, values with any nesting of arrays and structures, memories and machine states at a stop",
"unboundedly many nestings, lengths and contents of memory",
["src/debugger/Source/Source.cpp: Source::TypedValueToString, TypedValueTypeToString, TypeToString", "src/debugger/Source/Type.h: FromPrimitiveType", "src/dbg-cli/CLI.h: HandleExpression"])
p("C79","Variables have the value that is stored where they are",
"Evaluating the name of a variable in scope at a stop gives the value of its declared type at the location its debugging information denotes in the stopped machine: a number, character or pointer is the content of that cell or register; the members of a structure are at their offsets and the elements of an array one after another, in any nesting. What a pointer points to, a member by . or -> and an element by [] are the values at those places. The variables in scope are exactly the visible ones, each once, and frame prints the function with its addresses and a line for each of them with type, name and value. Reading changes nothing.",
"all programs, stops, debugging information, types with any nesting, locations and contents of memory and registers",
"unboundedly many nested types, scopes, locations and memory contents",
["src/debugger/Source/Expression.cpp: ExpressionEvaluator::EvaluateTypeAndLocation, Dereference, Visit", "src/debugger/Source/Source.cpp: Source::GetVariableLocation, GetVariableTypeInformation, GetScopedVariables", "src/debugger/Source/ExpressionInterpreter.cpp: ExpressionInterpreter::Interpret", "src/dbg-cli/CLI.h: HandleFrame, PrintFunctionInfo"])
p("C80","The debugger carries out its input line by line",
"The debugger takes the lines of its input in order and carries out one after another until the input ends or a line ends it; the session is determined by its input, and what it prints for the first lines does not depend on those to come. Blank lines do nothing. Only assemble takes further lines of the input, namely those of its block. An error in a command is reported and the debugger goes on with the next line. Whatever has been printed stays printed. At the end of the input a program that still runs is ended.",
"all inputs of any length, all states of the debugger and of the program",
"unboundedly many sessions, and what a line does depends on all lines before it",
["src/dbg-cli/CLI.h: Cli::Run, HandleCommand, InteractiveAssemble, ExitProcess", "src/dbg-cli/main.cpp: main"])
with open('/verif/properties.jsonl','w') as f:
    for x in P: f.write(json.dumps(x)+"\n")
print(len(P))
