{"id": "C01", "title": "Signed comparison jumps are exact", "statement": "After CMP x, y the jumps JL, JLE, JG, JGE, JE/JZ, JNE/JNZ are taken exactly when x<y, x<=y, x>y, x>=y, x=y, x!=y as signed 64-bit integers (when the subtraction is performed with two's-complement wrap-around).", "quantifier": "all pairs of 64-bit operand values and all six signed conditions", "why_tests_cant": "2^128 operand pairs; the interesting ones sit at overflow boundaries and a sample cannot show that no pair is wrong", "anchors": ["src/t86/cpu/alu.cpp: subtract", "src/t86/instruction.cpp: CMP::execute, JL, JLE, JG, JGE, JE, JNE"]}
{"id": "C02", "title": "Unsigned comparison jumps are exact", "statement": "After CMP x, y the jumps JA, JAE, JB, JBE are taken exactly when x>y, x>=y, x<y, x<=y as unsigned 64-bit integers.", "quantifier": "all pairs of 64-bit operand values and all four unsigned conditions", "why_tests_cant": "2^128 operand pairs", "anchors": ["src/t86/cpu/alu.cpp: subtract", "src/t86/instruction.cpp: JA, JAE, JB, JBE"]}
{"id": "C03", "title": "ADD/SUB/INC/DEC/NEG value and flags", "statement": "ADD, SUB, INC, DEC, NEG leave the mathematical result modulo 2^64; carry is set exactly on unsigned overflow/borrow, overflow exactly when the signed result does not fit in 64 bits, sign and zero describe the stored result (NEG clears carry and overflow always). The C++ evaluation is free of undefined behaviour exactly when the signed result fits.", "quantifier": "all 64-bit operands", "why_tests_cant": "2^128 operand pairs per instruction", "anchors": ["src/t86/cpu/alu.cpp: add, subtract, negate", "src/t86/instruction.cpp: BinaryArithmeticInstruction::execute, UnaryArithmeticInstruction::execute"]}
{"id": "C04", "title": "MUL/DIV/IMUL/IDIV/MOD/AND/OR/XOR/NOT/LSH/RSH value and flags", "statement": "Each instruction leaves the documented result (unsigned or signed product, truncated quotient/remainder, bitwise combination, shift), carry/overflow are set exactly when the documented condition holds, and the operation is undefined (division by zero, INT64_MIN/-1, shift count outside 1..63, signed product overflow) exactly on the listed operands.", "quantifier": "all 64-bit operands of all eleven operations", "why_tests_cant": "2^128 operand pairs per instruction; undefined cases cannot be tested at all", "anchors": ["src/t86/cpu/alu.cpp"]}
{"id": "C05", "title": "Flags survive the trip through the FLAGS register", "statement": "Storing a flag set in the FLAGS register and decoding it for a conditional jump gives back the same four flags, and decoding looks at bits 0..3 only.", "quantifier": "all flag combinations and all 64-bit register values", "why_tests_cant": "2^64 register values", "anchors": ["src/t86/cpu/alu.cpp: Flags::operator int64_t, Flags::Flags(int64_t)"]}
{"id": "C06", "title": "Every addressing mode denotes its documented formula", "statement": "Fetching an operand of any of the 18 operand forms reads exactly the registers it names and, for memory forms, exactly one memory cell whose address is the documented sum reg + imm + reg*scale (mod 2^64), and yields the documented value, whatever the register and memory contents; the fetch always terminates.", "quantifier": "all operand forms, all register files, all memories", "why_tests_cant": "unbounded combinations of operand shapes, register contents and offsets", "anchors": ["src/t86/instructions/operand.cpp: requirement, supply", "src/t86/instruction.cpp: MOV::execute, LEA::execute"]}
{"id": "C07", "title": "The out-of-order pipelined CPU computes what the sequential ISA says", "statement": "For every program and machine configuration, after any number of clock ticks the architectural state visible to a user (registers, flags, memory, output, consumed input, program counter) is the state reached by executing the retired instructions one at a time in program order.", "quantifier": "all programs, all register/ALU/reservation-station/RAM-gate configurations, all initial memories, all inputs, any number of ticks", "why_tests_cant": "the state space of pipeline contents, renamings, in-flight stores and predictions is unbounded", "anchors": ["src/t86/cpu.cpp: tick", "src/t86/cpu/reservation_station.cpp", "src/t86/cpu/register_allocation_table.cpp", "src/t86/cpu/memory_writes_manager.cpp", "src/t86/ram.cpp"]}
{"id": "C08", "title": "Mis-speculated instructions leave no architectural trace", "statement": "Instructions fetched past a wrongly predicted jump never change registers, memory, output or input of the machine; recovery restarts at the real destination.", "quantifier": "all programs and all pipeline states in which a prediction turns out wrong", "why_tests_cant": "needs every interleaving of wrong-path execution with older instructions", "anchors": ["src/t86/cpu.cpp: unrollSpeculation, checkBranchPrediction", "src/t86/cpu/reservation_station.cpp: clear"]}
{"id": "C09", "title": "Faults on a wrong path are not reported", "statement": "A program that would run without error when executed sequentially never stops with a CPU error (and never crashes the VM) because of an instruction that was only fetched speculatively.", "quantifier": "all programs and pipeline states", "why_tests_cant": "depends on timing between a slow jump and a faulting younger instruction", "anchors": ["src/t86/cpu/reservation_station.cpp: Entry::readMemory, Entry::retire", "src/t86/cpu/alu.cpp: divide"]}
{"id": "C10", "title": "Single-stepping retires exactly one instruction", "statement": "Resuming with the trap flag set stops again after exactly one instruction has taken effect, with an empty pipeline and IP naming the next instruction.", "quantifier": "all programs, all machine states at a stop, any instruction", "why_tests_cant": "every instruction kind in every pipeline state", "anchors": ["src/t86/cpu/reservation_station.cpp: Entry::retire", "src/t86/cpu.cpp: tick", "src/t86/debug.cpp: Work"]}
{"id": "C11", "title": "A software breakpoint stops precisely", "statement": "When BKPT retires the machine stops with interrupt 3, every older instruction has taken effect, no younger one has, and IP is the address after BKPT.", "quantifier": "all programs and pipeline states", "why_tests_cant": "younger instructions may already have executed out of order when the breakpoint retires", "anchors": ["src/t86/instruction.cpp: BKPT::retire", "src/t86/cpu.cpp: tick, unrollSpeculation"]}
{"id": "C12", "title": "Watchpoints trigger exactly on retired writes to watched cells", "statement": "A retiring store raises the hardware-breakpoint interrupt exactly when some active debug register holds the stored address, and the control register then identifies a matching register; the debugger decodes that register.", "quantifier": "all debug register contents and store addresses", "why_tests_cant": "2^64 addresses times all control register values", "anchors": ["src/t86/cpu.cpp: checkWrite", "src/debugger/Arch.h: GetResponsibleRegister"]}
{"id": "C13", "title": "Renaming never runs out of physical registers and never clobbers a live value", "statement": "At every reachable state the reference count of a physical register equals the number of live table entries naming it, a register handed out by renaming is named by no live table, and allocation never fails.", "quantifier": "all histories of rename/copy/destroy/unroll and all configurations", "why_tests_cant": "unbounded histories", "anchors": ["src/t86/cpu/register_allocation_table.cpp", "src/t86/cpu.cpp: renameRegister, nextFreeRegister"]}
{"id": "C14", "title": "Loads see the program-order latest store", "statement": "A load that is answered (by forwarding or by RAM) gets the value of the youngest older store to that address, or the memory content if there is none, even though stores complete later and reads take several ticks and may be left over from cancelled instructions.", "quantifier": "all interleavings of loads, stores, ticks and cancellations", "why_tests_cant": "unbounded interleavings; stale in-flight reads are only visible in rare schedules", "anchors": ["src/t86/ram.cpp", "src/t86/cpu/memory_writes_manager.cpp", "src/t86/cpu.cpp: readMemory"]}
{"id": "C15", "title": "RAM latency and gates", "statement": "A read that is accepted becomes available after exactly readLatency ticks and stays available for that tick; at most gatesCnt reads are in flight; a write is visible to direct inspection immediately and is reported pending for exactly writeLatency+1 ticks unless superseded.", "quantifier": "all sequences of reads, writes and ticks", "why_tests_cant": "unbounded histories", "anchors": ["src/t86/ram.cpp"]}
{"id": "C16", "title": "PUSH/POP and CALL/RET are inverse", "statement": "PUSH v followed by POP r puts v in r and restores SP; CALL d followed by RET resumes after the call with SP restored; memory outside the used cell is untouched.", "quantifier": "all machine states with a valid stack cell, all values and registers", "why_tests_cant": "all 64-bit values and stack positions", "anchors": ["src/t86/instruction.cpp: PUSH, POP, FPUSH, FPOP, CALL, RET"]}
{"id": "C17", "title": "The pipeline never deadlocks", "statement": "As long as no fault or stop occurs, the oldest instruction retires after a bounded number of ticks, so every program that halts sequentially also halts on the CPU.", "quantifier": "all programs of parseable instructions, all reachable pipeline states", "why_tests_cant": "liveness over unbounded executions", "anchors": ["src/t86/cpu.cpp: tick", "src/t86/cpu/reservation_station.cpp", "src/t86/ram.cpp"]}
{"id": "C18", "title": "Memory written by the debugger is what the program reads next", "statement": "After the debugger writes a memory cell at a stop, the next load of that cell by the resumed program returns the written value.", "quantifier": "all stop states, addresses and values", "why_tests_cant": "depends on stores and reads still in flight at the stop", "anchors": ["src/t86/debug.cpp: Work (POKEDATA)", "src/t86/cpu.cpp: setMemory, readMemory", "src/t86/ram.cpp: set"]}
{"id": "C19", "title": "Stop reasons reach the debugger unchanged", "statement": "The reason string reported for a stop (START, SW_BKPT, HW_BKPT, SINGLESTEP, HALT, CPU_ERROR) is decoded by the debugger to the matching event and every other reply is rejected; an interrupt number has exactly one reason.", "quantifier": "all interrupt numbers, all reply strings", "why_tests_cant": "all strings", "anchors": ["src/t86/os.cpp: DispatchInterrupt", "src/t86/debug.cpp: ReasonToString", "src/debugger/T86Process.cpp: GetReason"]}
{"id": "C20", "title": "Debug protocol peek/poke round trips", "statement": "After a POKE of a register, float register, debug register, memory cell or instruction, the corresponding PEEK returns the poked value and every other observable is unchanged; PEEK commands and unknown commands change nothing.", "quantifier": "all machine states, all indices and values, all command sequences", "why_tests_cant": "unbounded sequences and 64-bit values", "anchors": ["src/t86/debug.cpp: Work", "src/debugger/T86Process.cpp"]}
{"id": "C21", "title": "Continue runs to the next real stop", "statement": "After any stop, CONTINUE never reports a single-step stop.", "quantifier": "all histories of steps and continues", "why_tests_cant": "needs specific histories (a step that lands on a breakpoint)", "anchors": ["src/t86/debug.cpp: Work", "src/t86/cpu.cpp: setTrapFlag, unsetTrapFlag, tick"]}
{"id": "C22", "title": "Instruction text round trip", "statement": "The text shown for an instruction is accepted by the assembler and yields the same instruction, so writing back an instruction that was read (as breakpoint removal does) restores the program.", "quantifier": "all instructions the assembler can produce", "why_tests_cant": "infinitely many instructions", "anchors": ["src/t86/instruction.cpp: Instruction::toString", "src/t86/instructions/operand.cpp: toString", "src/t86-parser/parser.cpp: Instruction"]}
{"id": "C23", "title": "Layout does not change an assembled program", "statement": "Inserting blanks, newlines between tokens or comments does not change the token sequence, and hence the assembled program.", "quantifier": "all token sequences and all layouts", "why_tests_cant": "infinitely many layouts", "anchors": ["src/common/parsing.cpp: Lexer::getNext"]}
{"id": "C24", "title": "Data section layout", "statement": "The data section is the concatenation of its items in order: a number is one cell, a string is one cell per character followed by a zero cell; program start copies exactly these cells to memory from address 0.", "quantifier": "all data sections", "why_tests_cant": "unbounded sections", "anchors": ["src/t86-parser/parser.cpp: Data", "src/t86/cpu.cpp: start"]}
{"id": "C25", "title": "String helper laws", "statement": "split yields exactly the maximal non-empty runs between delimiters, join of the pieces of a delimiter-free list splits back to that list, is_prefix_of is the prefix relation, squash_strip_whitespace leaves single inner blanks and is idempotent.", "quantifier": "all strings and delimiters", "why_tests_cant": "infinitely many strings", "anchors": ["src/common/helpers.h"]}
{"id": "C26", "title": "Message framing over TCP", "statement": "The sequence of messages received is the sequence sent, for every message content and however the network splits the byte stream.", "quantifier": "all message sequences, all splittings of the stream", "why_tests_cant": "unbounded schedules of partial reads", "anchors": ["src/common/TCP.h: Send, Receive"]}
{"id": "C27", "title": "In-process messenger is a FIFO in both directions", "statement": "Messages sent by one side are received by the other in order, none lost, duplicated or invented, for any interleaving of sends and receives.", "quantifier": "all interleavings", "why_tests_cant": "unbounded schedules", "anchors": ["src/common/threads_messenger.h"]}
{"id": "C28", "title": "Breakpoints are invisible to the debugger user", "statement": "Whatever breakpoints have been set, enabled, disabled or removed, reading the program text through the debugger shows the original instructions.", "quantifier": "all histories of breakpoint operations and text reads/writes", "why_tests_cant": "unbounded histories", "anchors": ["src/debugger/Native.cpp: ReadText, SetBreakpoint, EnableSoftwareBreakpoint, DisableSoftwareBreakpoint"]}
{"id": "C29", "title": "Removing breakpoints restores the program", "statement": "Once every breakpoint is removed or disabled the debuggee's program text equals the original text (plus explicit text writes).", "quantifier": "all histories of breakpoint and text operations", "why_tests_cant": "unbounded histories", "anchors": ["src/debugger/Native.cpp: UnsetBreakpoint, DisableSoftwareBreakpoint, WriteText"]}
{"id": "C30", "title": "A breakpoint is armed exactly when it is enabled", "statement": "The debuggee's text holds BKPT at an address exactly when the debugger lists an enabled breakpoint there (or the program itself has BKPT there).", "quantifier": "all histories of breakpoint operations", "why_tests_cant": "unbounded histories", "anchors": ["src/debugger/Native.cpp: CreateSoftwareBreakpoint, WriteText"]}
{"id": "C31", "title": "Resuming from a breakpoint runs the original instruction and re-arms the breakpoint", "statement": "Continuing or stepping from an address with an enabled breakpoint executes the original instruction once and leaves the same breakpoints armed.", "quantifier": "all debugger and debuggee states", "why_tests_cant": "all program states", "anchors": ["src/debugger/Native.cpp: StepOverBreakpoint, ContinueExecution, PerformSingleStep"]}
{"id": "C32", "title": "Watchpoint registers are allocated without conflict", "statement": "Each watchpoint has its own debug register holding its address with its activation bit set; at most four exist; a fifth request and a duplicate request are rejected without changing anything.", "quantifier": "all histories of watchpoint operations", "why_tests_cant": "unbounded histories", "anchors": ["src/debugger/Native.cpp: SetWatchpointWrite, GetFreeDebugRegister", "src/debugger/Arch.h: SetDebugRegister, ActivateDebugRegister, DeactivateDebugRegister"]}
{"id": "C33", "title": "Removing a watchpoint stops it from triggering", "statement": "After a watchpoint is removed, writes to its address no longer interrupt the debuggee.", "quantifier": "all histories of watchpoint operations and writes", "why_tests_cant": "unbounded histories", "anchors": ["src/debugger/Native.cpp: RemoveWatchpoint"]}
{"id": "C34", "title": "A breakpoint stop reports the breakpoint's address and leaves IP there", "statement": "When the debuggee stops on an armed breakpoint the reported address and the IP seen afterwards are the address of the breakpoint.", "quantifier": "all breakpoint addresses and debuggee states", "why_tests_cant": "all addresses; cached events", "anchors": ["src/debugger/Native.cpp: MapReasonToEvent, WaitForDebugEvent"]}
{"id": "C35", "title": "Out-of-range memory and text accesses are rejected", "statement": "Debugger reads and writes that do not lie completely within memory/text are rejected with an error and change nothing.", "quantifier": "all 64-bit addresses and lengths", "why_tests_cant": "2^128 address/length pairs, wrap-around", "anchors": ["src/debugger/T86Process.cpp: ReadMemory, WriteMemory", "src/debugger/Native.cpp: ReadText, WriteText"]}
{"id": "C36", "title": "Line/address mapping", "statement": "Looking up the address of a line and the line of an address agree with the mapping table: an address maps to the greatest line mapped to it, a line to its own address, and unmapped ones to nothing.", "quantifier": "all line mappings, lines and addresses", "why_tests_cant": "unbounded tables", "anchors": ["src/debugger/Source/LineMapping.cpp", "src/debugger/Source/Source.cpp: AddrToLine, LineToAddr"]}
{"id": "C37", "title": "Source lines", "statement": "Line i of the loaded source file is the i-th newline-terminated piece of the file text and joining the lines reproduces the text.", "quantifier": "all file contents", "why_tests_cant": "unbounded texts", "anchors": ["src/debugger/Source/SourceFile.h", "src/debugger/Source/SourceFile.cpp"]}
{"id": "C38", "title": "Function lookup by address and by name agree", "statement": "An address inside the range of a function (and of no other) is attributed to that function; its name looks up its own range.", "quantifier": "all function tables and addresses", "why_tests_cant": "unbounded tables", "anchors": ["src/debugger/Source/Source.cpp: GetFunctionNameByAddress, GetFunctionAddrByName"]}
{"id": "C39", "title": "Variable lookup obeys scoping", "statement": "The variables visible at an address are exactly those of the enclosing scopes, and an inner declaration hides an outer one of the same name.", "quantifier": "all debug-information trees and addresses", "why_tests_cant": "unbounded trees", "anchors": ["src/debugger/Source/Source.cpp: FindVariables, GetActiveVariables"]}
{"id": "C40", "title": "Location expressions evaluate as specified", "statement": "PUSH/BASE_REG_OFFSET/ADD/DEREFERENCE expressions evaluate on the debuggee state to the documented register or address.", "quantifier": "all location expressions and debuggee states", "why_tests_cant": "unbounded expressions", "anchors": ["src/debugger/Source/ExpressionInterpreter.cpp"]}
{"id": "C41", "title": "Type sizes", "statement": "The size computed for a type is the documented one: primitives and pointers one cell, arrays length times element size, structures their declared size.", "quantifier": "all type trees", "why_tests_cant": "unbounded nesting", "anchors": ["src/debugger/Source/Source.h: GetTypeSize"]}
{"id": "C42", "title": "Expression grammar", "statement": "Every printed expression tree (with the parentheses the documented precedence requires) parses back to the same tree, for all operators.", "quantifier": "all expression trees", "why_tests_cant": "infinitely many expressions", "anchors": ["src/debugger/Source/ExpressionParser.cpp"]}
{"id": "C43", "title": "Expression evaluation is 64-bit C-like arithmetic", "statement": "Evaluating an expression over integer variables yields the value of the corresponding 64-bit arithmetic, pointers advance by the pointed-to size, division by zero is rejected.", "quantifier": "all expression trees and variable values", "why_tests_cant": "infinitely many expressions", "anchors": ["src/debugger/Source/Expression.cpp"]}
{"id": "C44", "title": "Assignment through the debugger stores the assigned value", "statement": "After assigning to a variable, reading the variable yields the assigned value and no other location changes.", "quantifier": "all locations, types and values", "why_tests_cant": "all 64-bit values, all float values", "anchors": ["src/debugger/Source/Expression.cpp: Assignment, SetRaw, EvaluateTypeAndLocation"]}
{"id": "C45", "title": "Program builder labels", "statement": "The label returned when adding an instruction is its address in the built program, patching changes exactly the named jump's destination, data labels point at the added data.", "quantifier": "all sequences of builder calls", "why_tests_cant": "unbounded call sequences", "anchors": ["src/t86/program/programbuilder.h"]}
{"id": "C46", "title": "Step over executes a call as one step", "statement": "Stepping over a CALL whose callee returns stops at the instruction after the call with the original set of breakpoints; stepping over another instruction is a single step.", "quantifier": "all debuggee programs and breakpoint sets", "why_tests_cant": "unbounded callee behaviours", "anchors": ["src/debugger/Native.cpp: PerformStepOver"]}
{"id": "C47", "title": "In-order retirement and I/O order", "statement": "Instructions retire in program order; characters and numbers printed, and input consumed, appear in program order, each exactly once.", "quantifier": "all programs and pipeline states", "why_tests_cant": "out-of-order completion", "anchors": ["src/t86/cpu/reservation_station.cpp: executeAndRetire", "src/t86/instruction.cpp: PUTCHAR, PUTNUM, GETCHAR"]}
{"id": "C48", "title": "Resource counts of the reservation station", "statement": "The number of occupied entries never exceeds the configured maximum and free ALUs plus entries executing on an ALU always equals the configured ALU count.", "quantifier": "all programs, configurations and ticks", "why_tests_cant": "unbounded executions, including flushes in the middle of execution", "anchors": ["src/t86/cpu/reservation_station.cpp"]}
{"id": "C49", "title": "Memory and registers are read and written exactly", "statement": "At a stop, reading memory returns the program's cells in order and reading a register returns its value; writing memory or a register changes exactly the named cells or register, and what was written is read back; reads change nothing; unknown register names are rejected.", "quantifier": "all stops of all debugging sessions, all addresses, lengths, values and register names", "why_tests_cant": "every reachable debuggee state, renamed registers and pending memory writes included", "anchors": ["src/debugger/Native.cpp: ReadMemory, SetMemory, GetRegister, SetRegister", "src/debugger/T86Process.cpp: ReadMemory, SetMemory, FetchRegisters, SetRegisters", "src/t86/debug.cpp: Work"]}
{"id": "C50", "title": "The program builder rejects instructions that overwrite special registers", "statement": "Adding an instruction fails exactly when the instruction would overwrite a register it has to spare: IP and FLAGS for arithmetic and MOV, these and SP and BP for LEA, IP for POP.", "quantifier": "all instructions, all builder states", "why_tests_cant": "all combinations of instructions and operands", "anchors": ["src/t86/program/programbuilder.h: add", "src/t86/instruction.cpp: validate"]}
{"id": "C51", "title": "Debugging information is read as written", "statement": "A file in the documented format, laid out in any way (white space, comments, order and repetition of sections, optional separators), is read as exactly the line table, the tree of entries and the source lines it writes down; the same file assembles to exactly its program, whatever debugging sections surround it; and reading ends for every text.", "quantifier": "all line tables, all trees of entries of any depth, all source texts, all layouts; for termination all texts", "why_tests_cant": "unboundedly many files and layouts, with entries nested to any depth", "anchors": ["src/debugger/Source/Parser.cpp: Parser", "src/t86-parser/parser.cpp: Parser::Parse", "src/common/parsing.cpp: Lexer"]}
{"id": "C52", "title": "Stepping by source lines reaches the next line", "statement": "A step by source lines executes the current instruction and then every instruction up to the first one at which a line of the line table begins, and stops there; if it meets a breakpoint, a BKPT, a watched write or the end before, it stops there and reports that. A step over does the same but passes each call on the way, with its callee, as one instruction. Breakpoints and watchpoints are the same afterwards.", "quantifier": "all programs, all line tables, all states of a debugger session, any number of instructions in a line, any number of calls and any depth of recursion", "why_tests_cant": "unboundedly many programs, line tables and session histories; lines of any length", "anchors": ["src/debugger/Source/Source.cpp: StepIn, StepOver", "src/debugger/Native.cpp: PerformStepOver, DoRawSingleStep"]}
{"id": "C53", "title": "Stepping out leads to the caller", "statement": "Stepping out executes instructions, each call with its callee as one, up to and including the first RET at this level, and stops at the instruction after it.", "quantifier": "all programs, all states of a debugger session, any number of instructions and calls before the RET", "why_tests_cant": "unboundedly many programs and session histories; functions of any length", "anchors": ["src/debugger/Native.cpp: PerformStepOut, PerformStepOver"]}
{"id": "C54", "title": "Breakpoints on lines and functions are at their first instruction", "statement": "Setting, enabling, disabling or removing the breakpoint of a source line works on the instruction at which the line begins by the line table and on no other one; a line at which no instruction begins is refused without any effect. A place given as text is a line number, counted from 1, or the name of a function, meaning its first instruction.", "quantifier": "all line tables, all lines, all function names, all states of a debugger session", "why_tests_cant": "unboundedly many line tables and session histories", "anchors": ["src/debugger/Source/Source.cpp: SetSourceSoftwareBreakpoint, UnsetSourceSoftwareBreakpoint, EnableSourceSoftwareBreakpoint, DisableSourceSoftwareBreakpoint, GetAddressFromString"]}
{"id": "C55", "title": "Values are shown as they are", "statement": "A pointer to char is shown with exactly the bytes in memory from its address up to the first zero (newline and tab escaped), and with an error if there is no zero before the end of memory; an integer or another pointer is shown as a number that denotes its value. Showing does not change the debuggee.", "quantifier": "all memory contents, all addresses, strings of any length, all 64-bit values", "why_tests_cant": "strings of any length at any address; all 64-bit values", "anchors": ["src/debugger/Source/Source.cpp: ReadMemoryAsString, TypedValueToString"]}
{"id": "C56", "title": "Earlier results keep their number and value", "statement": "Each evaluated expression whose result is kept gets the next number, from 0 on; from then on `$k` evaluates to the result with the number k, however it is written, at every stop, whatever has been evaluated or executed since.", "quantifier": "all sequences of evaluations of any expressions, all stops in between, all ways to write `$k`", "why_tests_cant": "unboundedly long sequences of evaluations and executions", "anchors": ["src/debugger/Source/Source.cpp: EvaluateExpression", "src/debugger/Source/Expression.cpp: ExpressionEvaluator", "src/debugger/Source/ExpressionParser.cpp: primary"]}
{"id": "C57", "title": "Commands may be shortened, and help is found under the same words", "statement": "The first word of a line is understood as the first command, in the documented order, whose name begins with it; each full name means its command; only the words of a line matter, not the blanks around them; `help` followed by a word tells about the command for which this word stands; any other word is answered with the list of commands.", "quantifier": "all lines, all words, all states of the debugger", "why_tests_cant": "all texts a user may type", "anchors": ["src/dbg-cli/CLI.h: HandleCommand, HandleHelp, check_command, Run", "src/common/helpers.h: squash_strip_whitespace"]}
{"id": "C58", "title": "A program that has finished stays finished", "statement": "When a command makes the program reach its end, this is reported. From then on, whatever is typed, commands that would execute instructions are refused without any effect, until the program is started again.", "quantifier": "all lines, all sequences of lines, all programs, all states of the debugger", "why_tests_cant": "unboundedly many sessions", "anchors": ["src/dbg-cli/CLI.h: HandleContinue, HandleStep, HandleNext, HandleFinish, HandleStepi, HandleINext, ReportDebugEvent"]}
{"id": "C59", "title": "A line that is not understood has no effect", "statement": "Before a program is started commands only print a hint; an empty line does nothing; a parameter that should be an address and is not one is reported as an error, and nothing else happens.", "quantifier": "all lines, all parameters, all states of the debugger", "why_tests_cant": "all texts a user may type", "anchors": ["src/dbg-cli/CLI.h: HandleCommand, ParseAddress, HandleBreakpoint, HandleWatchpoint, HandleDisassemble, HandleSource, HandleMemory, HandleAssemble"]}
{"id": "C60", "title": "What is proved of debugging sessions holds for what is typed", "statement": "Each line that is carried out without an error leads from a state of a debugging session to a state of the same session: the debugger still shows the program text without its breakpoints, and the program still behaves as if it had not been stopped.", "quantifier": "all lines, all sequences of lines, all programs, all states of a debugger session", "why_tests_cant": "unboundedly many lines and session histories", "anchors": ["src/dbg-cli/CLI.h: Cli"]}
{"id": "C61", "title": "Memory and registers on the command line", "statement": "`memory get` and `memory getstr` print exactly the cells asked for, as numbers after their addresses or as characters. `memory set` replaces exactly the cells from the address on by the values. Cells outside of memory are refused without a change. `register`, `register get` and `register set` print and replace exactly the registers of the machine, and refuse other names.", "quantifier": "all addresses, amounts, values, registers and names, in every state of a debugger session in which the machine stands still at these cells", "why_tests_cant": "unboundedly many machine states and parameters", "anchors": ["src/dbg-cli/CLI.h: HandleMemory, HandleRegister"]}
{"id": "C62", "title": "Strings are stored as written", "statement": "`memory setstr` stores the characters of the quoted string, with escapes replaced, and a zero in consecutive cells from the address on and changes no other cell.", "quantifier": "all strings and ways to quote them, all addresses, all states of a debugger session", "why_tests_cant": "unboundedly many strings", "anchors": ["src/dbg-cli/CLI.h: HandleMemory", "src/common/helpers.h: utils"]}
{"id": "C63", "title": "Listings show the program as written, with breakpoints and the next instruction", "statement": "`disassemble range`, `from`, `function` and `disassemble` alone print exactly the instructions asked for, each with its address, as the program was written (without the breakpoints in it), and mark the breakpoints, whether they are enabled, and the next instruction. `source` and `source from` do the same for source lines.", "quantifier": "all programs, addresses, amounts, debugging information and states of a debugger session", "why_tests_cant": "unboundedly many programs, ranges and session histories", "anchors": ["src/dbg-cli/CLI.h: HandleDisassemble, HandleSource, PrintText, PrintCode, PrettyPrintText, GetPrettyBp, GetPrettyBpForLine"]}
{"id": "C64", "title": "A program is started, and started again, from its beginning", "statement": "`run` starts the program of the file on a machine of the requested size, stopped before its first instruction with its data in memory, and all breakpoints and watchpoints of an earlier run are in place again.", "quantifier": "all files, options, and states of the debugger before", "why_tests_cant": "unboundedly many programs and sets of breakpoints", "anchors": ["src/dbg-cli/CLI.h: HandleRun, ParseOptionalCommand, ParseProgram", "src/debugger/Native.cpp: SetAllBreakpoints, SetAllWatchpoints"]}
{"id": "C65", "title": "Breakpoints and watchpoints on the command line", "statement": "`breakpoint iset`, `ienable`, `idisable`, `iremove` with an address and `set`, `enable`, `disable`, `remove` with a line or a function change exactly the breakpoint at that address, at the beginning of that line or at the beginning of that function, say so, and change nothing else; if the breakpoint is not there (or already there, for setting), they are refused without any effect. `watchpoint iset` and `irem` do the same for watched addresses, of which there are at most four. `breakpoint list` and `watchpoint list` print each of them once, sorted by address.", "quantifier": "all addresses, lines, function names, debugging information and states of a debugger session", "why_tests_cant": "unboundedly many programs, line tables and session histories", "anchors": ["src/dbg-cli/CLI.h: HandleBreakpoint, HandleWatchpoint"]}
{"id": "C66", "title": "At every stop the debugger says why and shows where", "statement": "After `istep`, `inext`, `step`, `next`, `finish` and `continue` the debugger reports the event, unless it is the end of a step, and shows the place of the next instruction: the instructions around it for the commands on instructions, the source lines around it otherwise (if there is a line). The program has executed one instruction after `istep`, the instructions up to the next beginning of a line after `step`, and all instructions up to the next event after `continue`, and the breakpoints and watchpoints are the same as before.", "quantifier": "all programs, inputs, debugging information, lines typed and states of a debugger session", "why_tests_cant": "unboundedly many programs and session histories", "anchors": ["src/dbg-cli/CLI.h: SourceLevelStep, NativeLevelStep, HandleFinish, HandleContinue, ReportDebugEvent, ReportBreak, PrettyPrintText, PrettyPrintCode"]}
{"id": "C67", "title": "Running a file prints exactly what its instructions print", "statement": "`t86-cli FILE` assembles the file and runs it: if the instructions of the file, executed one after the other from cleared registers and memory with the data of the file, come to a halt, the process ends with exit status 0 and has printed exactly what they print. At any time before, what has been printed is what some first part of the instructions prints. A file that is not a program is refused with an exit status other than 0, and nothing runs.", "quantifier": "all files, machine sizes, inputs and numbers of clock ticks", "why_tests_cant": "unboundedly many programs and lengths of execution", "anchors": ["src/t86-cli/main.cpp: main", "src/t86/os.cpp: OS::Run, OS::DispatchInterrupt", "src/t86/cpu.cpp: Cpu::start, Cpu::tick"]}
{"id": "C68", "title": "Undefined behaviour has its cause in the program", "statement": "If the behaviour of the machine becomes undefined, then the program, executed one instruction after the other, gets to a state in which one of the next few instructions along the path the processor expects (as many as it works on at once) has no result (a division by zero or one that overflows, a shift by too much, reading input that is at its end, a number out of range), is a LEA of the sum of two registers, or writes to the same cell as another of them. So a program that avoids this runs, halts and fails exactly as its instructions do when they are executed in order, and a run of its file ends having printed exactly what they print.", "quantifier": "all programs, data, inputs, machine sizes and numbers of clock ticks, where signed overflow wraps", "why_tests_cant": "unboundedly many programs, and which instructions are in flight together depends on the timing of memory and the other instructions", "anchors": ["src/t86/cpu.cpp: Cpu::tick", "src/t86/cpu/reservation_station.cpp: ReservationStation::executeAll", "src/t86/cpu/memory_writes_manager.cpp", "src/t86/cpu/alu.cpp", "src/t86-cli/main.cpp: main"]}
{"id": "C69", "title": "Watching a program does not change what it does", "statement": "In a debugging session in which nothing is written, whatever is read, wherever breakpoints and watchpoints are set, disabled, hit and removed, and however the program is stepped and continued: the debugger always shows a state that the program gets to by itself, every call takes the program forward by executing its own instructions, and calls that only look execute none. What the program has printed in the session is the beginning of what it prints when it is run without a debugger, and all of it when it has come to its end. The same holds for lines typed at the command line that write nothing. The program has no BKPT of its own.", "quantifier": "all programs without BKPT, data, inputs, machine sizes, sequences of successful calls, or of typed lines that are carried out, of any length", "why_tests_cant": "unboundedly many programs, and unboundedly many histories of breakpoints, watchpoints, steps and continues; the debugger replaces instructions and steps over its own replacements behind the back of the program", "anchors": ["src/debugger/Native.cpp: Native::SetBreakpoint, Native::PerformSingleStep, Native::PerformStepOver, Native::ContinueExecution, Native::WaitForDebugEvent", "src/debugger/T86Process.cpp", "src/t86/debug.cpp: Debug::Work", "src/t86/cpu.cpp: Cpu::tick", "src/dbg-cli/CLI.h: Cli::HandleCommand"]}
{"id": "C70", "title": "The statistics count what was executed", "statement": "Keeping statistics does not change what the processor does. When a program has halted, the instructions counted are exactly the instructions executed, in order, one that was executed several times as many times and none that was fetched only because of a wrong prediction, and the number of ticks is the number of ticks the processor worked. At any time before, the instructions counted are those executed so far and then those in the pipeline.", "quantifier": "all programs, data, inputs, machine sizes and numbers of clock ticks", "why_tests_cant": "unboundedly many programs and lengths of execution; instructions fetched by mistake have to disappear from the statistics again at every wrong prediction", "anchors": ["src/t86/utils/stats_logger.cpp: StatsLogger::registerNewInstruction, logPipelineUnroll, processBasicStats", "src/t86/cpu.cpp: Cpu::tick, Cpu::unrollSpeculation"]}
{"id": "C71", "title": "The life time of an instruction is the time it spent in the processor", "statement": "When a program has halted, the life time the statistics compute for each instruction executed is the number of ticks from its fetch to its retirement, its parts are the numbers of ticks it spent in each stage, no tick is counted twice or left out, and the time of execution is the one its kind of instruction takes. The statistics can be shown exactly when no instruction is in flight; otherwise an assertion fails.", "quantifier": "all programs, data, inputs, machine sizes and numbers of clock ticks", "why_tests_cant": "unboundedly many programs; how long an instruction waits depends on all instructions in flight with it", "anchors": ["src/t86/utils/stats_logger.cpp: StatsLogger::accumulativeInstructionLifeTime, processBasicStats", "src/t86/utils/stats_logger.h: StatsLogger::InstructionLifeTime"]}
{"id": "C72", "title": "The averages shown are averages over the instructions executed", "statement": "When a program has halted, each of the averages shown (life time, stalls in the fetch and the decode stage, waiting for an ALU, executing, waiting for retirement, retirement) is the sum of that time over the instructions executed, divided by their number.", "quantifier": "all programs, data, inputs and machine sizes", "why_tests_cant": "unboundedly many programs and lengths of execution", "anchors": ["src/t86/utils/stats_logger.cpp: StatsLogger::processAverageLifetime, accumulativeInstructionLifeTime"]}
{"id": "C73", "title": "Control comes back to the debugger", "statement": "At a stop, a single step comes back after exactly one instruction, and continuing comes back when the program, executed one instruction after the other, comes to its end, to a breakpoint or to a watched write; what is reported is exactly that, and the program is then in the state the sequential machine is in. Stepping over a call comes back when the callee returns without meeting any of these, however often it calls itself; in the same way stepping into or over a source line comes back when the program comes to the beginning of a line, and stepping out of a function when the function returns. If one of these is met before, they come back there and report it, unless it is a breakpoint on a call that is stepped over or the write of the return address by such a call. The lines istep, inext, step, next, finish and continue typed at the debugger come back likewise, and show where the program is. The machine needs at most 24 ticks for each instruction. The only other outcome is undefined behaviour of the machine, and if overflow is defined this needs a hazardous state (C68) on the way. For watched writes no debug register is left over from a removed watchpoint (C33).", "quantifier": "all programs, data, inputs, machine sizes, breakpoints, watchpoints and histories of the debug session", "why_tests_cant": "that something always comes back is a liveness property of the pipelined machine and the message exchange; it needs an argument about progress, not runs", "anchors": ["src/debugger/Native.cpp: Native::PerformSingleStep, PerformStepOver, PerformStepOut, ContinueExecution, WaitForDebugEvent, MapReasonToEvent", "src/debugger/Source/Source.cpp: Source::StepIn, StepOver", "src/dbg-cli/CLI.h: Cli::HandleCommand", "src/debugger/T86Process.cpp: T86Process::Singlestep, ResumeExecution, Wait, GetReason", "src/t86/cpu.cpp: Cpu::tick", "src/t86/os.cpp: OS::run", "src/t86/debug.cpp"]}
{"id": "C74", "title": "The settings are those of the command line", "statement": "A program that uses the library and hands its command line to the configuration gets exactly the settings the command line says: an option -NAME=VALUE sets NAME to everything after the first equals sign, the flags for verbose output and for the mode and the name of the input have their meaning, nothing else is set except that verbose output is on, and a command line that speaks about a setting twice is rejected. A machine made afterwards has, for each size its maker does not give, the size the command line says or the default, and register operands can be made for the registers of that machine only.", "quantifier": "all command lines, that is, all lists of strings, and all sizes given by the maker", "why_tests_cant": "unboundedly many command lines, with every combination, order and repetition of options", "anchors": ["src/common/config.h: Config::parse, setOption, get, setDefaultIfMissing, interactive, input", "src/t86/cpu.cpp: Cpu::Config, Cpu::Cpu", "src/t86/program/helpers.cpp: Reg"]}
{"id": "C75", "title": "An operand written as an expression over registers has the value of the expression", "statement": "When a user of the library writes an operand with the operators for registers, such as Mem(Bp() - 3) or Reg(1) + 2 - Reg(2) * 4, and this compiles, the operand the machine evaluates has the value of that expression in 64-bit arithmetic, whatever is in the registers. Every form of operand can be written, and writing one is not undefined behaviour unless the least 64-bit number is to be negated.", "quantifier": "all expressions over registers and numbers with plus, minus and times, all contents of registers and memory", "why_tests_cant": "unboundedly many expressions, and which operator is chosen depends on types and implicit conversions", "anchors": ["src/t86/cpu/register.cpp", "src/t86/cpu/register.h", "src/t86/program/helpers.cpp: Mem", "src/t86/instructions/operand.cpp: Operand::supply"]}
{"id": "C76", "title": "A message about a rejected text names the place", "statement": "When a program, an instruction typed in, an expression or debugging information is rejected, the message names the line and the column, counted from 1, of the first character of the token at which reading stopped: all tokens before it were accepted as the beginning of a text, and none after it was looked at. Keeping track of positions does not change what is accepted.", "quantifier": "all texts, with any comments, blank lines, indentation and strings over several lines", "why_tests_cant": "unboundedly many texts, each of which can be wrong at any place", "anchors": ["src/common/parsing.h: Lexer::GetChar, RecordTokLoc, MakeToken", "src/common/parsing.cpp: Lexer::getNext, ParseNumber, ParseString", "src/t86-parser/parser.h: Parser::CreateError", "src/debugger/Source/Parser.h: CreateError", "src/debugger/Source/ExpressionParser.h: CreateError"]}
{"id": "C77", "title": "The detailed statistics tell the kinds of instructions apart", "statement": "When a program has halted, the detailed statistics show one group of averages for each kind of instruction that was executed, a kind being the name of the instruction and the forms of its operands. Each group counts exactly the instructions of its kind that were executed, its averages are averages over these, and the groups together count every instruction executed. Different kinds have different headings.", "quantifier": "all programs, data, inputs and machine sizes", "why_tests_cant": "unboundedly many programs, with any mixture of kinds and any lengths of execution", "anchors": ["src/t86/utils/stats_logger.cpp: StatsLogger::processDetailedStats, processAverageLifetime", "src/t86/instruction.cpp: Instruction::getSignature, Signature::toString", "src/t86/instructions/operand.cpp: Operand::getType, typeToString"]}
{"id": "C78", "title": "Values and types are shown as they are", "statement": "The debugger shows a value of type int in decimal notation with its sign, a pointer as an unsigned number, a character between apostrophes, a pointer to char and an array of char together with the string, any other array as the list of its members and a structure as the list of its members with their names. Its type is shown by its name, with an asterisk for each pointer and brackets for each array. What is printed determines the value: two values of one type without strings and floating-point numbers are shown alike only if they are the same. Showing a value changes nothing.", "quantifier": "all types, values with any nesting of arrays and structures, memories and machine states at a stop", "why_tests_cant": "unboundedly many nestings, lengths and contents of memory", "anchors": ["src/debugger/Source/Source.cpp: Source::TypedValueToString, TypedValueTypeToString, TypeToString", "src/debugger/Source/Type.h: FromPrimitiveType", "src/dbg-cli/CLI.h: HandleExpression"]}
{"id": "C79", "title": "Variables have the value that is stored where they are", "statement": "Evaluating the name of a variable in scope at a stop gives the value of its declared type at the location its debugging information denotes in the stopped machine: a number, character or pointer is the content of that cell or register; the members of a structure are at their offsets and the elements of an array one after another, in any nesting. What a pointer points to, a member by . or -> and an element by [] are the values at those places. The variables in scope are exactly the visible ones, each once, and frame prints the function with its addresses and a line for each of them with type, name and value. Reading changes nothing.", "quantifier": "all programs, stops, debugging information, types with any nesting, locations and contents of memory and registers", "why_tests_cant": "unboundedly many nested types, scopes, locations and memory contents", "anchors": ["src/debugger/Source/Expression.cpp: ExpressionEvaluator::EvaluateTypeAndLocation, Dereference, Visit", "src/debugger/Source/Source.cpp: Source::GetVariableLocation, GetVariableTypeInformation, GetScopedVariables", "src/debugger/Source/ExpressionInterpreter.cpp: ExpressionInterpreter::Interpret", "src/dbg-cli/CLI.h: HandleFrame, PrintFunctionInfo"]}
{"id": "C80", "title": "The debugger carries out its input line by line", "statement": "The debugger takes the lines of its input in order and carries out one after another until the input ends or a line ends it; the session is determined by its input, and what it prints for the first lines does not depend on those to come. Blank lines do nothing. Only assemble takes further lines of the input, namely those of its block. An error in a command is reported and the debugger goes on with the next line. Whatever has been printed stays printed. At the end of the input a program that still runs is ended.", "quantifier": "all inputs of any length, all states of the debugger and of the program", "why_tests_cant": "unboundedly many sessions, and what a line does depends on all lines before it", "anchors": ["src/dbg-cli/CLI.h: Cli::Run, HandleCommand, InteractiveAssemble, ExitProcess", "src/dbg-cli/main.cpp: main"]}
