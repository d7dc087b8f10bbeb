{"id": "C01", "title": "Integer ALU implements RV32I", "statement": "For every pair of 32-bit operands, the result produced by the ALU for an RV32I OP / OP-IMM / LUI / AUIPC encoding is the value the RISC-V ISA defines (add/sub modulo 2^32, signed/unsigned compare, logical, shifts by the low five bits).", "quantifier": "all 2^64 operand pairs, for each legal funct3/funct7/immediate-flag combination", "why_tests_cant": "2^64 operand pairs per operation; a wrong sign or shift boundary can hide anywhere", "anchors": ["back-end/Exu/include/Fu.h: AluUnit::impl_compute"]}
{"id": "C02", "title": "Integer ALU implements the Zba/Zbb/Zbs/Zbc bit-manipulation operations", "statement": "For every operand pair the ALU result for sh1add/sh2add/sh3add, andn/orn/xnor, min/max(u), rol/ror/rori, clz/ctz/cpop, sext.b/sext.h/zext.h, rev8/orc.b, bclr/bext/binv/bset(i) and clmul/clmulh/clmulr is the value defined by the bit-manipulation specification.", "quantifier": "all 2^64 operand pairs per operation", "why_tests_cant": "operand space is 2^64; rotate by zero, shift by 31 and carry-less products have rare corner cases", "anchors": ["back-end/Exu/include/Fu.h: AluUnit::impl_compute"]}
{"id": "C03", "title": "Multiplier returns the correct half of the exact product", "statement": "For every operand pair MUL returns the low 32 bits and MULH/MULHSU/MULHU return the high 32 bits of the exact (infinite-precision) product under the respective signedness of the operands.", "quantifier": "all 2^64 operand pairs", "why_tests_cant": "the operand space is 2^64 and sign-extension mistakes show only for particular sign combinations", "anchors": ["back-end/Exu/include/Fu.h: MulUnit::impl_compute"]}
{"id": "C04", "title": "Divider returns the RISC-V quotient and remainder, including the two special cases", "statement": "For every dividend and divisor DIV/DIVU/REM/REMU return the truncating quotient / remainder; division by zero gives all ones / the dividend; signed overflow gives the dividend / zero; and quotient*divisor+remainder = dividend always holds.", "quantifier": "all 2^64 operand pairs", "why_tests_cant": "special cases are single points in a 2^64 space; C++ signed overflow would be undefined behaviour", "anchors": ["back-end/Exu/include/Fu.h: DivUnit::impl_compute"]}
{"id": "C05", "title": "Branch unit resolves direction, target and misprediction exactly", "statement": "For every pc, operands, immediate and prediction the branch unit reports as next pc the branch target when the ISA condition holds (pc+imm, or (rs1+imm) with bit 0 cleared for JALR) and pc+4 otherwise, and it raises a misprediction exactly when the front-end's predicted next pc differs from that next pc.", "quantifier": "all pc/operand/immediate/prediction values", "why_tests_cant": "the input space is 2^160; a missed misprediction silently commits a wrong path", "anchors": ["back-end/Exu/include/Fu.h: BruUnit::impl_compute"]}
{"id": "C06", "title": "Atomic read-modify-write computes the AMO function", "statement": "For every old memory value and operand, the data written back to memory by an AMO is the swap/add/xor/and/or/min/max/minu/maxu of the two, and a plain store writes the operand unchanged.", "quantifier": "all 2^64 operand pairs for each AMO", "why_tests_cant": "2^64 operand pairs and signed/unsigned comparison corner cases", "anchors": ["back-end/Exu/include/Fu.h: SduUnit::impl_compute"]}
{"id": "C07", "title": "Immediates are reassembled as the ISA prescribes", "statement": "For every 32-bit instruction word the I/S/B/U/J immediate used by the pipeline and by the reference model equals the sign-extended immediate defined by the ISA's bit layout; B and J immediates are always even; encoding an in-range immediate and decoding it returns it.", "quantifier": "all 2^32 instruction words / all in-range immediates", "why_tests_cant": "bit scrambling errors show only for particular bits; all words must be covered", "anchors": ["diff/include/ref.h: immI/immS/immB/immU/immJ", "back-end/Idu.cpp: Idu::decode", "back-end/include/util.h"]}
{"id": "C08", "title": "Decoder never makes x0 a destination and enables only architectural sources", "statement": "For every instruction word, a decoded instruction that writes a register never has architectural register 0 as destination, every destination/source index is a legal register number, and a word that is not a supported instruction is decoded to an illegal-instruction trap.", "quantifier": "all 2^32 instruction words", "why_tests_cant": "2^32 encodings; x0 corruption shows only when such an encoding is executed and its value later read", "anchors": ["back-end/Idu.cpp: Idu::decode"]}
{"id": "C09", "title": "Pipeline ALU and reference model agree", "statement": "For every legal RV32IM+Zb* register/immediate instruction and all operand values the value computed by the out-of-order core's functional units equals the value the reference simulator computes, so co-simulation never reports a spurious mismatch and never masks a wrong value.", "quantifier": "all legal encodings and all operands", "why_tests_cant": "both sides are hand written; agreement must hold on 2^64 operands per encoding", "anchors": ["back-end/Exu/include/Fu.h", "diff/ref.cpp: RefCpu::RV32IM"]}
{"id": "C10", "title": "Branch tags are never shared by two unresolved branches", "statement": "At every point of every execution, each unresolved branch owns a distinct non-zero tag, a tag is offered for allocation only if no unresolved branch owns it, and the number of simultaneously unresolved branches never exceeds the number of allocatable tags.", "quantifier": "every sequence of decode/resolve/mispredict/flush events", "why_tests_cant": "tag reuse bugs need particular histories of allocation and resolution", "anchors": ["back-end/Idu.cpp: comb_decode, comb_branch, comb_fire"]}
{"id": "C11", "title": "A misprediction squashes exactly the younger instructions", "statement": "When a branch is reported mispredicted, the set of in-flight instructions whose branch mask intersects the broadcast kill mask is exactly the set of instructions decoded after that branch; resolving branches correctly never kills anything.", "quantifier": "every history of branches, resolutions and mispredictions", "why_tests_cant": "depends on the interleaving of allocation, clearing and recovery of tags", "anchors": ["back-end/Idu.cpp: comb_branch, comb_fire"]}
{"id": "C12", "title": "Physical registers are conserved", "statement": "In every reachable state each physical register other than the constant-zero one is either free, or the current mapping of exactly one architectural register, or held by exactly one in-flight instruction as its replaced mapping; no register is lost, duplicated or handed out twice.", "quantifier": "every sequence of rename, commit, flush and mispredict events", "why_tests_cant": "leaks and double allocations need long specific histories", "anchors": ["back-end/Ren.cpp: comb_alloc, comb_rename, comb_fire"]}
{"id": "C13", "title": "Renaming preserves program order data flow", "statement": "For every rename group and every mapping, each source operand is mapped to the physical register allocated by the youngest earlier instruction (including earlier instructions of the same group) writing that architectural register.", "quantifier": "every mapping, every group of instructions", "why_tests_cant": "same-cycle bypass errors need particular register coincidences and widths", "anchors": ["back-end/Ren.cpp: comb_rename"]}
{"id": "C14", "title": "Misprediction recovery restores the rename map of the branch", "statement": "After a misprediction, the rename map and the allocation pointer equal those that were in force immediately after the mispredicted branch was renamed, whatever happened in between.", "quantifier": "every history between the branch's rename and its misprediction", "why_tests_cant": "needs arbitrary interleavings of younger renames, commits and other branch resolutions", "anchors": ["back-end/Ren.cpp: comb_fire"]}
{"id": "C15", "title": "A pipeline flush restores the committed rename map", "statement": "After an exception, interrupt or serialising flush the rename map equals the map produced by the committed instructions only, and every register allocated by uncommitted instructions is allocatable again.", "quantifier": "every history", "why_tests_cant": "depends on every committed/uncommitted split of the in-flight window", "anchors": ["back-end/Ren.cpp: comb_fire"]}
{"id": "C16", "title": "Reorder buffer retires in program order", "statement": "For every sequence of enqueue, commit, misprediction and flush, the committed instructions are, in order, the dispatched instructions that were not squashed; the buffer never overwrites an uncommitted instruction and never commits an instruction twice.", "quantifier": "every schedule of dispatch, completion, commit, misprediction and flush", "why_tests_cant": "ring wrap-around and recovery interleavings are unbounded", "anchors": ["back-end/Rob.cpp: comb_commit, comb_branch, comb_fire, comb_flush"]}
{"id": "C17", "title": "Only finished instructions retire and traps are precise", "statement": "An instruction leaves the reorder buffer by committing only if every part of it has completed; an instruction that raises an exception (or any other flushing instruction) retires alone, as the oldest, and nothing younger than it retires in that cycle.", "quantifier": "all reorder-buffer contents and all completion patterns", "why_tests_cant": "depends on all combinations of completion masks, exception flags and interrupts in the commit window", "anchors": ["back-end/Rob.cpp: comb_commit"]}
{"id": "C18", "title": "Reorder buffer misprediction recovery removes exactly the younger instructions", "statement": "After a misprediction at an in-flight instruction, the reorder buffer contains exactly the instructions at or before it, in the same order, and its full/empty status agrees with its content.", "quantifier": "every window position, wrap-around phase and redirect point", "why_tests_cant": "wrap-around flag errors show only for particular head/tail/redirect combinations", "anchors": ["back-end/Rob.cpp: comb_branch"]}
{"id": "C19", "title": "FENCE waits for earlier stores", "statement": "A FENCE / FENCE.I / SFENCE.VMA does not retire while an earlier committed store is still pending in the store queue.", "quantifier": "all reorder-buffer states and all memory-side timings", "why_tests_cant": "requires the coincidence of a FENCE at the head and a store still draining", "anchors": ["back-end/Rob.cpp: comb_commit"]}
{"id": "C20", "title": "Instruction buffer is a bounded FIFO", "statement": "Under every sequence of push, pop, peek and clear, instructions leave the instruction buffer in arrival order, none is lost, duplicated or overwritten, and occupancy never exceeds capacity.", "quantifier": "every sequence of operations", "why_tests_cant": "ring wrap-around for every head/occupancy combination", "anchors": ["back-end/InstructionBuffer.cpp", "back-end/include/InstructionBuffer.h", "back-end/PreIduQueue.cpp: comb_accept_front, comb_fire"]}
{"id": "C21", "title": "Fetch-target queue keeps the entry of every in-flight fetch block", "statement": "Under every sequence of allocate, retire, recover and flush, a fetch block's recorded pcs and predictions are found unchanged under its index until the block is retired or squashed, and the queue's occupancy counter equals the number of live blocks.", "quantifier": "every sequence of allocate/retire/recover/flush", "why_tests_cant": "needs wrap-around and recovery at every position", "anchors": ["back-end/PreIduQueue.cpp: ftq_alloc, ftq_pop, ftq_recover, ftq_flush"]}
{"id": "C22", "title": "Issue queue wake-up misses nobody and wakes nobody wrongly", "statement": "Whatever the history, broadcasting a physical register clears the busy status of exactly the waiting operands that name that register; no queued instruction can be left waiting for a register that was already broadcast to it and none is woken by another register.", "quantifier": "every history of enqueue, issue, wake-up, kill and flush", "why_tests_cant": "a stale or missing bit in the dependency matrix deadlocks or corrupts only for particular slot reuse histories", "anchors": ["back-end/include/IssueQueue.h: comb_wakeup, enqueue, clear_dep_bits_for_slot, set_dep_bits_for_slot"]}
{"id": "C23", "title": "Issue queue issues each instruction at most once, ready, oldest first, to a capable port", "statement": "Every granted instruction was queued, ready and supported by the granted port, no instruction is granted to two ports, no port receives two instructions, occupancy equals the number of queued instructions, and no ready older instruction that the port could execute is passed over.", "quantifier": "every queue content and every port readiness", "why_tests_cant": "combinatorial in queue contents and ports", "anchors": ["back-end/include/IssueQueue.h: schedule, comb_issue, commit_issue"]}
{"id": "C24", "title": "Dispatch is in order, all-or-nothing and never overflows a queue", "statement": "In each cycle the dispatched instructions form a prefix of the waiting group, each dispatched instruction delivers all its micro-operations and an undelivered one delivers none, the micro-operations sent to each issue queue never exceed its free slots or ports, and a CSR or atomic instruction is dispatched only into an empty machine.", "quantifier": "every group of instructions and every resource availability", "why_tests_cant": "combinatorial in instruction mix and resource levels", "anchors": ["back-end/Dispatch.cpp: comb_dispatch, comb_fire, decompose_inst"]}
{"id": "C25", "title": "Functional-unit pipelines complete each operation exactly once, in order", "statement": "Every operation accepted by a multiplier or divider is delivered exactly once unless killed by a flush or by the misprediction of a branch it depends on, pipelined operations complete in acceptance order, never before their latency has elapsed, and no operation is accepted when the unit is full.", "quantifier": "every schedule of issue, back-pressure, kill and flush", "why_tests_cant": "unbounded interleavings of back-pressure and kills", "anchors": ["back-end/Exu/include/AbstractFU.h: FixedLatencyFU, IterativeFU"]}
{"id": "C26", "title": "Register read returns the newest produced value and x0 is always zero", "statement": "Reading physical register 0 yields zero in every reachable state, and reading any other register yields the youngest result produced for it (bypass, then write-back stage, then register file).", "quantifier": "every register-file state and every set of in-flight results", "why_tests_cant": "depends on coincidences of producers and consumers in one cycle", "anchors": ["back-end/Prf.cpp: read_operand_with_bypass, comb_write, comb_pipeline, seq"]}
{"id": "C27", "title": "Supervisor CSR views stay consistent with machine CSRs", "statement": "In every reachable state sstatus, sie and sip equal the architecturally defined masked views of mstatus, mie and mip, whichever of the two names software writes and whatever traps, returns and interrupts happen.", "quantifier": "every sequence of CSR writes, traps, returns and interrupt injections", "why_tests_cant": "two physical copies of the same bits must agree after every history", "anchors": ["back-end/Exu/Csr.cpp: comb_exception, comb_csr_write, comb_interrupt_inject"]}
{"id": "C28", "title": "Trap entry and trap return follow the privileged architecture", "statement": "For every state, taking a trap saves pc, cause, value, previous privilege and interrupt enable in the CSRs of the mode selected by delegation, disables interrupts there, and MRET/SRET restore exactly what was saved; a trap is never delivered to a mode less privileged than the one interrupted.", "quantifier": "all CSR values, privileges and trap causes", "why_tests_cant": "the product of CSR bits, causes and privilege modes is too large to enumerate", "anchors": ["back-end/Exu/Csr.cpp: comb_exception"]}
{"id": "C29", "title": "Interrupts are taken exactly when enabled and pending", "statement": "An interrupt is signalled exactly when some pending and enabled interrupt targets a mode whose interrupts are enabled (higher mode, or same mode with its interrupt-enable bit set), respecting delegation.", "quantifier": "all values of mstatus, mie, mip, mideleg and privilege", "why_tests_cant": "2^130 combinations", "anchors": ["back-end/Exu/Csr.cpp: eval_interrupts, comb_interrupt"]}
{"id": "C30", "title": "CSR writes take effect only when the instruction commits", "statement": "A CSR instruction that is executed but squashed leaves every CSR unchanged; when it commits, the CSR receives the read-write / set / clear result computed from the value before it.", "quantifier": "every schedule of execute, squash and commit", "why_tests_cant": "needs squash between execute and commit for every CSR", "anchors": ["back-end/Exu/Csr.cpp: comb_csr_write, seq", "back-end/Exu/Exu.cpp: comb_to_csr"]}
{"id": "C31", "title": "Address translation of the reference model implements Sv32", "statement": "For every memory content, root table, privilege and access type, translation succeeds with a physical address or reports a page fault exactly as the Sv32 algorithm prescribes (valid, readable/writable/executable, user, SUM, MXR, accessed/dirty and superpage alignment checks).", "quantifier": "all page tables, all virtual addresses, all privilege/status settings", "why_tests_cant": "page-table contents are unbounded; permission combinations interact", "anchors": ["diff/ref.cpp: RefCpu::va2pa"]}
{"id": "C32", "title": "Physical memory behaves as an array of words", "statement": "Reading a word returns the last value written to that word (zero if never written), a write never changes any other word, RAM and I/O addresses never alias, and the range test accepts exactly the accesses lying entirely inside RAM, even next to the top of the address space.", "quantifier": "all addresses, all sequences of reads and writes", "why_tests_cant": "2^32 addresses and unbounded histories; address arithmetic may overflow", "anchors": ["back-end/PhysMemory.cpp: pmem_read, pmem_write, pmem_is_ram_addr"]}
{"id": "C33", "title": "Sub-word loads and stores touch exactly the addressed bytes", "statement": "For every size, data, memory content and every aligned address that is not a device register a store changes exactly the bytes it names and leaves all others as they were, and a load returns the sign- or zero-extended bytes it names; a store followed by a load of the same size and address returns the stored bytes, extended. This holds for the reference model's instructions and for the byte lanes the core extracts and drives. A misaligned access stops the reference model.", "quantifier": "all addresses, data, sizes and memory contents", "why_tests_cant": "byte-lane errors depend on alignment, size and data", "anchors": ["diff/ref.cpp: RefCpu::store_data, RefCpu::RV32IM", "back-end/Lsu/include/MemUtils.h"]}
{"id": "C34", "title": "Store-conditional succeeds only with a live reservation", "statement": "After every history of loads, stores, read-modify-writes, load-reserved and store-conditional instructions, a store-conditional returns 0 exactly if a load-reserved of the same address was not followed by another load-reserved elsewhere, a store-conditional, or a store or read-modify-write to that address; it then replaces exactly the addressed word. Otherwise it returns 1 and changes nothing (address not a device register). After it no reservation is held.", "quantifier": "every history of LR/SC/store operations", "why_tests_cant": "depends on unbounded histories of reservations", "anchors": ["diff/ref.cpp: RefCpu::RV32A"]}
{"id": "C35", "title": "Wide bit vectors obey Boolean-vector algebra", "statement": "For every width, the wide bit-vector type's and/or/xor/not/shift/equality/assignment act bit-wise as on mathematical bit vectors of exactly that width, and bits above the width are always zero.", "quantifier": "all widths and all values", "why_tests_cant": "all widths and values; padding-bit errors appear only for widths not multiple of 8", "anchors": ["back-end/include/base_types.h: WideBits"]}
{"id": "C36", "title": "Derived widths can hold every index", "statement": "For every positive count n the computed ceil-log2 is the least w with n <= 2^w, the derived counter width (one more) represents every value from 0 to n, the index width is the least positive width representing every index 0..n-1, the power-of-two test accepts exactly the powers of two and the rounded division returns a nearest integer.", "quantifier": "all 32/64-bit counts", "why_tests_cant": "all parameter values, not just today's configuration", "anchors": ["include/config.h: clog2, is_power_of_two_u64", "back-end/include/base_types.h: bit_width_for_count"]}
{"id": "C37", "title": "Age comparison orders the in-flight window", "statement": "For any two instructions simultaneously in the reorder buffer, the age comparison based on index and wrap flag says 'younger' exactly when the instruction was dispatched later; within the window it is a strict total order.", "quantifier": "all head positions, wrap phases and pairs of window positions", "why_tests_cant": "errors show only when the window straddles the wrap", "anchors": ["back-end/include/util.h: cmp_inst_age", "back-end/Exu/Exu.cpp: cmp_inst_age", "back-end/include/IssueQueue.h: schedule"]}
{"id": "C38", "title": "Oldest misprediction wins", "statement": "When several branches resolve as mispredicted in one cycle, recovery is performed for the oldest of them, and every branch that resolved in that cycle is removed from all branch masks.", "quantifier": "any set of simultaneously resolving branches", "why_tests_cant": "needs simultaneous mispredictions in every order and wrap phase", "anchors": ["back-end/Exu/Exu.cpp: comb_fu2exu_collect"]}
{"id": "C39", "title": "Retirement makes progress", "statement": "Whenever no misprediction is being broadcast, the oldest instruction in the reorder buffer retires in the first cycle in which all its parts are finished, regardless of the state of younger instructions of the same line and of front-end stalls, unless it is a flushing fence waiting for pending stores; an interrupt request is honoured in the first such cycle, finished or not.", "quantifier": "every reachable reorder-buffer state and every input", "why_tests_cant": "A stuck commit needs a particular combination of line content, wrap phase and stall inputs; a test shows only that the combinations it met were not stuck.", "anchors": ["back-end/Rob.cpp: Rob::comb_commit"]}
{"id": "C40", "title": "Memory instructions get queue positions in program order", "statement": "A dispatched load or store is stamped with the store-queue position immediately after all older stores; a dispatched store owns exactly that position, a dispatched load owns a free load-queue entry, and slot b of a group owns entry b of the reorder-buffer line being filled. An instruction takes a load-queue entry exactly if it performs a load and a store-queue entry exactly if it writes store data.", "quantifier": "every reachable state of the stage, every group and every resource availability", "why_tests_cant": "depends on the mix of loads, stores and atomics in a group and on queue wrap-around", "anchors": ["back-end/Dispatch.cpp: comb_alloc, comb_fire", "back-end/include/IO.h: is_load, is_store"]}
{"id": "C41", "title": "Dispatch neither loses, duplicates nor reorders instructions", "statement": "Over any number of cycles without a flush, the instructions dispatched followed by those still waiting are those that waited at the start followed by those rename handed over; a flush or misprediction empties the stage and dispatches nothing.", "quantifier": "every run of any length from every reachable state", "why_tests_cant": "partial groups are retried over unboundedly many cycles under arbitrary back-pressure", "anchors": ["back-end/Dispatch.cpp: comb_fire, comb_pipeline, seq"]}
{"id": "C42", "title": "An instruction completes exactly when all its micro-operations have", "statement": "The completion bits an instruction waits for are all reported exactly when every micro-operation it was split into has reported (sc.w excepted, which reports its result through the load path).", "quantifier": "every decoded instruction and every subset of its micro-operations", "why_tests_cant": "quantifies over all instructions and completion subsets", "anchors": ["back-end/Dispatch.cpp: comb_dispatch, decompose_inst", "back-end/include/util.h: rob_cplt_mask_from_iq"]}
{"id": "C43", "title": "An operand waits exactly while its producer is outstanding", "statement": "When an instruction is dispatched, an operand is marked as waiting exactly if, in program order, the last event on its physical register is the dispatch of a producer that has not been broadcast as available since, counting this cycle's broadcasts and older instructions of the same group.", "quantifier": "every run of any length, every group, every set of broadcasts", "why_tests_cant": "relates the scoreboard to the whole event history, with same-cycle races between dispatch and wake-up", "anchors": ["back-end/Dispatch.cpp: comb_wake, comb_fire, busy_table"]}
{"id": "C44", "title": "Every issued operation is handed to exactly one functional unit", "statement": "An operation issued to a port that reported itself ready for that kind of operation is handed in that cycle to exactly one functional unit of the port, one that can execute it, and each port completes at most one operation per cycle, the first of those announced.", "quantifier": "every reachable state of a port with any list of units, every issued operation and every schedule of kills", "why_tests_cant": "depends on coincidences of back-pressure, kills and completion in the same cycle", "anchors": ["back-end/Exu/Exu.cpp: comb_ready, comb_pipeline, comb_exu2fu_dispatch, comb_fu2exu_collect"]}
{"id": "C45", "title": "A full pipeline flush empties the functional units", "statement": "After a full pipeline flush (exception, interrupt, CSR commit) no operation issued before the flush ever completes, is reported to the reorder buffer or writes a register.", "quantifier": "every reachable state and every operation in flight", "why_tests_cant": "needs a flush in every cycle of every multi-cycle operation with every branch dependence", "anchors": ["back-end/Exu/include/AbstractFU.h: FixedLatencyFU::comb_ctrl, IterativeFU::comb_ctrl", "back-end/Exu/Exu.cpp: comb_fu_ctrl", "include/config.h: MAX_BR_NUM", "back-end/include/base_types.h: wire"]}
{"id": "C46", "title": "Multi-cycle results are announced exactly one cycle before they can be read", "statement": "An instruction waiting for a multiply, divide or floating-point result is woken exactly in the cycle before the result can first be read, once per result, never for a result that was not issued; the wake-up bookkeeping never runs out of room.", "quantifier": "every reachable state, every latency, every schedule of issue, kill and flush", "why_tests_cant": "an off-by-one shows only for specific producer/consumer distances and port contention", "anchors": ["back-end/Isu.cpp: get_latency, comb_calc_latency_next, comb_awake, comb_flush", "back-end/Exu/include/AbstractFU.h: FixedLatencyFU, IterativeFU", "back-end/Exu/include/FPU.h: calculate_latency"]}
{"id": "C47", "title": "No wake-up announcement is lost to another one", "statement": "Whenever several multi-cycle results are announced in the same cycle, every one of them reaches the waiting instructions.", "quantifier": "every reachable combination of divide, floating-point and multiply operations in flight", "why_tests_cant": "needs two units of different latency on one port to finish in the same cycle", "anchors": ["back-end/Isu.cpp: comb_awake", "include/config.h: GLOBAL_ISSUE_PORT_CONFIG"]}
{"id": "C48", "title": "An announced result can be read from then on", "statement": "From the first cycle in which a result is broadcast, every instruction that reads the register gets that result: while the unit still waits for its port, in the cycle after the port took it, and later for as long as the register has no other producer. A loaded value is announced in the cycle after its delivery and is readable in that cycle.", "quantifier": "every reachable state of execution ports and register file, every schedule of port conflicts, kills and flushes", "why_tests_cant": "a one-cycle gap between bypass network, write-back stage and register file is hit only by particular distances and port conflicts", "anchors": ["back-end/Prf.cpp: read_operand_with_bypass, comb_awake, comb_write, comb_pipeline", "back-end/Exu/Exu.cpp: comb_fu2exu_collect", "back-end/Exu/include/AbstractFU.h"]}
{"id": "C49", "title": "A CSR write changes only the addressed register, and only as its mode allows", "statement": "A committed CSR instruction addresses the register with the architecture's number, changes its writable bits to the result of the write/set/clear command, leaves its other bits and every other register (except the second name of the same bits) unchanged, and takes effect only in a mode privileged enough for that register.", "quantifier": "all registers, numbers, commands, operands and modes, in every reachable state", "why_tests_cant": "21 registers times 2^32 values and operands times modes; aliases make writes interfere", "anchors": ["back-end/Exu/Csr.cpp: comb_csr_write, cvt_number_to_csr", "back-end/Exu/include/Csr.h"]}
{"id": "C50", "title": "Atomic read-modify-write instructions return the old word and store the defined result", "statement": "For each of the nine AMO instructions, every operand, memory content and aligned address that is not a device register, the reference model returns the word previously in memory, replaces it by the result the manual defines (signed or unsigned minimum/maximum, sum, exclusive or, and, or, swap) and changes no other byte; a misaligned address stops the simulation.", "quantifier": "all operations, operands, addresses and memory contents", "why_tests_cant": "signedness and boundary values interact over 2^64 operand pairs; frame condition ranges over all of memory", "anchors": ["diff/ref.cpp: RefCpu::RV32A, RefCpu::store_data"]}
{"id": "C51", "title": "A load is handed a queued store's data only if that store is the newest overlapping one and covers the load", "statement": "Whatever the store queue holds: a load goes to the data cache exactly if every older store in the queue has a known address and touches none of the loaded bytes; a load is handed the data of a queued store only if that store covers all loaded bytes, its data are present, every store between it and the load has a known address and touches none of them, and the value is the sign- or zero-extended part of the stored data; otherwise the load waits.", "quantifier": "all queue contents, all positions, addresses (naturally aligned accesses), sizes and signedness", "why_tests_cant": "The decision depends on all queue entries between the load and the head, and on overlaps of 1/2/4-byte ranges at every address; a test sees a few of these.", "anchors": ["back-end/Lsu/RealLsu.cpp: RealLsu::comb_stlf"]}
{"id": "C52", "title": "The load/store queues never run into an internal assertion and announce consistent positions", "statement": "In every execution in which dispatch respects the announced free space, and only stores that reported are committed, no assertion of the load/store unit fails; the tail position and flag announced to dispatch always number the next store in program order, and the occupancy equals the number of stores dispatched and not yet retired or squashed.", "quantifier": "all executions (any queue length, any order of address/data arrival, cache answers, mispredictions, flushes)", "why_tests_cant": "Ring pointers with wrap flags go wrong only after particular sequences of flush, commit and wrap-around.", "anchors": ["back-end/Lsu/RealLsu.cpp: RealLsu::comb_lsu2dis, RealLsu::comb_dis2lsu, RealLsu::alloc_stq_entry, RealLsu::comb_stq_commit, RealLsu::comb_check, RealLsu::comb_flush"]}
{"id": "C53", "title": "A load returns the value left by the stores before it in program order", "statement": "A load that writes back holds the value that memory has at its address after exactly the stores preceding it in the program, however those that are still undecided turn out; in particular no younger store is ever visible to it and no older store is missed, wherever these stores are (queue, cache request, memory).", "quantifier": "all executions: any interleaving of address and data arrival, translations, forwarding, cache sampling, replays, commits, mispredictions, flushes; any queue length and initial memory", "why_tests_cant": "Memory ordering bugs need a rare interleaving of several stores, a load and cache answers.", "anchors": ["back-end/Lsu/RealLsu.cpp: RealLsu::comb_stlf, RealLsu::comb_lsu2dcache_ldq, RealLsu::comb_dcache2lsu_ldq, RealLsu::comb_lsu2exe, RealLsu::handle_load_req, RealLsu::handle_store_addr, RealLsu::handle_store_data"]}
{"id": "C54", "title": "Memory holds exactly the committed stores, in program order per byte", "statement": "At any time memory equals the initial memory with a subset of the committed stores carried out, in an order that leaves each byte with the value of its newest carried-out store and only leaves out stores that are still in the queue; when the queue is empty, memory is the result of all effective stores of the program in order. Uncommitted or squashed stores never reach memory.", "quantifier": "all executions", "why_tests_cant": "Stores may be carried out by the cache out of order, be replayed and be squashed around; the claim ranges over all interleavings.", "anchors": ["back-end/Lsu/RealLsu.cpp: RealLsu::comb_lsu2dcache_stq, RealLsu::comb_dcache2lsu_stq, RealLsu::comb_stq_commit, RealLsu::comb_flush"]}
{"id": "C55", "title": "Device accesses bypass the cache and are performed in order", "statement": "No access to a device address is sent to the data cache; a device load starts only as the oldest instruction with no older store in the queue; a device store starts only once committed and as the oldest store; only one device access is under way at a time.", "quantifier": "all executions", "why_tests_cant": "Side-effecting accesses issued speculatively or twice show only under particular timing.", "anchors": ["back-end/Lsu/RealLsu.cpp: RealLsu::comb_mmio_out, RealLsu::comb_mmio_in, RealLsu::comb_stlf, RealLsu::comb_lsu2dcache_stq"]}
{"id": "C56", "title": "Store-conditional succeeds exactly with a matching reservation", "statement": "When a store-conditional reports, it stores and returns 0 if a reservation for its address is held, else it stores nothing and returns 1; in either case the reservation ends; once no reservation is held, no store-conditional succeeds before a load-reserved has written back.", "quantifier": "all executions and addresses", "why_tests_cant": "Requires all histories of load-reserved, store-conditional, squashes and other stores.", "anchors": ["back-end/Lsu/RealLsu.cpp: RealLsu::comb_lsu2exe, RealLsu::comb_flush"]}
{"id": "C57", "title": "Every cache request is answered once, in order, and no cache assertion fails", "statement": "Every load and store handed to the data cache in a processor cycle is answered in the next one, exactly once, in order, with its own address and identification; nothing is answered in between; and for every behaviour of the interconnect within its rules none of the assertions of the data cache, MSHRs and write buffer fails.", "quantifier": "all executions, all request sequences, all interconnect timings", "why_tests_cant": "Lost or duplicated answers and queue overflows need particular combinations of misses, evictions, stalls and response timing.", "anchors": ["MemSubSystem/MemSubsystem.cpp: MemSubsystem::capture_dcache_raw_response, MemSubsystem::publish_pending_dcache_response, MemSubsystem::dcache_fast_comb", "MemSubSystem/RealDcache.cpp", "MemSubSystem/MSHR.cpp", "MemSubSystem/WriteBuffer.cpp"]}
{"id": "C58", "title": "A load answered with a hit returns the value of memory", "statement": "A load answered with a hit returns the word that memory holds after all stores answered with a hit in earlier cycles and some first stores of its own cycle.", "quantifier": "all executions, all interconnect timings", "why_tests_cant": "A stale value needs a load to meet a line exactly while it is fetched, merged, evicted or written back.", "anchors": ["MemSubSystem/RealDcache.cpp: fill_req_merge_wires", "MemSubSystem/MemSubsystem.cpp: MemSubsystem::forward_pending_response_from_fill", "MemSubSystem/MSHR.cpp", "MemSubSystem/WriteBuffer.cpp"]}
{"id": "C59", "title": "No acknowledged store is lost on its way to memory", "statement": "For each byte whose line is not in a dirty way, the write buffer or an outstanding miss, the memory behind the cache holds the value described by the stores answered with a hit (those whose answer is still to be handed out included); stores answered with a replay have no effect. Once nothing is held back, memory as a whole is the one described by the answers.", "quantifier": "all executions, all interconnect timings, all addresses", "why_tests_cant": "Loss shows only when the line is evicted and read again much later.", "anchors": ["MemSubSystem/RealDcache.cpp", "MemSubSystem/WriteBuffer.cpp", "MemSubSystem/MSHR.cpp"]}
{"id": "C60", "title": "A line exists in one place only", "statement": "A line is in at most one way of its set; a line in the arrays is neither in the write buffer nor being fetched; a line being fetched is fetched once and is not in the write buffer.", "quantifier": "all executions", "why_tests_cant": "Duplicates need two misses or an eviction and a miss to the same line in a small window.", "anchors": ["MemSubSystem/RealDcache.cpp", "MemSubSystem/MSHR.cpp", "MemSubSystem/WriteBuffer.cpp"]}
{"id": "C61", "title": "Replacement picks a free way and never the one used last", "statement": "The way chosen for a new line exists, is a free one if the set has one, and in a full set is never the one touched last.", "quantifier": "all contents of the replacement state", "why_tests_cant": "All tree states times all touch histories.", "anchors": ["MemSubSystem/DcacheConfig.cpp: choose_plru_tree_victim, plru_touch_way"]}
{"id": "C62", "title": "Bank conflicts", "statement": "Of the loads and stores taken by the data cache in one cycle, any two that are served and use the same bank are for the same line; one that is refused finds its bank taken by a different line, either of a served request or of the line being filled.", "quantifier": "all request combinations", "why_tests_cant": "All combinations of addresses over all ports.", "anchors": ["MemSubSystem/RealDcache.cpp: try_grant_bank"]}
{"id": "C63", "title": "Sharing the last load port is invisible to the load/store unit", "statement": "In the cycle after the load/store unit presents loads to the memory system it receives exactly one answer per load, on the same port and under the load's own identifier, and no other answer. The answer is the data cache's answer to that very request, or, on the last port only, a demand to retry; the latter happens only if the instruction cache or the page-table walker asked for memory in that cycle and was given the port.", "quantifier": "all executions of the routing block with any number of load ports, any requests of all requesters and any cache answers", "why_tests_cant": "The collision of three requesters on a port with answers arriving one cycle later depends on cycle-exact coincidences.", "anchors": ["MemSubSystem/MemRouteBlock.cpp: comb_response, comb_request"]}
{"id": "C64", "title": "Instruction cache and page-table walker get their own answers in bounded time", "statement": "The instruction cache is answered exactly in the cycle after its look-up was sent to the data cache and with the cache's answer to it. Data handed to the page-table walker is the word with which the data cache answered the walker's own granted read. Of two consecutive cycles in which the instruction cache asks one is served; a walker that asks three cycles in a row is granted.", "quantifier": "all executions, any requests of the others", "why_tests_cant": "Fairness and absence of cross-talk are claims about all request sequences.", "anchors": ["MemSubSystem/MemRouteBlock.cpp: comb_response, comb_request"]}
{"id": "C65", "title": "No lost wake-up of the page-table walker", "statement": "While the two TLBs share one walker, a walker whose read was refused because its line has to be fetched is told to repeat it when the data cache completes a line fill, whatever else happened in between; a read refused for any other reason is repeated at once.", "quantifier": "all executions", "why_tests_cant": "A lost wake-up shows only as a hang after a specific overlap of misses.", "anchors": ["MemSubSystem/MemRouteBlock.cpp: comb_response, ptw_wait"]}
{"id": "C66", "title": "The TLBs translate as the privileged manual prescribes", "statement": "Whenever the data or the instruction TLB answers a request, the answer is the physical address, or the page fault, that the Sv32 rules of the privileged manual give for the page tables in memory under the current satp, mstatus and privilege mode - including superpages, global pages, address-space identifiers, SUM, MXR and MPRV - no matter which refills, evictions, cancelled walks, walks of the other TLB and refused reads came before; provided memory has not changed since the last SFENCE.VMA and software has not given two address spaces the same identifier. A port without request gets no answer.", "quantifier": "all executions of the two TLBs of any size, the walker and the routing block; all page tables, addresses, access types and modes", "why_tests_cant": "A wrong cached translation needs a particular sequence of refill, eviction, mode change and cancelled walk; page-table contents are unbounded.", "anchors": ["back-end/Lsu/TlbMmu.cpp: translate, translate_lsu_ports, cancel_pending_walk, flush", "MemSubSystem/include/MemPtwBlock.h: comb_begin, comb_finish"]}
{"id": "C67", "title": "The core and the reference model translate alike", "statement": "In the same machine state a load or store is translated by the core to the address the reference model uses, or faults in both; the same holds for instruction fetches.", "quantifier": "all executions; all memories, addresses and modes", "why_tests_cant": "The two implementations share no code; agreement is over all page tables and modes.", "anchors": ["back-end/Lsu/TlbMmu.cpp: translate, translate_lsu_ports, cancel_pending_walk, flush", "diff/ref.cpp: va2pa"]}
{"id": "C68", "title": "A page-table walk is neither lost nor mixed up", "statement": "While a TLB waits for a walk, its own request is in exactly one place: queued at the walker, being walked, or answered, and the answer carries the address asked for. A TLB that has given up its walk finds neither a request nor an answer of its former one. While the walker waits for a page-table entry, its read is before the data cache under the right address, or it is registered to be told to repeat it. The TLB's assertion against double requests never fails.", "quantifier": "all executions, including flushes and cancellations in any phase of a walk", "why_tests_cant": "The races between cancellation, response and the two clients are cycle-exact and rare.", "anchors": ["back-end/Lsu/TlbMmu.cpp: translate, translate_lsu_ports, cancel_pending_walk, flush", "MemSubSystem/include/MemPtwBlock.h: comb_begin, comb_finish", "MemSubSystem/MemRouteBlock.cpp: comb_response, comb_request"]}
{"id": "C69", "title": "Bounded waiting for a translation", "statement": "A request at the page-table walker is answered within fifteen cycles as long as the data cache delivers the page-table entries, whatever the other TLB, the instruction cache and the load/store unit do; the two TLBs take turns. A fetch that keeps asking is answered within seventeen cycles.", "quantifier": "all reachable states and all schedules of the other requesters", "why_tests_cant": "Starvation shows only under adversarial schedules.", "anchors": ["back-end/Lsu/TlbMmu.cpp: translate, translate_lsu_ports, cancel_pending_walk, flush", "MemSubSystem/include/MemPtwBlock.h: comb_begin, comb_finish"]}
{"id": "C70", "title": "Predecoding agrees with the reference executor", "statement": "The predecoder calls a word a jal, a jalr or a conditional branch exactly when its opcode says so, and the target it computes for a jal or a branch is where the reference model goes when it executes that word at that address; after any word of no such kind the reference model goes to the next word.", "quantifier": "all 32-bit words, all addresses, all register contents", "why_tests_cant": "2^32 words times 2^32 addresses; the immediates are reassembled by two unrelated pieces of code.", "anchors": ["front-end/predecode.cpp: predecode_comb", "diff/ref.cpp: RV32IM"]}
{"id": "C71", "title": "Directions and next address of a fetch group agree with its instructions", "statement": "In every fetch group handed to the back end: only valid control transfers are marked taken; every valid jal and jalr is marked taken; if the first marked instruction is a jal or a branch, the group's next address is its encoded target; if none is marked, the next address is the word behind the group, or the end of its cache line if that comes first. A jal executed by the branch unit with the direction and next address handed over with it is therefore never found mispredicted (it owns no branch tag, so the core could not recover). This holds whatever the predictors said.", "quantifier": "all executions; all group widths up to a cache line, all power-of-two line sizes, all queue sizes, with and without the two bypasses", "why_tests_cant": "The predictors can say anything; a wrong prediction has to be corrected for every instruction mix.", "anchors": ["front-end/predecode.cpp: predecode_comb", "front-end/predecode_checker.cpp: predecode_checker_comb", "front-end/front_top.cpp: front_comb_calc, front_seq_write", "back-end/include/util.h: is_branch", "back-end/Exu/include/Fu.h: BruUnit"]}
{"id": "C72", "title": "The delivered fetch groups form one path", "statement": "The first group handed to the back end after a reset or a redirect starts at the redirect's address; every later group starts at the next address the group before it carried; addresses within a group are consecutive words; nothing is handed over in the cycle of a redirect. Redirects found by predecoding, full queues and late answers of the instruction cache do not break the chain, repeat or skip a group.", "quantifier": "all executions: every predictor behaviour, every timing of the back end and the instruction cache", "why_tests_cant": "Four queues with separately latched full and empty flags, a correction path and the redirects interleave in unboundedly many ways.", "anchors": ["front-end/front_top.cpp: front_comb_calc, front_seq_write", "front-end/fifo/fetch_address_FIFO.cpp: fetch_address_FIFO_comb", "front-end/fifo/instruction_FIFO.cpp: instruction_FIFO_comb", "front-end/fifo/PTAB.cpp: PTAB_comb", "front-end/fifo/front2bank_FIFO.cpp: front2back_FIFO_comb"]}
{"id": "C73", "title": "The front end never aborts and loses no fetched group", "statement": "No execution reaches one of the front end's internal aborts (queue overflow, read of an empty queue, mismatch between a fetched group and its prediction, two reads or writes of a queue in a cycle). Outside of redirects, the groups handed over plus those held equal those held before plus those the instruction cache delivered.", "quantifier": "all executions, for any instruction cache that answers accepted requests in order and none after a redirect", "why_tests_cant": "Aborts need a coincidence of full queues and back pressure.", "anchors": ["front-end/front_top.cpp: front_comb_calc, front_seq_write", "front-end/fifo/fetch_address_FIFO.cpp: fetch_address_FIFO_comb", "front-end/fifo/instruction_FIFO.cpp: instruction_FIFO_comb", "front-end/fifo/PTAB.cpp: PTAB_comb", "front-end/fifo/front2bank_FIFO.cpp: front2back_FIFO_comb"]}
{"id": "C74", "title": "The delivered words come from the instruction cache", "statement": "The instruction words, page-fault marks and valid marks of every group handed to the back end are those of one answer the instruction cache gave for the group's start address since the last reset or redirect by the back end.", "quantifier": "all executions", "why_tests_cant": "A stale group surviving a redirect shows only under particular timings.", "anchors": ["front-end/front_top.cpp: front_comb_calc, front_seq_write", "front-end/fifo/instruction_FIFO.cpp: instruction_FIFO_comb"]}
{"id": "C75", "title": "The front end does not stall by itself", "statement": "In any stretch of cycles without reset or redirect in which the back end takes groups but gets none, at most three cycles are not spent waiting for the instruction cache (cache not ready, or an answer outstanding).", "quantifier": "all reachable states, all predictor behaviours, queue sizes of at least two addresses, two predictions and one group", "why_tests_cant": "A lost wake-up needs a particular combination of latched flags.", "anchors": ["front-end/front_top.cpp: front_comb_calc, front_seq_write"]}
{"id": "C76", "title": "The instruction cache answers the accepted request, once", "statement": "An answer of the instruction cache is for the one request that was accepted and neither answered nor withdrawn; there is none in a cycle in which the requests are withdrawn, and a request answered or withdrawn is never answered again. This holds whatever reads, probes and translations of withdrawn requests are still under way.", "quantifier": "all executions: all sequences of requests, redirects, fence.i, second calls, translations, probe answers, and memory answers in any order and with any delay", "why_tests_cant": "It depends on the exact cycle in which a redirect meets an acceptance, an answer or a probe; tests reach few of these interleavings.", "anchors": ["front-end/icache/icache_module.cpp: eval_state_machine, capture_lookup_meta_result", "front-end/icache/ICacheTop.cpp: eval_true_glue", "front-end/icache/icache.cpp: icache_comb_calc, icache_peek_ready, icache_seq_read", "front-end/front_top.cpp: front_comb_calc, front_seq_write"]}
{"id": "C77", "title": "Fetched words are those of the translated address", "statement": "If the MMU says that fetching from the page faults, every valid lane of the answer is marked. Otherwise the lanes up to the end of the 64-byte line of the requested address are the valid ones, none is marked, and lane j holds word j, counted from the request, of the line at the translated physical address; that line is either made of words the data cache reported, or was returned by the memory after the data cache missed a word of it, all since the last fence.i.", "quantifier": "all executions; all translations, contents, hit and miss patterns, delays", "why_tests_cant": "A stale line, a line filled from the answer to a withdrawn read, or a wrong word of the line shows only for particular interleavings of redirects, fence.i and answers.", "anchors": ["front-end/icache/icache_module.cpp: eval_state_machine, capture_lookup_meta_result", "front-end/icache/ICacheTop.cpp: eval_true_glue", "front-end/icache/icache.cpp: icache_comb_calc, icache_peek_ready, icache_seq_read"]}
{"id": "C78", "title": "Transaction numbers of the instruction cache's reads are free, and every answer is taken", "statement": "A read the instruction cache puts on its memory port carries a number that no accepted and unanswered read carries. An answer shown in a cycle without a redirect is taken in that cycle; one shown in a cycle with a redirect is taken in the next cycle at the latest.", "quantifier": "all executions", "why_tests_cant": "Reuse of a number in flight needs a withdrawn read whose answer is late; a missed answer blocks the port forever only in particular overlaps.", "anchors": ["front-end/icache/icache_module.cpp: eval_state_machine, capture_lookup_meta_result"]}
{"id": "C79", "title": "The instruction cache waits only for others", "statement": "Of the cycles in which an accepted request is neither answered nor withdrawn, at most 52 are not spent waiting for a translation, for a free transaction number while all sixteen are in flight, for the read to be accepted, or for its answer.", "quantifier": "all executions, all reachable states", "why_tests_cant": "A state the cache never leaves is not seen unless the test happens to enter it.", "anchors": ["front-end/icache/icache_module.cpp: eval_state_machine, capture_lookup_meta_result", "front-end/icache/icache.cpp: icache_comb_calc, icache_peek_ready, icache_seq_read"]}
{"id": "C80", "title": "The back end gets the words of the path", "statement": "For the front end connected to its instruction cache: no execution aborts; the groups handed to the back end form one path (each starts at the address of the last redirect or where the group before it says), and every group holds the words, valid marks and page-fault marks of its own addresses under the translations in force since the last redirect by the back end and the contents reported since the last fence.i.", "quantifier": "all executions of front end and instruction cache together, all predictor behaviours", "why_tests_cant": "It needs the alignment of addresses, predictions and answers to survive every order of redirects found early, redirects by the back end, full queues and late memory answers.", "anchors": ["front-end/front_top.cpp: front_comb_calc, front_seq_write", "front-end/icache/icache.cpp: icache_comb_calc, icache_peek_ready, icache_seq_read", "front-end/icache/icache_module.cpp: eval_state_machine, capture_lookup_meta_result"]}
{"id": "C81", "title": "The reference model takes traps as the core does", "statement": "From equal CSRs and privilege level, an instruction that raises an exception (ECALL, fetch, load or store page fault, illegal instruction), an MRET or SRET, and an interrupt taken before an instruction leave the in-tree reference model and the core's CSR unit with equal CSRs and privilege level and continue at the same address; the reference's registers and memory are untouched, so differential testing reports no trap that both handle correctly.", "quantifier": "all reachable states of the CSR unit, all reference states with the same CSRs, all instruction words, addresses, page tables and times", "why_tests_cant": "The outcome depends on the delegation registers, the trap vectors, the pending and enabled interrupts and on what the previous instruction was; tests boot with one configuration.", "anchors": ["diff/ref.cpp: exec, exception, RISCV, va2pa_fix", "back-end/Exu/Csr.cpp: comb_exception, comb_interrupt", "diff/diff.cpp: checkregs"]}
{"id": "C82", "title": "The reference model executes CSR instructions as the core does", "statement": "From equal CSRs and privilege level, a CSR instruction leaves the reference model and the core with equal CSRs, gives rd the same old value, changes no other register and goes on at the next word; one that names a CSR that does not exist changes nothing on either side.", "quantifier": "all reachable states, all CSR instructions, all register values", "why_tests_cant": "There are 4096 CSR numbers, six operations, write masks and aliases; tests touch a few registers with a few values.", "anchors": ["diff/ref.cpp: RV32CSR", "back-end/Exu/Csr.cpp: comb_csr_read, comb_csr_write", "back-end/Idu.cpp: decode"]}
{"id": "C83", "title": "Differential testing passes exactly when core and reference agree", "statement": "A run with differential testing passes if and only if every committed instruction that is not exempt (interrupted, marked as not comparable, accessing a device, naming mip or sip while a device drives its line, or storing to an address not known) leaves the core with the registers, CSRs (interrupt-pending bits masked when the instruction does not name them), next address, instruction word, page-fault marks and, if the reference stores, the store address and data that the reference shows after one step; so the first disagreement is reported and there are no other reports.", "quantifier": "all runs of any length, all reference models", "why_tests_cant": "A test shows that some runs pass; that nothing compared can differ in a passed run is a claim about all runs.", "anchors": ["diff/diff.cpp: checkregs, difftest_step, difftest_sync_from_dut", "rv_simu_mmu_v2.cpp: difftest_prepare, run_difftest_inst"]}
{"id": "C84", "title": "Single-precision instructions compute the architectural result on both sides", "statement": "Every single-precision Zfinx instruction other than the fused multiply-adds decodes to a floating-point operation with the register fields of the word; the floating-point unit and the reference model both compute the architectural result: the library's arithmetic in the given rounding mode, exact sign injection, IEEE minimum and maximum with NaNs and signed zeros, quiet comparisons, and the class bit of the operand; nothing else changes.", "quantifier": "all instruction words of the list, all operand values, all libraries whose comparisons and subtraction are those of IEEE 754", "why_tests_cant": "There are 2^64 operand pairs; NaN payloads, signed zeros and subnormals are where implementations differ.", "anchors": ["back-end/Exu/include/FPU.h: FPUSoftfloat", "diff/ref.cpp: RV32Zfinx", "back-end/Idu.cpp: decode"]}
{"id": "C85", "title": "The timer runs on from where it was set and raises its line when due", "statement": "After any history of device stores and cycles, the two timer words read as a 64-bit clock that has run on by the elapsed simulation time from the value last set, half by half; the two compare words read as last written; and after every cycle, and right after every timer store, the timer interrupt line is high exactly when the clock has reached the compare value.", "quantifier": "all histories of device stores and cycles, all times (with 64-bit wrap-around)", "why_tests_cant": "The value depends on all earlier stores to both halves and on the time of each; tests set the timer once.", "anchors": ["MemSubSystem/include/PeripheralModel.h: on_commit_store, read_load, tick, update_timer_irq"]}
{"id": "C86", "title": "The UART prints what is sent and the interrupt controller names the pending interrupt", "statement": "The simulated console output is the sequence of bytes stored to the UART's data register, in order.  After every cycle the claim register names a pending interrupt (the DMA's before the UART's, 0 if there is none) and the external interrupt line is high exactly when one is pending; an interrupt is pending from the store that raises it until a store that completes it.  Every other device register is memory for loads and stores of any width.", "quantifier": "all histories of device stores and cycles", "why_tests_cant": "Order of raising, claiming and completing is arbitrary; a lost or stuck interrupt shows only in some interleavings.", "anchors": ["MemSubSystem/include/PeripheralModel.h: on_commit_store, tick, update_external_irq"]}
{"id": "C87", "title": "A DMA transfer copies exactly the bytes asked for", "statement": "The source, destination and length registers read as last written.  Starting a transfer copies the source bytes as they were before the transfer to the destination, even if the ranges overlap, changes no other byte of memory (but the claim register), and reports that it is done; if one of the ranges is empty or not wholly in RAM, no memory changes and an error is reported.", "quantifier": "all histories, all memories, sources, destinations and lengths", "why_tests_cant": "Overlap, wrap-around of the address space and unaligned ends are rare; there are 2^96 register settings.", "anchors": ["MemSubSystem/include/PeripheralModel.h: start_dma_transfer", "back-end/PhysMemory.cpp: pmem_is_ram_addr"]}
{"id": "C88", "title": "Device accesses complete once, on time and with their own answer", "statement": "An access to one of the simulator's own devices completes exactly two cycles after it starts, with the value the device showed in the cycle of the start, unless it is a load that is flushed before, which then never completes.  A store to any other device puts exactly its bytes on the AXI port until the interconnect takes them, is never written a second time, and completes two cycles after the answer.  Nothing else completes and nothing else is requested.", "quantifier": "all runs of any length, all answers and delays of the interconnect, all flushes, all device values; accesses start when none is under way or completing, loads only from the simulator's own devices", "why_tests_cant": "Whether an answer reaches the wrong access depends on the cycle of flushes and of the interconnect's handshakes.", "anchors": ["MemSubSystem/PeripheralAxi.cpp: comb_outputs, comb_inputs", "back-end/Lsu/RealLsu.cpp: comb_mmio_in, comb_mmio_out"]}
{"id": "C89", "title": "Loads from external devices read the device once and get its answer", "statement": "A load from a device behind the AXI port asks for its bytes until the request is taken, reads the device once, and completes two cycles after the answer with the answer, extended as its width says; no other access gets that answer.", "quantifier": "all runs, all delays and answers of the interconnect, all flushes", "why_tests_cant": "Registers with side effects on reads and slow answers are not in the tests; the wrong answer reaches the next access only for some delays.", "anchors": ["MemSubSystem/PeripheralAxi.cpp: comb_outputs, comb_inputs, extract_read_data", "back-end/Lsu/RealLsu.cpp: comb_mmio_in, comb_mmio_out"]}
{"id": "C90", "title": "Out-of-order execution computes the values of sequential execution", "statement": "Whatever order instructions run in, whatever is predicted, and however many wrong-path instructions are in flight: an instruction whose producers have run reads, from the physical registers it was renamed to, the values a sequential machine has after the instructions before it, and an instruction that has run has left the sequential machine's result in its destination register and found the sequential machine's next address.", "quantifier": "all programs (instructions as arbitrary functions of two sources and an external state), all numbers of physical registers, all rename widths, all reachable states, all orders of execution, predictions, stalls, mispredictions, flushes and interrupts", "why_tests_cant": "Needs the rename map, its checkpoints, the free list and the register file to fit together in every interleaving of renaming, execution, retirement and recovery.", "anchors": ["back-end/Ren.cpp: comb_alloc, comb_rename, comb_fire, comb_pipeline", "back-end/Prf.cpp: comb_read, comb_write"]}
{"id": "C91", "title": "What retires is an execution of the program", "statement": "The instructions that retire, with the traps, interrupts and flushes between them, are an execution of the program from the reset address: each retired instruction is the one the sequential machine's pc points to.  The registers seen through the committed map are that execution's registers.  Two machines with different widths, register counts, schedules and predictors that retired equally many instructions between the same traps retired the same instructions and have the same registers.", "quantifier": "all programs, all configurations, all reachable states, all schedules and predictions", "why_tests_cant": "Universal over programs and over interleavings of the whole pipeline; a wrong interleaving corrupts a register long before a test sees it.", "anchors": ["back-end/Ren.cpp: comb_fire, comb_pipeline", "back-end/Rob.cpp: comb_commit"]}
{"id": "C92", "title": "The core retires what the reference model executes", "statement": "On programs of integer, multiplication, division, bit-manipulation, jump, branch, load, store and read-modify-write instructions without translation, interrupts or self-modification: after every cycle, whatever the core has fetched, predicted, squashed and reordered, the reference model started in the same state and called once for every retired instruction does not stop, and has the core's 32 committed registers, next address and memory.  So the differential test reports no mismatch.", "quantifier": "all such programs, all initial registers and memories, all reachable states of cores of every size and width, all schedules and predictions, all times and fault flags the reference is given", "why_tests_cant": "Universal over programs, data and interleavings; a test compares the two models on one program and one timing.", "anchors": ["diff/ref.cpp: RISCV, RV32IM, RV32A, exec", "diff/diff.cpp: checkregs, difftest_step", "back-end/Idu.cpp: decode", "back-end/Dispatch.cpp: decompose_inst", "back-end/Exu/include/Fu.h: AluUnit, BruUnit, AguUnit, SduUnit", "back-end/Ren.cpp: comb_fire"]}
{"id": "C93", "title": "Retired instructions train the predictor once, in order, and its queues never overflow", "statement": "Each bank of the branch predictor is trained with exactly the instructions reported retired whose address belongs to it, each once, in retirement order, and each after as many cycles as there are instructions queued before it (fewer than the queue depth).  Whatever the reorder buffer retires, the queues never overflow (the simulator never exits), although their back-pressure does not stop retirement.", "quantifier": "all configurations meeting the static assertions, all runs from reset of any length, all contents of the reorder buffer in every cycle, all predictions", "why_tests_cant": "The queue holds 500 entries per bank and fills only under long bursts to one bank; no finite set of programs covers all fill levels and retirement patterns.", "anchors": ["front-end/BPU/BPU.h: bpu_queue_comb, update_queue_full", "back-end/Rob.cpp: front_stall, progress_single_commit", "rv_simu_mmu_v2.cpp: back2front_comb, front_cycle"]}
{"id": "C94", "title": "Global histories are the program's histories", "statement": "After any run the retired global history, its twelve folded copies and the path history are those of exactly the conditional branches reported retired, in order: bit i is the outcome of the i-th newest branch, each folded copy is the parity folding of the newest outcomes.  The same holds for the speculative registers and the branches on the predicted path.  A redirect makes the speculative registers equal to the retired ones.", "quantifier": "all configurations meeting the static assertions, all runs from reset of any length, all predictions and redirects", "why_tests_cant": "The folded copies are updated incrementally; a mistake shows only as slightly worse prediction after some history of up to 119 branches.", "anchors": ["front-end/BPU/BPU.h: bpu_hist_comb, tage_path_update_value, bpu_core_comb_calc", "front-end/BPU/dir_predictor/TAGE_top.h: tage_ghr_update_comb, tage_fh_update_comb"]}
{"id": "C95", "title": "The return-address stack holds the open calls", "statement": "After any run the retired return stack holds the return addresses of the open calls of the program, innermost first, as many as fit, and all of them while nesting stays within its depth; a predicted return goes to the innermost speculative open call.  Every instruction word that the RISC-V manual makes a call or a return is treated as one, once.", "quantifier": "all 32-bit instruction words, all runs from reset, all nesting depths", "why_tests_cant": "Universal over instruction words and call histories of unbounded length.", "anchors": ["front-end/BPU/BPU.h: ras_push, ras_pop, bpu_hist_comb, bpu_predict_main_comb", "rv_simu_mmu_v2.cpp: back2front_comb", "back-end/Idu.cpp: decode, is_ret"]}
{"id": "C96", "title": "Fetch groups tile the address space and spread over the banks", "statement": "The instructions predicted together are the consecutive words from the fetch address up to the end of the group or of the cache line, whichever comes first; they lie in one line and in pairwise different banks; without a taken prediction the next fetch is exactly one word after the last of them.  Bank number and bank address together determine the word address, for any number of banks.", "quantifier": "all fetch addresses, all configurations meeting the static assertions (bank numbers that are powers of two or not), all predictions", "why_tests_cant": "Universal over 32-bit addresses and configurations.", "anchors": ["front-end/BPU/BPU.h: bank_sel_comb, bank_pc_comb, bpu_pre_read_req_comb, bpu_predict_main_comb"]}
{"id": "C97", "title": "Speculative predictor state is in step with the program", "statement": "When nothing predicted is in flight any more and every prediction was right, the speculative history and return stack equal the retired ones.", "quantifier": "all runs from reset, all redirects", "why_tests_cant": "Universal over interleavings of prediction, redirect and retirement; the effect is on prediction accuracy only.", "anchors": ["front-end/BPU/BPU.h: bpu_core_comb_calc, bpu_hist_comb", "rv_simu_mmu_v2.cpp: back2front_comb"]}
{"id": "C98", "title": "The type predictor predicts what it was told last, or nothing", "statement": "After any sequence of retirements, an address is predicted to be a kind of branch or jump only if the newest cycle that reported an address sharing its entry reported that kind.  The last instruction of a cycle to use a set is predicted with its kind from the next cycle on; reporting a non-branch removes the prediction; while the instructions of a set fit into its ways and retire in different cycles, the prediction is exactly the kind reported last.  Two addresses share an entry iff their word addresses agree modulo banks x sets x 2^tag bits.  The counters stay in range.", "quantifier": "all sequences of updates (any number per cycle), all addresses, all table sizes", "why_tests_cant": "Table contents depend on the whole history of updates; aliasing and same-cycle updates make the interesting cases sparse.", "anchors": ["front-end/BPU/type_predictor/TypePredictor.h: type_pred_update_comb, hit_comb, type_pred_seq_write"]}
{"id": "C99", "title": "A predicted target is one the instruction really had, or the next instruction", "statement": "After any sequence of taken and untaken retirements, the target predicted for a branch, jump, call or return is the newest target taken at an address that shares its entry, or else the next instruction; for an indirect jump it is a target that an indirect jump with the same tag really took after, or leading to, the present local history, or the newest at the address.  The last taken instruction of a bank is predicted with its target at once; an indirect jump that always goes to one place is predicted there; while the taken branches of a set fit into its ways the newest target is kept.  Index and tag lose no address information within a region; counters stay in range.", "quantifier": "all sequences of updates, all addresses, all table sizes", "why_tests_cant": "Depends on the whole update history, on hashing and on replacement.", "anchors": ["front-end/BPU/target_predictor/BTB_top.h: btb_pred_output_comb, useful_next_state_comb, bht_next_state_comb, hash_index_value"]}
{"id": "C100", "title": "The front end only fetches where the program could go, and follows jumps it knows", "statement": "In any run of the predictor with its tables, each predicted next fetch address is the end of the fetch group, a return address from the return stack, or a target that a retired instruction sharing the entry really took.  A direct jump or call whose kind and target were reported last and whose sets are not overfull is followed: the next fetch is at its target.", "quantifier": "all runs from reset, all retirement and redirect patterns, all answers of the direction predictor, all configurations", "why_tests_cant": "Quantifies over all training histories and fetch addresses; wrong fetches are hidden by later redirects and only cost time.", "anchors": ["front-end/BPU/BPU.h: bpu_post_read_req_comb, bpu_submodule_bind_comb, bpu_predict_main_comb", "front-end/BPU/target_predictor/BTB_top.h: btb_pred_output_comb"]}
{"id": "C101", "title": "The longest matching history decides a branch's predicted direction", "statement": "The answer for a branch comes from the table with the longest history whose entry carries the branch's tag; the alternative answer comes from the next shorter such table, or the base table.  If the deciding counter is not one of its two middle values, its direction is the answer; if no table knows the branch, the base counter's direction is the answer; if the two agree and neither the history corrector nor the loop table steps in, that is the answer, and those two step in only over a weak counter.", "quantifier": "all table contents, all addresses and histories, all table sizes and thresholds", "why_tests_cant": "A wrong selection only costs time: the branch is corrected later.  The interesting cases need several tables to match at once.", "anchors": ["front-end/BPU/dir_predictor/TAGE_top.h: tage_pred_select_comb, tage_comb"]}
{"id": "C102", "title": "Training the direction predictor is bounded, local and fair", "statement": "Whatever is trained, counters stay in their bits and every row that is read or handed back lies inside its table.  An entry is replaced only after a wrong prediction, only in a table with longer history than the provider's, only if it was not useful, by a weak entry for the branch's outcome, and at most one per training; if a longer table has an entry to spare, the branch is known to a longer table afterwards.  Tags and counters of rows not addressed are untouched.  An entry not addressed for 2^24 trainings can be replaced.  The random choice never sticks and has period fifteen.", "quantifier": "all training sequences with arbitrary returned metadata, all table sizes", "why_tests_cant": "Ageing takes millions of trainings; out-of-range counters or stolen entries only show as a slower program.", "anchors": ["front-end/BPU/dir_predictor/TAGE_top.h: tage_update_comb, tage_seq_write, lsfr_update_comb"]}
{"id": "C103", "title": "A branch that always goes the same way is predicted right after at most eight executions", "statement": "From any trained state, a branch that goes the same way under the same history, each execution trained before the next is predicted, is predicted that way after at most eight executions and ever after, as long as other branches' trainings do not address its rows.", "quantifier": "all prior training, all addresses and histories, all interleavings with other branches' trainings, all states of correctors, loop table and random generator", "why_tests_cant": "The state space of counters, tags and correctors is far beyond enumeration, and a failure to learn is invisible to functional tests.", "anchors": ["front-end/BPU/dir_predictor/TAGE_top.h: tage_pred_select_comb, tage_update_comb"]}
{"id": "C104", "title": "The loop table foresees the exit of a loop with a fixed trip count", "statement": "After seven complete executions of a loop with a fixed trip count, what the loop table says about each further execution of its branch, each trained before the next is predicted, is what the branch does.", "quantifier": "all trip counts up to the counter's maximum, all earlier histories, all interleavings with other branches that use other loop entries", "why_tests_cant": "Predictions are corrected by the back end, so a table that is wrong twice per loop passes every functional test.", "anchors": ["front-end/BPU/dir_predictor/TAGE_top.h: tage_comb, loop_idx_from_pc, loop_tag_from_pc, loop_sat_inc"]}
{"id": "C105", "title": "The core and the reference model run privileged programs alike", "statement": "On programs with CSR instructions, MRET, SRET, fences, LR, read-modify-write instructions, loads, stores, integer instructions and branches, with virtual memory, page faults, environment calls and timer interrupts: after every cycle the core's committed registers, next address, memory, CSRs and privilege level are those of a machine that takes one event after the other, an interrupt exactly if one is pending and enabled, else the exception of the instruction if it has one, else the instruction.  The in-tree reference model, called once for every such event with its timer running at the same pace, does not stop and has the same registers, next address, memory, CSRs and privilege level.", "quantifier": "all programs, initial states, page tables, CSR contents, timer schedules, core sizes and widths, all interleavings of fetch, prediction, out-of-order execution, squashes, retirement, exceptions and interrupts", "why_tests_cant": "An interrupt or a fault can arrive at every instruction of every program; a test run sees a handful of arrival times with one configuration of delegation, vectors and page tables.", "anchors": ["back-end/Rob.cpp: comb_commit, comb_ready", "back-end/Exu/Csr.cpp: comb_exception, comb_interrupt, comb_interrupt_inject, comb_csr_write", "back-end/BackTop.cpp: comb", "diff/ref.cpp: exec, exception, RISCV, va2pa_fix", "diff/diff.cpp: checkregs"]}
{"id": "C106", "title": "Decode, rename, dispatch and the reorder buffer together keep the instruction stream", "statement": "With the four in-order stages wired together, in every cycle: what retires followed by what is in flight afterwards is what was in flight before followed by what was decoded; a misprediction removes from all stages exactly the instructions decoded after the branch, an exception or a serialising instruction removes everything; nothing removed ever comes back, and over a whole run instructions retire in decode order, none twice.  Every physical register is at every time exactly one of free, committed value of one architectural register, or destination of one instruction in flight; the next instruction reads the destination of the youngest instruction in flight writing its operand; a waiting instruction's branch mask holds the tags of the older unfinished branches.  Each stage's assumptions about the others hold.", "quantifier": "all sizes and widths, all instruction words and fetch faults, all timings of issue, completion, branch resolution, misprediction, retirement, exceptions and interrupts", "why_tests_cant": "Each stage holds its own copy of what is in flight (tags, masks, map checkpoints, ring pointers); they must agree after every interleaving of squashes with partial dispatch and partial retirement, of which test programs reach few.", "anchors": ["back-end/BackTop.cpp: init, comb", "back-end/Idu.cpp: comb_decode, comb_branch, comb_fire", "back-end/Ren.cpp: comb_alloc, comb_rename, comb_fire, comb_pipeline", "back-end/Dispatch.cpp: comb_alloc, comb_dispatch, comb_fire, comb_pipeline", "back-end/Rob.cpp: comb_ready, comb_commit, comb_complete, comb_branch, comb_fire, comb_flush", "back-end/Exu/Exu.cpp: comb_exec"]}
{"id": "C107", "title": "The exit status reports the guest's result", "statement": "The value the simulator returns tells how the guest program ended: its a0 after EBREAK, 0 after WFI or when the commit limit stops it, 1 when time runs out, 130 when interrupted.", "quantifier": "all programs (streams of commits, ends and a0 values), limits, modes, fast-forward lengths", "why_tests_cant": "The status depends on which of several stop conditions is seen first and on which of two machines holds the registers at that moment; coincidences such as an end in the very cycle of the limit are not in any test.", "anchors": ["main.cpp: main", "back-end/Ren.cpp: comb_fire", "back-end/Rob.cpp: comb_commit", "back-end/include/BackTop.h: get_reg"]}
{"id": "C108", "title": "A checkpoint run measures the requested instructions", "statement": "In checkpoint mode the reference executes the part of the interval before the warm-up, the core executes the warm-up, the counters are reset at its last instruction, and the run ends in the cycle in which the requested number of further instructions has been committed.", "quantifier": "all intervals, warm-up lengths, limits, commit patterns and widths", "why_tests_cant": "The counters are reset in the middle of a commit group and two places decide about the end; whether every group is counted once needs an invariant over the run.", "anchors": ["main.cpp: main", "back-end/Ren.cpp: comb_fire", "back-end/include/types.h: SimContext"]}
{"id": "C109", "title": "Switching machines, and restoring a checkpoint, preserve the machine state", "statement": "After fast-forwarding, and after loading a checkpoint file, the core continues with the registers, CSRs, privilege, reservation, program counter, RAM and device words of the reference or of the file, and the reference is in the same state, so that the program goes on as if it had always run there.", "quantifier": "all reference states, all well-formed files, all addresses", "why_tests_cant": "A word or register that is not copied shows only in a program that depends on it after the switch.", "anchors": ["back-end/BackTop.cpp: restore_from_ref, restore_checkpoint", "diff/diff.cpp: get_state, init_diff_ckpt, seed_ref_io_from_backing, kCkptIoRanges", "MemSubSystem/include/PeripheralModel.h: timer_cmp_, timer_offset_"]}
{"id": "C110", "title": "The wired pipeline stages execute the program", "statement": "With decode, rename, dispatch, the reorder buffer and branch recovery wired together and running a program: what has retired after any cycle is an execution of the program from reset, one instruction after the other, and the committed registers are that execution's registers.  An instruction whose older producers have run reads the values a sequential machine would have; one that has run left its result in its destination register.  Machines of different sizes, widths, timings and predictions retire the same instructions with the same registers.  On programs of integer, multiplication, division, jump, branch, load, store and read-modify-write words the in-tree reference model, called once for every retired instruction, has the same registers, next address and memory.", "quantifier": "all programs and initial states, all sizes, widths and numbers of branch tags, all timings of fetch, issue, completion, misprediction, retirement, interrupts and exceptions, all predictions", "why_tests_cant": "The order of the window, the cut at a misprediction, the renaming and the moment of retirement are decided in different stages from different copies of the state; a wrong value needs a particular interleaving of speculation, squash and register reuse, and a test program runs one interleaving of one program.", "anchors": ["back-end/BackTop.cpp: init, comb", "back-end/Idu.cpp: comb_decode, comb_branch, comb_fire", "back-end/Ren.cpp: comb_alloc, comb_rename, comb_fire, comb_pipeline", "back-end/Dispatch.cpp: comb_alloc, comb_dispatch, comb_fire, comb_pipeline", "back-end/Rob.cpp: comb_ready, comb_commit, comb_complete, comb_branch, comb_fire, comb_flush", "back-end/Exu/Exu.cpp: comb_exec", "diff/ref.cpp: exec"]}
{"id": "C111", "title": "Decode is offered exactly what the front end has fetched", "statement": "Between two redirects nothing is lost, doubled or reordered between the front end and decode: what has been decoded since the last redirect, what waits in the instruction buffer and the group the back end has not taken yet are together the instructions of the groups handed over since then, each group up to its first instruction predicted taken.  They form one path from the redirect address, each at the predicted successor of the one before, and each is the word the surroundings hold at its translated address or is marked as a page fault where the translation says so.  Decode is offered the oldest waiting ones.  While a redirect is on its way nothing waits.  No cycle aborts.  The same holds with the oracle in the place of the front end.", "quantifier": "all predictions, all timings of the instruction cache, the memory and the back end, all redirects and fences, all widths up to a line, all sizes of the buffers", "why_tests_cant": "The hand-over uses the stall and redirect signals of the cycle before, so that a group can be offered twice, dropped or kept across a redirect only when a full buffer, a cache miss and a redirect fall together; a test sees the alignments its program causes, and a lost instruction on a wrong path leaves no trace.", "anchors": ["rv_simu_mmu_v2.cpp: front_cycle, back2front_comb", "back-end/PreIduQueue.cpp: comb_accept_front, comb_fire", "back-end/BackTop.cpp: comb_csr_status", "front-end/front_top.cpp: front_top"]}
{"id": "C112", "title": "The direction predictor is trained with the record of its own prediction", "statement": "When a conditional branch retires, the direction predictor is trained with the record it produced when it predicted the branch.  This holds for the base table, the tagged tables, the choice counters and the random state.  It fails for the statistical corrector and the loop predictor: their part of the record is dropped on the way to the back end, so that the corrector's tables never change and it never has a say, and all branches train one entry of the loop table, which then speaks for the one address with that entry and tag.", "quantifier": "all sequences of trained branches, all predictor sizes, all addresses and histories", "why_tests_cant": "Nothing observable but the prediction rate depends on it: a program runs correctly with any prediction, and no comparison with a reference shows a table that never learns.", "anchors": ["rv_simu_mmu_v2.cpp: front_cycle, back2front_comb", "back-end/include/IO.h: FrontPreIO", "front-end/BPU/dir_predictor/TAGE_top.h: tage_comb, tage_seq_write"]}
{"id": "C113", "title": "Loads, stores, page walks and instruction fetches see one memory", "statement": "With the load/store unit, the routing block, the data cache and the interconnect working together: a load reports the bytes left by the stores that precede it in the program; a word handed to the page-table walker or, from the data cache, to the instruction cache is the word at the address asked for in the memory of that moment, with every store that has left the store queue and none that has not committed; every request of a cycle is answered at the start of the next; when the store queue is empty and the cache holds nothing back, memory is the initial memory after all stores of the program in program order; and no assertion fails.  The code violates the first two for an answer that comes from a line being filled after the line has taken in a store: a load then reports the old value of a word whose store has committed, was carried out and has left the queue.", "quantifier": "all sequences of loads, stores, look-ups and walker reads, all orders in which the load/store unit serves them, all replays, flushes and mispredictions, all delays and answer orders of the interconnect, any number of load ports and store-queue slots", "why_tests_cant": "The parts disagree only if requests of several sources, replays, a fill and a drain of the store queue fall into particular cycles; the stale load needs a full write buffer and a line held for several cycles.  A test exercises few such alignments, and a wrong value in a program that later recovers leaves no trace.", "anchors": ["rv_simu_mmu_v2.cpp: cycle", "MemSubSystem/MemSubsystem.cpp: comb_outputs, comb_inputs", "MemSubSystem/MemRouteBlock.cpp: comb_response, comb_request", "MemSubSystem/RealDcache.cpp: comb", "back-end/Lsu/RealLsu.cpp: comb_lsu2dcache_ldq, comb_dcache2lsu_ldq, comb_lsu2dcache_stq, comb_dcache2lsu_stq"]}
{"id": "C114", "title": "The waiting lists of the load/store unit never lose, duplicate or mix up a load", "statement": "A load that has been handed to the load/store unit sits, until it is reported or squashed, in exactly one slot of exactly one of the unit's waiting lists (translation, comparison with stores, data cache, report) or in the uncached unit, and in one that serves the stage it is in; a load not in flight sits nowhere.  No list is asked to hold more entries than it has slots and what has been promised to dispatch still fits.  Cache requests of a cycle carry different identifiers and each answer, in whatever order, finishes or sends back exactly the load that asked.  None of the unit's assertions on the load side fails.  A load in the report list is reported within as many cycles as the list has slots, unless squashed, when store-conditionals leave a report port free. In a cycle it sends no more requests, asks for no more translations and reports no more instructions than it has load ports.", "quantifier": "all sequences of dispatches, hand-overs, translation results, comparisons, hits and replays in any order, device answers, flushes and mispredictions; all queue sizes, port counts and windows", "why_tests_cant": "Entries are invalidated in the middle of ring buffers, popped lazily and re-queued; a lost or doubled entry needs a particular interleaving of holes, wrap-around, full lists and generation counters, and would show as a hang or a wrong result long afterwards.", "anchors": ["back-end/Lsu/RealLsu.cpp: comb_lsu2dis, comb_mmio_in, comb_tlb_out, comb_tlb_in_ldq, comb_stlf, comb_dcache2lsu_ldq, comb_lsu2exe, comb_flush, comb_lsu2dcache_ldq, handle_load_req", "back-end/Lsu/include/RealLsu.h: LsuState, LoadState", "back-end/Lsu/include/MemUtils.h: make_lsu_load_req_id, lsu_req_id_gen, lsu_req_id_wait_idx"]}
{"id": "C115", "title": "The waiting lists of the load/store unit never lose, duplicate or report too early a store, when dispatch is no wider than the store ports", "statement": "With a dispatch width of at most the number of store address ports, load ports and the window (as in the configuration of the tree), a store in the store queue sits in exactly the list slots its stage calls for: one of the translation list while it waits for its translation, one of the report list once it is translated with data or has faulted, none otherwise.  The queue and the lists are never asked to hold more than they have slots, and the number offered to dispatch never wraps.  A store is reported to the reorder buffer only when its address is translated and its data is there or its page faulted, and only once; from the report list it is reported within as many cycles as the list has slots unless squashed.  A flush keeps exactly the committed stores, a misprediction exactly the older ones; the assertions of the store side do not fail.  Without the width condition this is false: with the sizes of config.h.large a store can be lost and the core waits for it for ever.", "quantifier": "all sequences of dispatches, data, addresses, translation results (hits, misses, faults, no answer), commits, retirements, flushes and mispredictions; all queue sizes below 2^32, port counts and windows with dispatch width at most each of them", "why_tests_cant": "The lists are ring buffers with lazy removal whose space is promised to dispatch by an unsigned difference computed from counts of the cycle's start; an overflow needs a particular burst of completions, a misprediction and a refill, overwrites one entry silently and shows as a hang many cycles later.", "anchors": ["back-end/Lsu/RealLsu.cpp: comb_cal, comb_lsu2dis, comb_tlb_out, comb_tlb_in_stq, comb_lsu2exe, comb_stq_commit, comb_flush, comb_check, handle_store_data, handle_store_addr, alloc_stq_entry", "back-end/include/IO.h: StoreState, StqEntry", "back-end/Lsu/include/MemUtils.h: stq_idx_alive_after_flush", "include/config.h: STQ_SIZE, LSU_STA_COUNT, MAX_STQ_DISPATCH_WIDTH"]}
{"id": "C116", "title": "The packed page-table walker behaves like the walker of the simulator", "statement": "The bit-level walker (step function from 504 bits to 308, wiring from the outside ports, projection to the outside ports) with a 308-bit register that starts clear, run beside the walker of the simulator on the same inputs, shows after every cycle the same outputs: the same ports ready, the same answers there with the same contents, the same table read asked for at the same address, up to the low bits of addresses and the two software bits of page-table entries, which it does not carry; and stepped on the ports alone it shows what the walker shows to the arbiter in the middle of the cycle.  This holds as long as a walk read is granted only when asked for, at most one event arrives per cycle, the instruction side's walk read is not replayed, and the bit that says whether an event belongs to the running read is right, which in the cycle of a grant is the opposite of what the comments describe.  Working out a single bit gives the same as the whole step, and unpacking and repacking the register loses nothing.", "quantifier": "all bit vectors as inputs in every cycle, any number of cycles, any number of event slots, any previous contents of the output arrays", "why_tests_cant": "The packed form is used to train and check generated logic; its input space has 2^504 points per step, and the cases where it differs need a stale answer in the very cycle of a grant or a replay of an instruction-side walk, many cycles into a run.", "anchors": ["MemSubSystem/include/PtwCompactCoreKernel.h: ptw_compact_core_kernel_eval, ptw_compact_core_kernel_eval_bit, ptw_compact_core_visible_kernel, ptw_top_glue_kernel, ptw_kernel_decode_state, ptw_kernel_encode_state", "MemSubSystem/include/MemPtwBlock.h: MemPtwBlock::comb_begin, comb_finish, seq, project_outputs_from_state, compact_core_io_generator, top_glue_io_generator"]}
{"id": "C117", "title": "Fed by the oracle, the core decodes what the reference executes, with right predictions", "statement": "In a build without the branch predictor, what the core decodes between two redirects is, each once and in order, what a reference machine executes from the redirect address on: the addresses, the words, the fetch faults; every predicted successor is where the machine goes; nothing follows an instruction that traps or is a CSR instruction.  Each call hands over at least one instruction unless the oracle waits for a redirect.  A redirect puts the machine at the redirect address with the core's registers, status registers and privilege.  The machine should also have the core's memory then; it does not.", "quantifier": "all reference machines whose state can be written and read back (among them the one in the repository), all programs, all redirects and stalls of the core, any number of cycles, every group size", "why_tests_cant": "The groups depend on the program, the redirects and the stalls; where it falls short, an atomic instruction must have been executed ahead before an interrupt, and the only visible effect is a slower run.", "anchors": ["diff/br_oracle.cpp: get_oracle, sync_oracle_control_state, sync_oracle_arch_state_from_dut, oracle_gpr_matches_dut", "rv_simu_mmu_v2.cpp: SimCpu::front_cycle", "diff/ref.cpp: RefCpu::exec, RISCV, RV32IM"]}
{"id": "C118", "title": "The TLBs as they run, through bit-packed arrays, translate as the rules say", "statement": "Each TLB does its work in one function from an array of bits to an array of bits.  In every run the answers, the calls to the page-table walker and the TLB's assertion are those of translation on unpacked values; no field is cut, no array is read past its end or left partly unwritten; and so, with the TLBs as they run, every load, store and fetch that is answered gets the physical address or page fault the privileged manual prescribes (the conditions of C66).", "quantifier": "all table sizes below 2^31, up to sixteen ports of which any number load, all sequences of requests, fences, cancellations and walker responses, all page tables and modes, whatever unused fields hold", "why_tests_cant": "A field that is too narrow by one bit, or an offset that is off by one, shows only for particular values; the widths depend on the configured size.", "anchors": ["back-end/Lsu/include/TlbMmuKernel.h: tlb_kernel_top_io_generator, tlb_kernel_core_comb, tlb_kernel_core_output_mapper_comb, tlb_kernel_slot_width", "back-end/Lsu/TlbMmu.cpp: run_top_via_io_generator, encode_top_input_bits, decode_top_output_bits, apply_top_output", "back-end/Lsu/include/TlbMmu.h: top_pi_width, top_po_width, slot_width"]}
{"id": "C119", "title": "The instruction cache as it runs, through bit-packed arrays, delivers the words of the path", "statement": "The instruction cache does its work through functions from arrays of bits to arrays of bits: the tag compare, the module, and the glue that makes a group of instructions of a line.  Front end and cache, run this way, have exactly the executions of C80; so no array is overrun, no field is cut, the program is never left (unknown state, miss reported with an answer, full queue), the groups handed to the back end form one path and hold the words, valid marks and page-fault marks of their own addresses; and what is on wires whose valid flag is off has no effect.", "quantifier": "all group widths, all executions of front end and instruction cache together, all predictor behaviours, everything that can be on unused wires, in every cycle", "why_tests_cant": "A field that is too narrow by one bit, an offset that is off by one or a value used without its flag shows only for particular values at a particular moment of a miss.", "anchors": ["front-end/icache/icache_module.cpp: ICache::comb_via_compact_io_generator, ICache::compact_io_generator, ICache::comb_core, ICache::lookup_meta_pack_io_generator, encode_packed_regs, decode_packed_regs", "front-end/icache/ICacheTop.cpp: TrueICacheTopT::comb, TrueICacheTopT::peek_ready, run_true_glue_io_generator, eval_true_glue, icache_top_true_glue_io_generator", "front-end/icache/icache.cpp: icache_comb_calc, icache_fill_lookup_meta_input, icache_fill_lookup_data_input"]}
{"id": "C120", "title": "From the words in memory to the committed registers: front half and back half as one machine", "statement": "The front end with its instruction cache, the hand-over, the instruction buffer and the fetch-target queue, decode, rename, dispatch and the reorder buffer, wired together and started at the reset address, retire exactly the instructions that a sequential machine executes on the words in memory, and the committed registers are its registers.  What each half assumes of the other holds: decode gets the words of the predicted path with the right addresses and predictions, the queues are never asked for more than they hold, both sides agree at all times on which instructions are in flight - also across mispredictions and flushes - and no cycle aborts.", "quantifier": "all programs, all widths and capacities of both halves, all executions; any predictor, any timing of caches, memory and units", "why_tests_cant": "The two halves meet in every combination of stalls, partial decodes, mispredictions and flushes; a test sees the few combinations its program and its predictor produce.", "anchors": ["rv_simu_mmu_v2.cpp: SimCpu::cycle, SimCpu::front_cycle, SimCpu::back2front_comb", "back-end/BackTop.cpp: BackTop::comb", "back-end/PreIduQueue.cpp: PreIduQueue::comb_begin, comb_accept_front, comb_fire, comb_ftq_lookup_prf, comb_ftq_lookup_rob", "back-end/Idu.cpp: Idu::comb_decode, Idu::comb_fire", "back-end/Rob.cpp: Rob::comb_commit, Rob::comb_branch"]}
{"id": "C121", "title": "Issue queues behind dispatch: operands announced, once each, nothing of a squashed instruction", "statement": "In the machine made of decode, rename, dispatch, the reorder buffer, branch recovery and the five issue queues, an operation leaves its queue only when every instruction in flight that produces one of its operands has had its result announced - for the data part of an atomic read-modify-write that includes its own load; it is the operation the instruction decodes to and names the registers rename gave it.  Every instruction in the reorder buffer has each of its operations either waiting in its queue once or issued once, and never both; nothing of a squashed or retired instruction is in a queue.  With the age policy a ready operation is not passed over for one of a younger instruction unless its unit refuses it.  No queue overflows.", "quantifier": "all instruction streams, all sizes, widths, port assignments and policies, all timings of units, stalls, mispredictions, flushes and broadcasts, all executions", "why_tests_cant": "A lost wake-up, a double issue or a leftover of a squashed instruction needs a particular meeting of dispatch, broadcast and squash in one cycle; a run that does not hit it passes.", "anchors": ["back-end/Isu.cpp: Isu::comb_ready, comb_enq, comb_issue, comb_flush, apply_wakeup_to_uop", "back-end/include/IssueQueue.h: IssueQueue::comb_enq, comb_issue, comb_wakeup, comb_flush, IqStoredUop::from_dis_iss_uop", "back-end/Dispatch.cpp: Dispatch::comb_wake, comb_dispatch, comb_fire, decompose_inst", "back-end/Rob.cpp: Rob::comb_commit, comb_branch", "back-end/BackTop.cpp: BackTop::comb"]}
{"id": "C122", "title": "The out-of-order machine with its issue queues runs the program", "statement": "In the machine made of decode, rename, dispatch, the reorder buffer, branch recovery and the issue queues, running a program, an instruction that executes after its operations have left their queues - at any time, in any order - reads the values a sequential machine has after all the older instructions in flight, and a result written as soon as the operation producing it has left its queue (the link register of a jump, before the jump's target is known) is the sequential machine's.  What has retired is an execution of the program from the reset state and the committed register map gives its registers; for programs of machine words the reference model called as often has the same registers, next address and memory.  An atomic read-modify-write instruction in the reorder buffer is the oldest instruction in flight.  No queue overflows.", "quantifier": "all programs, all sizes, widths, port assignments and policies, all timings of units, stalls, predictions, mispredictions, flushes and announcements in which an announced result has been produced by the next cycle, all executions", "why_tests_cant": "Whether an operation can leave its queue before its operand is there depends on the meeting of dispatch, announcements and squashes; tests sample a few programs and one timing.", "anchors": ["back-end/Isu.cpp: Isu::comb_ready, comb_enq, comb_issue, comb_flush", "back-end/include/IssueQueue.h: IssueQueue", "back-end/Dispatch.cpp: Dispatch::comb_dispatch, comb_wake, comb_fire, decompose_inst", "back-end/Ren.cpp: Ren", "back-end/Idu.cpp: Idu", "back-end/Rob.cpp: Rob", "back-end/BackTop.cpp: BackTop::comb"]}
{"id": "C123", "title": "Every computed result is announced exactly once, when its latency calls for it, behind the real issue queues", "statement": "In the machine made of decode, rename, dispatch, the reorder buffer, branch recovery, the issue queues and the wake-up bus, the result of an instruction in the reorder buffer that a unit computes has been announced to the waiting instructions exactly if its operation left its queue more than its delay ago: at once for operations of one cycle, after the latency less one for multiplications, after the latency for divisions and floating point.  It is announced once.  Nothing else is announced except by loads; nothing of a squashed instruction is.  Hence what reads such a result leaves its queue no earlier than the result's latency after its producer.", "quantifier": "all sizes, widths, port assignments, policies and latencies, all instruction streams, all timings of units, stalls, mispredictions and flushes, all executions", "why_tests_cant": "A missed announcement hangs one dependence chain and an early one feeds a stale operand, each only when an issue, a squash and a slot of the wake-up registers meet in one cycle.", "anchors": ["back-end/Isu.cpp: Isu::get_latency, comb_issue, comb_awake, comb_calc_latency_next, comb_flush", "back-end/include/Isu.h: mul_wake_pipe, div_wake_slots, fp_wake_slots", "back-end/include/IssueQueue.h: IssueQueue::comb_wakeup", "back-end/Dispatch.cpp: Dispatch::comb_wake, comb_fire", "back-end/BackTop.cpp: BackTop::comb"]}
{"id": "C124", "title": "No operation waits in vain: the issue queues cannot deadlock", "statement": "In the machine made of decode, rename, dispatch, the reorder buffer, branch recovery, the issue queues and the wake-up bus, an operation in a queue waits for a source exactly if the instruction that produces it is in the reorder buffer and has not been announced.  The source names the destination of the youngest older instruction that writes the operand, or the committed register; committed registers are never marked as outstanding.  An operation of the oldest instruction waits for nothing (save that the data part of an atomic read-modify-write waits for its own load), and with the age policy is issued in any cycle without squash in which the units accept work.  Whenever an operation is in a queue, one of the same or an older instruction is ready, or the result of such an instruction is on its way.", "quantifier": "all sizes, widths, port assignments, policies and latencies, all instruction streams, all timings of units, stalls, mispredictions and flushes, all executions", "why_tests_cant": "A stale mark in the table of outstanding registers hangs the machine only when a register is freed, renamed again and read across a flush or a misprediction at just the wrong distance; a test that does not hang shows nothing about the others.", "anchors": ["back-end/Dispatch.cpp: Dispatch::comb_alloc, comb_wake, comb_dispatch, comb_fire, comb_pipeline", "back-end/Ren.cpp: Ren::comb_alloc, comb_rename, comb_fire, comb_pipeline", "back-end/include/IssueQueue.h: IssueQueue::comb_enq, comb_wakeup, comb_issue, schedule, comb_flush", "back-end/Isu.cpp: Isu::comb_issue, comb_awake", "back-end/Prf.cpp: Prf::comb_awake", "back-end/Rob.cpp: Rob::comb_commit", "back-end/Idu.cpp: Idu::decode"]}
{"id": "C125", "title": "The back end does not come to a halt", "statement": "In the machine made of decode, rename, dispatch, the reorder buffer, branch recovery, the issue queues and the wake-up bus, in a cycle without misprediction in which the units accept work, an instruction is offered and (if the reorder buffer is empty) the load and store queues have room, something moves (an instruction retires, an operation is issued, or an instruction goes on to the next stage) unless something is outstanding in the execution or memory units.  Over an endless run in which the units keep accepting work again and again, finish what they have been given, and stores drain, whichever policy the queues issue by, the oldest instruction retires; if anything is in flight, something retires; and every instruction in flight retires in the end, or is squashed by a flush or a misprediction.", "quantifier": "all sizes, widths, port assignments, issue policies and latencies with at least one of each resource, all instruction streams, all timings of units, stalls, mispredictions and flushes, all endless executions in which the rest of the machine does its part", "why_tests_cant": "A hang needs a cycle of stages each waiting for another (dispatch for an empty reorder buffer, the reorder buffer for an operation in a queue, the operation for a register, the register for a unit); a finite run cannot show that every instruction is reached in the end, and stalls, serialising instructions and squashes combine without limit.", "anchors": ["back-end/Rob.cpp: Rob::comb_ready, comb_commit, comb_complete", "back-end/Dispatch.cpp: Dispatch::comb_alloc, comb_dispatch, comb_fire, comb_pipeline", "back-end/Ren.cpp: Ren::comb_alloc, comb_fire, comb_pipeline", "back-end/Idu.cpp: Idu::comb_decode, comb_fire", "back-end/Isu.cpp: Isu::comb_ready, comb_issue, comb_awake", "back-end/include/IssueQueue.h: IssueQueue::comb_enq, comb_wakeup, comb_issue, schedule"]}
{"id": "C126", "title": "The predictor as a whole learns a branch although predictions are trained late", "statement": "In the branch predictor with all its parts, the tables of a bank's direction predictor are always those trained, in order, by the retired conditional branches of the bank up to those still waiting in its update queue, and a slot known as a conditional branch is predicted in the direction these tables give for its own address and the speculative history; which rows are read depends only on the address and the newest outcomes.  A branch with the same recent history each time that retires in the same direction often enough (5 times (2W+5), where W bounds the predictions in flight) is then predicted in that direction, and so are all its predictions in flight, although each prediction is trained long after it was made, with what the hand-over leaves of its record, after others have changed the tables, and although the youngest predictions may be squashed at any time.", "quantifier": "all configurations with sizes in range, all runs of the predictor before and in between, all numbers of predictions in flight, all squashes, all trainings of other branches that use none of its rows, all choices of the pseudo-random allocation", "why_tests_cant": "With several predictions in flight a training may find that another prediction has meanwhile allocated a longer table or reset the row it was made from; whether the counters still converge depends on the interleaving of predictions, trainings and squashes and on the pseudo-random choice of the table, over unboundedly many histories.", "anchors": ["front-end/BPU/BPU.h: bpu_post_read_req_comb, bpu_submodule_bind_comb, bpu_predict_main_comb, bpu_queue_comb, bpu_seq_write", "front-end/BPU/dir_predictor/TAGE_top.h: TAGE_TOP::tage_comb_calc, tage_update_comb, tage_fh_update_comb"]}
{"id": "C127", "title": "The back end runs the program to the end, and with the right values", "statement": "Decode, rename, dispatch, the issue queues, the wake-up bus, the reorder buffer, the branch resolution and the physical registers together: a register whose result has been announced holds the value the sequential machine has in it; an instruction whose operations have been issued reads the sequential machine's values; what has retired is an execution of the program, with the committed registers and memory of the reference model.  And this execution does not stop: if anything is in flight, another instruction retires or a trap is taken some cycles later; every instruction in flight becomes part of the execution or is squashed by a flush or misprediction; the execution reaches every length unless the machine is empty for good.  Of the units it is only required that each result is computed within the latency of its operation and that the memory unit has delivered what it announces; for the second half also that they finish what they were given.", "quantifier": "all programs, sizes of the register file and the queues, ports, latencies and issue policies; all orders in which issued instructions execute between two cycles; all mispredictions, flushes and interrupts; all endless runs", "why_tests_cant": "That values are right whenever a dependent instruction is woken, and that the machine never stops, are statements about all interleavings of issue, wake-up, execution, retirement and squash, and about infinite runs; a test shows finite runs of chosen programs.", "anchors": ["back-end/Isu.cpp: Isu::comb_ready, comb_enq, comb_issue, comb_flush", "back-end/include/IssueQueue.h: IssueQueue", "back-end/Dispatch.cpp: Dispatch::comb_dispatch, comb_wake, comb_fire, decompose_inst", "back-end/Ren.cpp: Ren", "back-end/Idu.cpp: Idu", "back-end/Rob.cpp: Rob", "back-end/BackTop.cpp: BackTop::comb", "back-end/Isu.cpp: Isu::get_latency, comb_issue, comb_awake, comb_calc_latency_next, comb_flush", "back-end/include/Isu.h: mul_wake_pipe, div_wake_slots, fp_wake_slots", "back-end/include/IssueQueue.h: IssueQueue::comb_wakeup", "back-end/Dispatch.cpp: Dispatch::comb_wake, comb_fire", "back-end/Rob.cpp: Rob::comb_ready, comb_commit, comb_complete", "back-end/Dispatch.cpp: Dispatch::comb_alloc, comb_dispatch, comb_fire, comb_pipeline", "back-end/Ren.cpp: Ren::comb_alloc, comb_fire, comb_pipeline", "back-end/Idu.cpp: Idu::comb_decode, comb_fire", "back-end/Isu.cpp: Isu::comb_ready, comb_issue, comb_awake", "back-end/include/IssueQueue.h: IssueQueue::comb_enq, comb_wakeup, comb_issue, schedule"]}
{"id": "C128", "title": "A storage table returns what was last written, after exactly the latency chosen", "statement": "In a configurable table (rows of chunks with a write enable for each chunk) reading a row gives for every byte the value last written to it, zero if it has not been written since the reset; writes to other rows, disabled chunks, rows beyond the table and writes with too short vectors change nothing, and nothing outside the storage is accessed as long as the bytes of a row fit 32 bits (if they do not, an ordinary write is out of bounds).  A table with latency gives no answer before the latency chosen when the read was taken - at least one cycle, the configured one or one of the configured random range - and exactly then the row as it is in that cycle; further requests meanwhile change nothing; the answer stays while a read is requested and ends after one cycle without.  The random generator never reaches its fixed point zero.", "quantifier": "all configurations whose row size fits 32 bits, all sequences of writes and reads, all latencies and generator states", "why_tests_cant": "Independence of rows and chunks, and that no request during a pending read disturbs it, concern all histories of overlapping accesses and all geometries; a test fixes a geometry and a sequence.", "anchors": ["front-end/icache/GenericTable.h: DynamicStorage, write_chunks, copy_row_to_payload, DynamicGenericTable, choose_latency, advance_seed"]}
{"id": "C129", "title": "The tables of the last-level cache: writes reach their way only, lookups are answered after the latency", "statement": "Each byte of the data, tag, valid and replacement tables is the one last written since the last invalidation: a write reaches the enabled bytes of its way's part of its row and no others.  A lookup answers with the rows of all four tables as they are in the cycle of the answer, after exactly the configured latency (at least one) if none was under way.  Every lookup is answered - this holds, within twice the latency, for a lookup after which no other is requested; it fails for a lookup that waits while another, of a different set, is requested: there is one place to wait in, and the newer one takes it.  An invalidation clears the tables and drops the lookups.", "quantifier": "all geometries and latencies, all sequences of lookups, writes and invalidations", "why_tests_cant": "Lookups that overlap in every possible way, with writes to the same row under way, are an unbounded set of sequences; the lost lookup needs three requests within one latency.", "anchors": ["MemSubSystem/MemSubsystem.cpp: AxiLlcTableRuntime, make_write_req, comb_outputs, seq"]}
{"id": "C130", "title": "The top-down report accounts for every dispatch slot once", "statement": "In every run, each slot in which no instruction is dispatched has exactly one reason on each level of the report: back-end bound splits into memory, issue queue and reorder buffer, memory into first-level and external, front-end bound into recovery and fetch, fetch into latency and bandwidth; the slots counted as recovery from mispredictions (flushes) plus those still owed are the instructions thrown away before dispatch, in rename or in dispatch.  The slots accounted for are the dispatch width times the cycles, what has retired and what is in the reorder buffer was dispatched, and the shares front-end bound, back-end bound, bad speculation and retiring are 100 % together.  This last sentence holds for runs without a warm-up; in a run from a checkpoint the counters are set to zero when the warm-up ends, instructions then in flight are counted as retired although they are not counted as dispatched, and the four shares exceed 100 % - by no more slots than the reorder buffer and one group hold.  The second report, at decode, is 100 % in every run; without a warm-up none of its numbers is cut off: what is offered fits the slots, what decode takes was offered, and what has retired or is in flight was taken.", "quantifier": "all runs of decode, rename, dispatch and the reorder buffer, all geometries, all warm-up lengths, all outcomes of instructions and states of the instruction cache", "why_tests_cant": "The balance of the counters has to survive every interleaving of stalls, mispredictions, flushes and the reset; a test sees one run, and the excess after a reset hides in rounding.", "anchors": ["back-end/include/PerfCount.h: perf_print_tma, perf_reset, slots_issued, slots_backend_bound, slots_frontend_bound, squash_waste_slots", "back-end/Dispatch.cpp: comb_dispatch, comb_fire, comb_flush", "back-end/Ren.cpp: comb_commit, comb_flush", "back-end/PreIduQueue.cpp: comb_begin, comb_fire"]}
{"id": "C131", "title": "A trace dump shows the newest events, oldest first, none missing and none twice", "statement": "The trace buffers (replays, loads and stores, writes of the address-translation register, page-table walks) never write or read outside their storage, and a dump after any number of recorded events shows exactly the last ones in the order they were recorded - as many as asked for, as the buffer holds or as there are, whichever is least - with the two numbers in its header right; it says that nothing has been recorded exactly when nothing has.  Of a page-table walk the trace keeps the whole cache line of the entry as it is in memory, and the word marked in it is the one at the address read.", "quantifier": "all buffer sizes greater than zero, all sequences of events, all dump lengths, all addresses and line sizes up to 1024 bytes", "why_tests_cant": "The wrap-around positions interact with the length asked for: the off-by-one cases are the sizes, fill levels and lengths just around each other, for every size.", "anchors": ["include/DeadlockReplayTrace.h: record, dump_recent", "include/DiffMemTrace.h: record, dump_recent", "include/DebugPtwTrace.h: record_satp_write, record_ptw_walk_resp_detail, dump_recent_satp_writes, dump_recent_ptw_walk_resps"]}
{"id": "C132", "title": "A line that is in the instruction cache is found, for every lookup latency", "statement": "Whatever ICACHE_LOOKUP_LATENCY and the random-delay options are, the cache's tables hold exactly the lines last brought into each way and not invalidated since, and a fetch whose translation is known is answered with the line of the first way of its set that holds its page; if there is none, it is not answered from the cache.", "quantifier": "all latencies, fixed or random, all geometries, all sequences of cycles (requests, cancellations, refills, invalidations, resets), all addresses and pages", "why_tests_cant": "The latency is a build option with its own table timing; a cache that never hits still runs every program that a test would run, only slower, and the one configuration that is built by default does not use the latency path.", "anchors": ["front-end/icache/GenericTable.h: GenericTable::comb, seq, reset", "front-end/icache/icache.cpp: icache_comb_calc, cache_lookup_table_resp, icache_fill_lookup_meta_input", "front-end/icache/icache_module.cpp: ICache::lookup, capture_lookup_meta_result, eval_state_machine"]}
{"id": "C133", "title": "A fetch that misses asks memory for the line of the address fetched, for every lookup latency", "statement": "When a fetch is in the request slot of the instruction cache, the memory address it asks for is the line that contains the fetched address: the physical page with the set of that address.", "quantifier": "all latencies, fixed or random, all geometries, all sequences of cycles, all addresses and pages", "why_tests_cant": "It depends on what the front end drives on the address input in the cycles between a request and the end of its lookup, for every latency; with the default latency there are no such cycles.", "anchors": ["front-end/icache/icache_module.cpp: ICache::lookup, eval_state_machine", "front-end/front_top.cpp: front_comb_calc"]}
{"id": "C134", "title": "The ideal instruction cache answers every fetch, in order, with the instructions at its address", "statement": "With FRONTEND_ICACHE_MODE 1, for every address the front end sends it takes exactly one group of instructions, in the order sent, and the group holds the words in memory at the translated addresses up to the end of the cache line, with a page fault marked in the first slot that has one and nothing after it.", "quantifier": "all sequences of cycles (requests, retries of the MMU, cancellations), all addresses, translations, memories, fetch widths and line sizes", "why_tests_cant": "A loss needs a translation that is not ready in the cycle of the request; programs without paging never have one, and the groups after it still look right one by one.", "anchors": ["front-end/icache/ICacheTop.cpp: SimpleICacheTop::comb, seq, peek_ready", "front-end/front_top.cpp: front_comb_calc"]}
{"id": "C135", "title": "The bare-metal printf prints what the C standard says", "statement": "For every format made of literal characters, %%, %c, %s and numbers (flag 0 or -, width, l or L, type d, u, o, b, x or X) and all arguments that go with it, xprintf prints exactly what the C standard prescribes for printf (with %b for binary), and never stores past its number buffer.", "quantifier": "all formats (any number of pieces, any flags, any widths an int can hold) and all argument values", "why_tests_cant": "Tests print a few numbers with a few formats; the wrong ones are negative numbers filled up with zeros, binary numbers of more than sixteen digits, and the domain is all formats times all arguments.", "anchors": ["baremetal/lib/xprintf.c: xvprintf, xprintf"]}
{"id": "C136", "title": "The SPEC report gives the weighted mean CPI, each simpoint once, and says when weight is missing", "statement": "For every weights file and every directory of simulation logs, the reported CPI is the mean of the CPIs of the successfully simulated simpoints, each counted once with its weight; it equals the cycles per instruction of the whole run when the weights are the shares of equal slices; a warning is printed exactly when more than 0.01 % of the weight is missing; and the SPEC ratio is the reference time over the time at that CPI.", "quantifier": "all weights files, all directories of logs (any order, failed, unreadable and repeated logs), all counter values, frequencies and reference times", "why_tests_cant": "A wrong mean is a plausible number: nothing in a report shows that a repeated log was counted twice, and it depends on which logs lie in the directory.", "anchors": ["script/cal_spec.py: load_weights, parse_log_robust, process_benchmark"]}
{"id": "C137", "title": "The branch figures count committed branches and their mispredictions", "statement": "After every run the printed branch counters are the numbers of committed conditional branches, indirect jumps and returns, of those mispredicted, and of those with a wrong direction or a wrong address; and the branch accuracy in the SPEC report is the weighted share of branches that were predicted right, between 0 and 100 per cent.", "quantifier": "all sequences of committed instructions, all predictions and outcomes, any number of logs with any positive weights", "why_tests_cant": "The figures are sums over millions of commits that nothing else checks; a branch counted under the wrong kind or twice gives a plausible number.", "anchors": ["rv_simu_mmu_v2.cpp: SimCpu::commit_sync", "back-end/include/PerfCount.h: perf_print_branch", "script/cal_spec.py: parse_log_robust, process_benchmark"]}
{"id": "C138", "title": "The top-down figures in the SPEC report are the ones the simulator printed under the same names", "statement": "For every log with the simulator's top-down analysis, each figure that the report script reads (total slots, frontend bound, fetch latency, fetch bandwidth, backend bound, memory bound, L1 bound, external memory bound, core bound, bad speculation, retiring) is the number printed in the top-down section under exactly that name.", "quantifier": "all numbers in the two printed sections, any lines before them, any lines of other sections after them", "why_tests_cant": "The figures read are plausible numbers between 0 and 100 that come from the same log; nothing in the report shows that they were taken from another line.", "anchors": ["script/cal_spec.py: _extract_last_int, _extract_last_pct, parse_tma, TMA_LABELS", "back-end/include/PerfCount.h: perf_print_tma"]}
