# Design of the formal model

Subject: the RV32 out-of-order simulator in `/repo` (C++).  Nothing is built or
run; the Lean 4 model is written by reading the sources.  Every model
definition carries a comment naming the file and lines it transcribes and any
simplification made.

## Layout

| directory | content |
|---|---|
| `lean/Verif/Model/`  | transcription of C++ functions, one file per unit |
| `lean/Verif/Spec/`   | independent specifications (ISA semantics, abstract queues, maps) that do not mention the model |
| `lean/Verif/Proofs/` | helper lemmas and invariants |
| `lean/Verif/Props/`  | the property theorems listed in `MANIFEST.json`, each with a concrete `example` meeting its hypotheses |

## Modelling conventions

* `wire<N>` / `reg<N>` / `uint32_t` are `BitVec`; loop indices and queue
  pointers are `Nat`, with the modulus written out as in the C++ code.
* C arrays are functions `Nat → α` or `List`s of fixed length; out-of-range
  indexing is excluded by an explicit hypothesis or invariant, never by a
  default value silently used in a theorem.
* The `x` / `x_1` double-buffering idiom (`comb_*` writes `x_1`, `seq` copies
  it to `x`) is modelled by a step function from the old state to the new state.
* `Assert(...)`, `abort()` and C++ undefined behaviour are a distinct outcome
  (`none`/`Except.error`) whenever they can be reached; theorems then show they
  are not reached, or state the exact condition under which they are.
* Configuration constants (`ROB_LINE_NUM`, `PRF_NUM`, ...) are parameters
  wherever the property does not depend on the chosen value, so a theorem covers
  every shipped configuration.
* Performance counters (other than the top-down ones, C130), logging and debug-only fields are not modelled.

## Trusted base

* Lean's kernel and the three standard axioms `propext`, `Quot.sound`,
  `Classical.choice` (each property theorem uses a subset; no other axiom, no
  `sorry`, no `native_decide`, no `bv_decide`).
* That the Lean definitions are faithful transcriptions of the C++ cited beside
  them.  There is no mechanised link between the C++ text and the model.
* That the order of the `comb_*` calls is the one in `BackTop::comb`
  (`back-end/BackTop.cpp:269-394`), wherever a step function combines several.

## Plan per property

| id | modelled | how proved |
|---|---|---|
| C01 | `AluUnit::impl_compute` on `BitVec 32` | equality with an ISA specification stated on `Nat`/`Int`, for all operands |
| C02 | same, bit-manipulation cases | per-operation equality with bit-level specification |
| C03 | `MulUnit::impl_compute` with its 64-bit casts | equality with `Int` product specification |
| C04 | `DivUnit::impl_compute` | equality with `Int.tdiv/tmod` specification, Euclid identity |
| C05 | `BruUnit::impl_compute` | decision-logic equivalence |
| C06 | `SduUnit::impl_compute` | equality with AMO specification |
| C07 | immediate macros | bit-level equality; encode/decode round trip |
| C08 | `Idu::decode` | case analysis over opcode fields, for all words |
| C09 | ALU and `RefCpu::RV32IM` | both equal the same function |
| C10, C11 | Idu tag state machine | inductive invariant over all event sequences |
| C12–C15 | Ren free list / RAT / checkpoints | inductive invariant, refinement to map-of-committed-instructions |
| C16–C19 | Rob ring | refinement to a list of in-flight instructions; commit decision logic |
| C20, C21 | rings of PreIduQueue | refinement to lists |
| C22, C23 | IssueQueue | invariant linking matrix and entries; schedule decision logic |
| C24 | Dispatch fire logic | decision logic over lists of slots of any width |
| C25 | FixedLatencyFU / IterativeFU | refinement to a FIFO of accepted operations |
| C26 | Prf read/bypass/write | decision logic and invariant |
| C27–C30, C49 | Csr state machine | inductive invariants, equality with privileged-spec functions |
| C31 | `va2pa` | equality with Sv32 specification |
| C32 | PhysMemory | read-over-write laws, histories |
| C33 | store/load lanes | byte-level specification, round trip |
| C34, C50 | LR/SC and AMO of the reference model | history invariant; equality with the manual's operations |
| C35, C36 | base types | algebraic laws for every width |
| C37, C38 | age comparison, branch arbitration | window invariant |
| C39 | Rob commit arbitration | decision logic in reachable states |
| C40–C43 | Dispatch allocation, stream, completion groups, scoreboard | group-level decision logic and a ghost history |
| C44, C45 | Exu slots, port arbitration, unit flush | refinement to an account of owed operations; concrete counterexample run for the shipped mask width |
| C48 | ports and register file together | relation between broadcast, write-back stage and file along every run |
| C51–C56 | load/store unit with dispatch, commit, TLB and a cache interface | inductive invariant over all event sequences linking queue entries, outstanding requests, memory and the program's stores; replay specification `Spec/MemOrder`; device ranges `Spec/DeviceMap` |
| C57–C60 | data cache, MSHRs and write buffer, closed with an interconnect | inductive invariant (each line in one place) and a refinement: the contents seen through arrays, write buffer and fills equal the memory described by the answers (`Spec/CacheMem`); counterexample run for loads answered out of a fill |
| C61, C62 | replacement tree; bank grants | case analysis over all tree states; induction over the request list |
| C63–C65 | MemRouteBlock, any number of ports | inductive invariant linking the owner register with the ports; decision logic over two and three cycles; counterexample run for several walker clients |
| C66–C69 | TlbMmu, MemPtwBlock, MemRouteBlock together | lane-by-lane contract for a TLB cycle; invariant tying each TLB's walk register to the walker's port and the outstanding read; table entries agree with the specification's leaf; a rank that falls in every cycle without stall |
| C70–C75 | front-end glue, queues, predecoder, checker | bit lemmas for the two immediates; one cycle as an operation on lists; invariant: the queues hold one chain of groups, and predictions, fetched groups, outstanding requests and waiting addresses line up; a rank for the stall bound |
| C76–C79 | instruction cache with its read port, probe port and MMU | the cache's call characterised per state; invariants: control (offered, in-flight, cancelled and last answered numbers agree with the port), data (tables, collected words and captured answers are reported content), the outstanding request; a rank for the bound |
| C80 | front end and instruction cache | C76 discharges the assumption of C71–C75; the world is constant since the last redirect by the back end |
| C81, C82 | reference model's step, CSR unit | one step of the reference from the core's CSRs, case analysis of `exec` for words that trap, return, or access CSRs |
| C83 | difftest | the comparison characterised field by field; induction over the committed instructions; parametric in the reference |
| C84 | FP unit, reference `RV32Zfinx` | bit-level specification of classes, minimum/maximum and comparisons; the decoder's fields |
| C85, C86, C87 | device registers, timer, UART, interrupt controller, DMA | histories of stores and cycles as lists; each register an independent function of the history; induction over the history |
| C88, C89 | LSU uncached unit, `PeripheralAxi` | a log read from left to right that keeps what is owed; simulation between its stages and the registers |
| C90, C91 | Ren with the window, the register file and the path | simulation: the register file holds the values of the instruction-set machine run along the window; induction over cycles and executions |
| C92 | Idu, Dispatch, Fu, byte lanes in the core of C91, against RefCpu::exec | one-instruction simulation per instruction class (C09, C05, C06, C08, C33, C50), induction over the retired instructions, C91 |
| C93–C97 | Branch predictor top | abstraction of the registers to lists without bound (outcomes, open calls, waiting updates), invariant over all runs; address arithmetic for groups and banks; decoder characterised for all words; counterexample runs |
| C98–C100 | Type and target predictors | set-associative table against the list of updates, newest first: a look-up is nothing or the newest update; pigeonhole for retention; closed system of predictor and tables over all runs |
| C106 | Idu, Ren, Dispatch, Rob and the branch arbitration of Exu, wired as in BackTop | simulation: the composition's state is at every cycle a state of each stage's closed model (C10–C18, C42, C43), whose `Valid` follows from the others' invariants; the statements about the composition follow |
| C107 | the end of `main`, the main loop, the modes | case analysis over the loop with the state before cycle t in closed form; a0 is lost in two cases (theorems) |
| C108 | the same, and the commit accounting of Ren | invariant of the counters over single commits; fails when the limit is below the warm-up (theorem) |
| C109 | `restore_from_ref`, `get_state`, `restore_checkpoint`, `init_diff_ckpt` | bulk copies as lists of words; round trip of the file format; the timer and words outside the windows are not handed over (theorems) |
| C110 | the composition of C106 with a program: addresses, source registers, register file, execution | simulation by the core of C90–C92: its assumptions on window order, cut, retirement and serialisation are discharged from the stages; left to the environment: fetched words are the program's and follow the predicted path, an operation runs after its producers, completion and misprediction reports are honest |
| C111 | `front_cycle`, `back2front_comb`, the back end's stall and redirect, closed with the front end of C80 and the buffer of C20, C21 | invariant over the closed cycle: decoded ++ waiting ++ held = handed over since the redirect; path and words from C72, C80 |
| C112 | the fields of a prediction record that reach the training | the dropped fields are zero, so corrector and loop table are an invariant of any training; tagged tables trained as with the full record |
| C113 | load/store unit, routing block, data cache and interconnect wired as in `SimCpu::cycle` | joint invariant: the load/store unit's own (C53, C54) with the memory described by the cache's answers (C57, C58), the requests on the ports those of the waiting loads and stores (C63); witness run for the stale load |
| C114 | waiting lists of the load/store unit, load side | specification by counting occurrences over all slots; invariant (ring shape, state of each member, cover, disjointness, credit of dispatch) through all eleven steps of a cycle; offset in the report list as a variant for progress |
| C115 | waiting lists of the load/store unit, store side | specification by counting slots per stage; invariant with two credits (stores that may still enter each list) through all steps of a cycle; offset in the report list as a variant; for a wider dispatch a checked run of 87 cycles to a lost store and an invariant that it stays lost |
| C116 | packed twin of the page-table walker | bit-by-bit account of wiring, packing and unpacking; relation between unpacked register and walker kept by every step of a cycle; checked runs for the three ways the two come apart |
| C117 | the oracle front end | invariant: all that was handed over since the last redirect follows the machine; the repository's reference shown to be such a machine; checked runs for the three ways it falls short |
| C118 | the TLBs through their bit-packed function | writer/reader round trip for every record; one-lane relation between the records and the values of `Model/Tlb`; loop, cycle and run by induction; `Model/Mmu` rebuilt with the packed TLBs and simulated by it, so that C66 and C68 carry over |
| C119 | the instruction cache through its bit-packed functions | the records of icache_module.h modelled field by field, with the values a field has while its flag is off; `comb_core` on them against `core` of `Model/ICache`, state by state; writer/reader round trips; call, cycle and run by simulation in both directions, so that C80 carries over |
| C120 | C111 and C110 wired together: buffer slots, addresses, predictions, consumption, retirement and redirects are wires | the assumptions of each half about the other are proved from one invariant (the instructions in flight agree on both sides, the expected address agrees, `fence.i` comes with a redirect), so C106, C110 and C111 carry over; on machine words the reference model of C92 |
| C121 | C106 and five queues of C22/C23 wired together: the room announced, the micro-operations with their busy marks and branch masks, the squash and the wake-ups are wires | invariant: every queued operation belongs to an instruction of the reorder buffer that lacks this part, carries the branch mask decode's window gives the instruction, and a source marked available has all its producers announced (an unannounced producer is marked busy in dispatch's table); with the counting of issues this gives room, liveness, once and operands |
| C122 | C110 and C121 over the same stages; an instruction runs when its operations have left their queues instead of when its operands are there | invariant: the renamed registers dispatch hands the queues are those the program's instruction reads, every operand of an instruction is an operand of one of its operations, an operation that left its queue had its older producers announced, hence run; an atomic in the reorder buffer is the oldest; so C110's condition holds and C110 applies |
| C123 | C121 with the wake-up registers of C46 and the bus of C47 behind the queues, one machine | invariant: what counts down in the wake-up registers are the unfinished operations of instructions in the reorder buffer, at the remaining time their age calls for; destinations in flight differ, so an announcement is of one instruction; discharges C121's assumption on announcements |
| C124 | the machine of C123; the memory unit announces what it reports | invariant: a waiting source has an unannounced producer in the reorder buffer; the table marks no committed register and no announced destination; the registers named at dispatch are those of the youngest older writer through renames, commits, squashes and flushes; then strong induction over program order |
| C125 | the machine of C124, endless runs, fairness of the units and the memory unit | case analysis of one cycle by what is the oldest thing in flight; then by contradiction: the oldest instruction stays; the reorder buffer settles (it only grows, or is cut behind a branch resolved for good), so dispatch stops and the queues drain; its operations are issued, it completes, it retires; induction on the number of older instructions |
| C126 | `Model/TageSys`: C101–C104 inside C100, the predictions in flight as a list | refinement of the run to a log of trainings per bank; a potential (rank of the providing table, stale records in flight, distance of the counter, wrong records in flight) that each training in the branch's direction lowers |
| C127 | `Spec/Total`: C122 and C123–C125 over one state, unchanged | projection to both machines (that an announced result has been produced, assumed in C122, is derived); safety from C122, progress from C125 |
| C128 | `Model/Table`: GenericTable.h, function by function, `memcpy` out of bounds as `none` | induction over the writes: every byte position belongs to one row and chunk; countdown of the pending read |
| C129 | `Model/Table`: `AxiLlcTableRuntime` on top of it | history of every byte; the pending and the waiting lookup followed through quiet cycles; witness for the lookup that is lost |
| C130 | `Model/TopDown`: the counting loops of Dispatch.cpp and Ren.cpp and the level-1 report, fed by `Spine` | invariants of the sums; slots per cycle from the lengths of the dispatch group; dispatched minus retired bounds the reorder buffer; witness for the reset |
| C131 | `Model/TraceRing`: `record`, `dump_recent`, the event of a page-table walk | invariant: event number `j` is at `j % size` while it is among the last `size` |
| C132 | `Model/LatLookup`: the compile-time table under both policies, the three tables, the request slot and the lookup registers | contents by induction over the cycles, for every latency; latency 0: refinement to the list of refills; other latencies: invariant "a request in the slot means the tag table has nothing to answer", so the comparison never has anything to compare |
| C133 | the same model with the address asked of memory | invariant on the slot (latency 0, or address held); other latencies: countdown of the first lookup, for every address and every latency |
| C134 | `Model/IdealIc`: `SimpleICacheTop`, with the front end's way of asking and taking | induction over the slots of a group; induction over the cycles: sent = given, then waiting; counterexample for every pair of addresses |
| C135 | `Model/XPrintf`: `xvprintf` of the bare-metal library | induction over the pieces of a format; the digit loop and the width loop against `Nat.toDigits`; two refutations, each for all arguments of its kind |
| C136 | `Model/SpecScore`: the CPI, the warning and the SPEC ratio of `script/cal_spec.py` on rationals | sums over the logs against sums over the simpoints, by induction over the logs; counterexamples for all weights and cycles |
| C137 | `Model/BranchCount`: the branch counters of `commit_sync`, the branch figures of `script/cal_spec.py` | induction over the commits and over the logs; case analysis of the branch unit's verdict |
| C138 | `Model/TmaParse`: the lines of `perf_print_tma` and `parse_tma` of `script/cal_spec.py` | last match in a log with any surroundings; exact condition under which the report is right |
| C105 | the core of C91 with Csr, address translation and traps, against RefCpu::exec | events (instruction, exception, interrupt) of the core by induction over its cycles (C91); one-event simulation by the reference per instruction class and exception (C31, C33, C81, C82), commutation of the reference's timer sampling with a step, induction over the events |
| C101–C104 | Direction predictor | one instance of `TAGE_TOP` with all its tables; invariant over arbitrary trainings; convergence by a measure (tables that may still take over plus the provider's distance); the loop entry as a fold over outcomes |
| C46, C47 | Isu delayed wake-up | joint invariant of the port and the wake-up registers; counterexample run for the shared channel |

Later properties are appended to `properties.jsonl` and to this table as the
model grows.

## Coverage: what is modelled

| C++ | Lean | not modelled |
|---|---|---|
| `back-end/include/Fu.h` compute functions (ALU, MUL, DIV, BRU, SDU) | `Model/Fu` | floating-point unit, CSR unit |
| `back-end/Idu.cpp` decode | `Model/Decode` | debug fields |
| `back-end/Idu.cpp` tags and branch broadcast | `Model/Idu` | instruction-buffer side |
| `diff/ref.cpp` `RV32IM` | `Model/RefIM` | loads, stores, A extension, traps (later rows) |
| `back-end/Ren.cpp` | `Model/Ren` | busy table (in Dispatch), debug fields |
| `back-end/Rob.cpp` | `Model/Rob` | top-down-analysis output, dead-lock counter, assertions of `comb_complete`, `ftq_is_last` |
| `back-end/PreIduQueue.cpp`, `InstructionBuffer`, `FTQ.h` | `Model/PreIdu` | payload fields carried through unchanged |
| `back-end/include/IssueQueue.h` and its use in `Isu.cpp` | `Model/IssueQueue` | wake matrix as bits (addressing proved injective), payload fields |
| `back-end/Dispatch.cpp` | `Model/Dispatch` (decomposition in `Model/Decode`) | performance counters, block-reason bookkeeping, debug fields |
| `back-end/Exu/Exu.cpp`, `AbstractFU.h` | `Model/Exu` (C25, C38, C44, C45) | performance counters |
| `back-end/Isu.cpp` delayed wake-up, `FPU.h` latencies | `Model/Wake` (C46, C47) | classes with several units, floating-point arithmetic |
| `back-end/Prf.cpp`, write-back half of `Exu.cpp` | `Model/Prf` (C26, C48) | program-counter reads (C21), register numbers above `PRF_NUM` |
| `back-end/Exu/Csr.cpp`, `comb_to_csr` of `Exu.cpp` | `Model/Csr` (C27–C30, C49) | checkpoint restore, trace output, copies of satp/mstatus sent to the MMU |
| `back-end/include/base_types.h` (`WideBits`, widths), `clog2` etc. of `config.h` | `Model/Base` (C35, C36) | scalar containers of `AutoType` (plain C++ integers) |
| `back-end/PhysMemory.cpp` | `Model/PhysMem` (C32) | allocation failure |
| `diff/ref.cpp` loads, stores, `RV32A`, `store_data`, `load_word`, `store_word`; `MemUtils.h` byte lanes | `Model/RefMem` (C33, C34, C50) | the oracle of timer reads, the `is_mmio_*` flags |
| `diff/ref.cpp` `va2pa`, `va2pa_fix` and their callers' conditions | `Model/RefMmu` (C31) | messages |
| `back-end/Lsu/RealLsu.cpp` | `Model/Lsu` (one function per loop body), closed with its surroundings in `Model/LsuSys` (C51–C56); waiting lists of the loads in `Model/LsuList` (C114), of the stores in `Model/LsuStq` (C115) | in `Model/Lsu` the order in which the waiting lists serve entries: that model lets any entry be served next; register payload, debug dump, counters |
| `MemSubSystem/RealDcache.cpp`, `MSHR.cpp`, `WriteBuffer.cpp`, `DcacheConfig.cpp`; response capture of `MemSubsystem.cpp` | `Model/Dcache`, closed with an interconnect in `Model/DcacheSys` (C57–C62) | performance counters, empty ports, the instruction cache's probe port except as the flag `probe`; simplifications listed at the top of the file |
| `MemSubSystem/MemRouteBlock.cpp` | `Model/MemRoute` (C63–C65) | nothing; the cache is any environment that answers every port in the next cycle |
| `rv_simu_mmu_v2.cpp` `cycle`, the memory half; `MemSubsystem.cpp` response capture and routing | `Model/MemTop` (C113) | devices, the TLBs (C66), the walker (C67), statistics |
| `front-end/front_top.cpp`, `predecode.cpp`, `predecode_checker.cpp`, `fifo/*.cpp` | `Model/Front` (C70–C75) | predictors, two-ahead prediction, slot 1 (off in every configuration), counters, training data |
| `front-end/icache/icache_module.cpp`, `ICacheTop.cpp`, `icache.cpp` | `Model/ICache`, `Model/ICacheSys`, `Model/FetchSys` (C76–C80); through the bit-packed functions, as it runs, `Model/ICacheBits`, `Model/ICacheTopBits`, `Model/FetchBits` (C119) | the ideal cache (C134), counters, the random replacement (any way), reset during a run |
| `diff/ref.cpp` `exec`, `exception`, `RISCV`, `RV32CSR`, `RV32Zfinx` | `Model/RefCpu`, `Model/Zfinx` (C81, C82, C84) | `ref_only` mode, `sim_end`, messages, the fast run |
| `diff/diff.cpp` `checkregs`, `difftest_step`, `difftest_sync_from_dut`; `rv_simu_mmu_v2.cpp` `difftest_prepare`, `run_difftest_inst` | `Model/Difftest` (C83) | the linked reference (`librefcpu.a`, absent; a parameter), RAM synchronisation of ranges, messages |
| `main.cpp`; `rv_simu_mmu_v2.cpp` `restore_from_ref`, `restore_checkpoint` and the checkpoint readers | `Model/Driver`, `Model/Restore` (C107–C109) | messages, profiling, `REF_ONLY` |
| `rv_simu_mmu_v2.cpp` `front_cycle`, `back2front_comb` | `Model/HandOff` (C111, C112) | performance counters, training-data dumps, the assertions on the oracle's path |
| `diff/br_oracle.cpp` | `Model/Oracle` (C117); flags of `diff/ref.cpp` (`is_br`, `br_taken`, `is_csr`, `is_exception`, `is_mmio_*`) as functions there | the linked reference (a parameter), the timer queue (unused), setting up of memory at the start |
| `back-end/Exu/include/FPU.h` `FPUSoftfloat::impl_compute` | `Model/Zfinx` (C84) | SoftFloat itself (a parameter), exception flags (the code keeps none) |
| `MemSubSystem/include/PeripheralModel.h`, `back-end/PhysMemory.cpp` reads and writes of words | `Model/Device` (C85-C87) | the memory synchronisation hook, console messages |
| `MemSubSystem/PeripheralAxi.cpp`, `back-end/Lsu/RealLsu.cpp` `comb_mmio_in`/`comb_mmio_out` | `Model/MmioPort` (C88, C89) | when the LSU starts an access (an input, `Orderly`); a full finish queue |
| `front-end/BPU/type_predictor/TypePredictor.h` | `Model/BpuTab` (C98, C100) | request plumbing; all updates of a cycle read the old table, as in the code |
| `front-end/BPU/target_predictor/BTB_top.h` | `Model/BpuTab` (C99, C100) | request plumbing, training-data dumps |
| `front-end/BPU/dir_predictor/TAGE_top.h` | `Model/Tage` (C101–C104), `Model/TageSys` (C126) | the registers of the older multi-cycle design, the SRAM-delay simulation, loop `age` (written, never read); switches as committed |
| `front-end/BPU/BPU.h` | `Model/Bpu` (C93–C97), `Model/BpuSys` (C100), `Model/TageSys` (C126) | in C100 the answers of the direction predictor are inputs (in C93–C97 also those of the target and type predictors); in C126 records are numbered while they travel; two-ahead prediction (off in every configuration), registers never read, training-data dumps |
| `back-end/Lsu/TlbMmu.cpp`, `TlbMmuKernel.h` | `Model/Tlb` (C66–C69); through the bit-packed function, as it runs, `Model/TlbKernel`, `Model/TlbPacked`, `Model/MmuPacked` (C118) | performance counters, traces, the other `*_io_generator` functions (nothing calls them in a run), the local walker `PtwWalker.cpp` (no port connected: does not happen) |
| `MemSubSystem/include/MemPtwBlock.h` | `Model/Ptw` (C66–C69); in full, with memory ports and replays, `Model/PtwBlock` (C116) | counters, debug output |
| `MemSubSystem/include/PtwCompactCoreKernel.h` | `Model/PtwKernel`, run as a circuit in `Model/PtwTwin` (C116) | the wrapper that holds the register and computes the match bit is not in the repository: its layout is taken from comments, the match bit is an input; the reference to a C array is a function on bit positions (no out-of-range access modelled) |
| `MemSubSystem/MemSubsystem.cpp:985-1208` (TLB/walker wiring), `BackTop.cpp:185-201`, `ICacheTop.cpp:612-645` | `Model/Mmu` | the rest of MemSubsystem |
| `front-end/icache/GenericTable.h:1-263` (`DynamicGenericTable`); `MemSubSystem/MemSubsystem.cpp:43-239` (`AxiLlcTableRuntime`) | `Model/Table` (C128, C129) | the cache controller that makes the requests (`AXI_LLC`, in another repository), a disabled cache, the read requests the four tables are never given |
| `front-end/icache/GenericTable.h:265-429` (the compile-time `GenericTable`); `icache.cpp:31-67, 147-175, 209-236, 259-360`, `ICache::lookup` and the state `IDLE` of `eval_state_machine` for every `ICACHE_LOOKUP_LATENCY` | `Model/LatLookup` (C132, C133) | the other states of `eval_state_machine` with a latency (inputs of a cycle, so the theorems hold for whatever they do); `peek_row` and the debug dumps; a line of zeros, as a reset leaves it, is the empty list |
| `front-end/icache/ICacheTop.cpp:1038-1299` (`SimpleICacheTop`, `FRONTEND_ICACHE_MODE == 1`); `front_top.cpp:1144-1147, 1441-1452, 1507-1510` | `Model/IdealIc` (C134) | the MMU (its answer in a cycle is an input), the second request slot, counters |
| `baremetal/lib/xprintf.c:70-144` (`xvprintf`) | `Model/XPrintf` (C135) | `xputc` to memory (`outptr`), the other functions of the file, the UART behind `xfunc_out` |
| `script/cal_spec.py:954-963, 980-992, 1060-1066, 1108-1190, 1226, 1259-1261, 1345-1350` | `Model/SpecScore` (C136) | rounding of floating-point numbers, the regular expressions that read the logs, cache, branch, latency and top-down figures, the geometric mean over benchmarks |
| `rv_simu_mmu_v2.cpp:728-766`, `PerfCount.h:193-208`, `script/cal_spec.py:209-214, 1002-1029, 1205-1208, 1244` | `Model/BranchCount` (C137) | wrap-around of the 64-bit counters, printing and reading of the numbers |
| `PerfCount.h:1317-1401` (labels and order), `script/cal_spec.py:60-73, 192-199, 728-745` | `Model/TmaParse` (C138) | the regular expressions (a label matches at the end of the text before the colon), colour codes, rounding to two decimals |
| `back-end/include/PerfCount.h:229-269,300,1293-1402`; the accounting in `Dispatch.cpp:574-733`, `Ren.cpp:268-294,356-373`, `PreIduQueue.cpp:99-103,210-221` | `Model/TopDown` (C130) | all other performance counters, the stall-cycle counters |
| `include/DeadlockReplayTrace.h`, `include/DiffMemTrace.h`, `include/DebugPtwTrace.h` | `Model/TraceRing` (C131) | the texts printed; when events are recorded.  In this commit the only call of a `record` function is for satp (Csr.cpp:387), and the only dumps called are the other buffers' (DeadlockDebug.cpp:45-46, diff.cpp:282): those always report that nothing has been recorded |

## Environment assumptions

A stage is proved correct when closed with an environment; each assumption is a
field of a `Valid` structure and is discharged by reading the cited lines.

* `Spine.Valid` (C106, the stages put together): the branch unit reports each
  branch in the reorder buffer at most once, with its own tag and index, or a
  `jal` with tag 0, not mispredicted (C71); no other unit completes the branch
  part of a branch.  `BranchWindow`, `RenWindow`, `RobQueue` and
  `DispatchGroup.Valid` below follow from it (C106).
* `BranchWindow.Valid`: only resolved branches retire; the branch unit reports
  branches that are in flight (Exu.cpp:458-597).
* `RenWindow.Valid`: no retirement in a misprediction cycle (proved for the
  reorder buffer: `C17_no_retire_on_mispredict`); a tag is not reused while its
  branch is in flight (proved for the decode stage: C10).
* `RobQueue.Valid`: dispatch numbers its slots with the enqueue pointer,
  dispatches nothing into a full buffer or in a misprediction cycle
  (Dispatch.cpp:97-98,369,393); the redirecting branch is in the buffer.
* `FetchWindow.Valid`: what the front end and the reorder buffer feed to the
  instruction buffer and fetch-target queue; see the comments on its fields.
* `IssueWindow.Valid`: no more arrivals than announced free slots (C24), register
  numbers in range.
* `DispatchGroup.Valid`: rename sends a full-width group; no instruction with a
  destination writes register 0 (proved of the decoder: `C43_no_x0_destination`).
* `ExuQueue.Valid`: the scheduler issues only to ports that announced readiness for
  the operation's class; `wide` is the condition under which a full flush works
  (see the finding on C45), it is an explicit hypothesis of the `_partial` theorems.
* CSR file: none for C27, C29, C30 and C49.  The exception theorems of C28 assume
  that no interrupt is requested in the same cycle: the reorder buffer reports the
  interrupt instead (C39).
* `Lsu.Sys.Valid` (load/store unit): dispatch respects the announced free space; each store's address and
  data arrive once, each load request once; TLB answers are for translated, naturally aligned accesses not in the last word of the
  address space and recognised as device or memory like their whole word (`okTlb`: excludes misaligned accesses and the timer bytes of the C55 finding); stores are committed in order, after they
  reported and without fault, and after the loads that precede them in the program; a branch mask kills exactly
  the stores and loads behind the branch (C10); the cache carries out each store request at most once, between
  request and answer, and answers a load with the word it sampled after the request.  No assumption on fairness.
* `Dcache.Sys.Valid` (data cache): the interconnect accepts one read at a time, reads memory at some moment between
  acceptance and response, answers each accepted read once, in any order; it accepts one write at a time, performs
  it between acceptance and acknowledgement.  Ticks with and without requests alternate in any way.  No assumption
  on the requests and none on fairness.
* `MemRoute.Sys.Valid` (routing block): the data cache answers each request one cycle after it was presented, on the
  same port and with the same identifier (proved for the cache model: C57); identifiers of the load/store unit are below 2^31; the instruction cache's
  probes are answered `hit` or `conflict` (RealDcache.cpp:437).
* `MemTop.State.Valid` (C113): `Lsu.Sys.Valid` without its last two points and `MemRoute.Sys.Valid` without its first and last, which are
  proved there; `Dcache.Sys.Valid`; the identifier of a load request is below 2^31 and unused in its cycle.
* `LsuList.Valid` (C114): every cache request is answered once in the next cycle (C57, C113); dispatch takes the offered entries in order;
  a load is handed over once after its allocation; the store comparison finds its boundary (C52).
* `LsuStq.Valid` (C115): stores commit in order after their report; data and address of a store come once, while it is queued, at most
  one per port and cycle; dispatch takes no more than offered and than it is wide; a misprediction spares committed stores.
* `PtwTwin.Ok` (C116): a walk read is granted only if asked for; one event per cycle; right match bit; no replay of an instruction-side
  walk read.  The last three are necessary (witnesses); the first is what the arbiter does.
* `Oracle.Machine.Sane` (C117): the linked reference gives back the state written to it, reports a fetch fault as an exception and no
  device access as a jump (proved of diff/ref.cpp); dispatch and retirement as in `FetchWindow.Valid`.
* `KOp.Fits`, `Shape.Ok` (C118): a translation serves every port of the data TLB; at most sixteen ports (the repository has four), because
  `tlb_kernel_top_io_generator` has arrays of sixteen and checks nothing; beyond that the model has no outcome.
* `Mmu.Sys.Valid` (TLBs and walker): a walker read answered with data gets the word in memory unless memory changed
  while the read was outstanding (for the cache model: C58).  `fresh` and `Coherent` in C66 and C67 are software's
  duties: SFENCE.VMA after a change of page tables, and one address space per identifier.  The walker does not set A and D
  bits; a page with A = 0 (or D = 0 for a store) faults, which the manual allows.
* `FetchStream.Run` (front end): the instruction cache answers accepted requests in order, each at most once, and none
  in or after a cycle in which requests are withdrawn (`AnsOk`).  What the predictors say is unconstrained.
  `PTAB_SIZE - 1 ≤ INSTRUCTION_FIFO_SIZE` (8 and 8 in the repository).
* `ICache.Valid` (instruction cache): the interconnect (`axi-interconnect-kit`, an empty submodule) accepts only the
  read on the port, or one withdrawn in the cycle before after `req.ready` had been seen; it shows only answers to
  accepted reads, or once more the one taken in the cycle before; an answer is taken when it is shown with `resp.ready`;
  never acceptance and answer of a read in the same cycle (rv_simu_mmu_v2.cpp:490-580, 690-712).  The data cache answers
  a probe two cycles later (rv_simu_mmu_v2.cpp:1016-1091).  `World` collects what the MMU, the data cache and the memory
  have said: translations since the last withdrawal, contents since the last `fence.i`; `fence.i` comes with a redirect
  by the back end (Rob.cpp:430-471).
* C84: SoftFloat is a parameter; its comparisons are those of `Fp.Spec.Compares` and its subtraction is the addition of
  the negated operand up to NaNs (`Fp.Spec.Subtracts`).
* C81, C82: the timer bit of `mip` agrees with the reference's timer (`TimerSync`).  The in-tree `diff/ref.cpp` is not
  linked (Makefile:84 excludes it, `GenSimpoint/librefcpu.a` is linked instead and is not in the repository); C83 holds
  for any reference.
* C88: a device access starts only when the uncached unit is empty at the start of the cycle.  The code checks the unit
  after completion, so this needs the LSU's other conditions: a store starts only at the head of the store queue, which
  the completed store leaves at the end of the cycle, and a load only if it is the oldest unfinished instruction in the
  ROB's broadcast, which is of the state before the completion.  `MmioRun.C88_needs_gap` shows the condition is needed.
* C110, `Whole.Valid`/`CanRun`: the front end follows the predicted path and delivers the program's words (C111 has the same
  statements of the front end, for addresses that are multiples of four); an operation runs once its producers have; what a unit
  reports as completed has run; a misprediction is reported exactly if the execution leaves the predicted path.
* C111: `Fetch.OkIn` of the instruction cache's surroundings (C76–C80); decode takes no more than are waiting, the reorder buffer
  retires no more than are in flight, a redirect names an instruction in flight (`HandOff.Ok`).  Behind an address that is not
  a multiple of four nothing is said about the path (the group wraps differently at the end of a line, see the example there).
* C120 (`FullCpu.Ok`, `Four`, `Holds`): the instruction cache's surroundings as in C80; the units' reports as in C106 and C110; the
  addresses handed over are multiples of four; the words that can be fetched while the machine runs are the program's.  What C110
  assumes of the front end and C111 of decode and the reorder buffer is proved.
* C121 (`Sched.Valid`): the units' reports to the reorder buffer as in C106; no part of an instruction is reported finished while
  its operation is still in the queue; no register is broadcast while the instruction that will write it still waits for dispatch.
  Which registers are broadcast when, and which ports are free, is otherwise arbitrary (the wake-up delay lines of Isu.cpp:329-447
  are not in this model).
* C122 (`Ooo.Valid`): the assumptions of C110 and C121, and that an instruction whose result has been announced has run, or has its
  result written, by the beginning of the next cycle.  C110's assumption that an instruction runs only after the producers of its
  operands is not assumed.  An instruction runs at one instant, when all its operations (except the data operation of an atomic)
  have been issued, except that its register result may be written before, when the operation producing it has been issued
  (`Core.write`, `Whole.write`: C90, C91, C92, C110, C120 allow this too).
* C123 (`Waker.Valid`): as C121 except for its assumption on announcements; no unit reports an operation before the delay of its
  announcement is over (C46 shows when the units' results can be read); loads announce only destinations of memory instructions in
  the reorder buffer, or register 0.  Executions in which the wake-up registers are full or two delayed results meet on a channel
  (assertions, C46 and C47) are not continued.
* C124 (`Progress.Valid`): as C123; and a load or atomic with a destination that retires without an exception or interrupt has been
  announced by the register file, at the latest in the cycle it retires (a run in `Props/Progress` shows that without this an
  operation can wait for ever).
* C125 (`Alive.Sized`, `Alive.Fair`): as C124; there is one of each resource; for ever: again and again all units accept work in
  one cycle without misprediction; an instruction all of whose operations have been issued stays complete from some cycle on; what the
  load part of an atomic instruction fetches is announced; again and again no store is pending when a fence is the oldest
  instruction; again and again, when the reorder buffer is empty, the load and store queues have room.  That the units and the memory unit
  do this is not shown here.  Nothing is asked of the issue policy (config.h:454-460
  configures slot order): the oldest instruction cannot be overtaken for ever, as the reorder buffer settles while it waits.
* C126 (`Spec/TageSys`: `Watch`, `Tracks`): at most `W` predictions of the branch are in flight; they are trained in the order they were
  made, each with its own record (direction, providing table, rows, tags; C112 says that these survive the hand-over); the branch reads the
  same rows each time (`SameRows`; by `C126_rows` this follows from equal newest outcomes); other trainings of the bank use none of its
  rows.  That retirement returns records in order and uncorrupted is C112–C114 and not used as a theorem here.
* C127 (`Spec/Total`: `Valid`, `Fair`): what C122 assumes of announcements (`honest`) is proved here from the bus; assumed instead: an integer, multiply,
  divide or floating-point operation has its result when its delay is over (`units`; C46 is about the unit's own counters and not used as a
  theorem here), the memory unit has delivered what it announces (`memory`).  The rest is as in C122 (`stages`, `uses`) and C125 (`bus`, `Fair`).
* C128, C129 (`Spec/Table`): `Fits` (the bytes of a row fit 32 bits; `C128_wraps` shows it is needed) and, in C129, `row b < 2 ^ 32`, which is the type
  of the field.  Cycles whose assertions fail have no successor (`none`), so C129 speaks of the runs in which they hold.
* C130 (`Spec/TopDown`): runs of `Spine` under its own `Valid`, the instruction buffer offering without gaps (`Packed`; so in C120's model); the state of the oldest instruction and of the instruction cache (`Hint`) is arbitrary in
  every slot.  The counters do not wrap.
* C132, C133: with `ICACHE_LOOKUP_LATENCY > 0` (not the default) the cache is broken in two ways.  The request moves from the lookup register to the
  slot in the cycle in which the tables answer (icache_module.cpp:912-916); the tables are clocked with the new registers (icache.cpp:320-326), see no
  request and drop the answer (GenericTable.h:384-387), so the comparison in the next cycle has no answer and is a miss (`C132_never`).  And the slot
  takes its set from the address on the input (`load_index = index`, icache_module.cpp:869) and not from `lookup_index_r`; the front end drives 0 there
  while the cache is not ready (front_top.cpp:1449-1452, with 631 and 1390), so every fetch that had to wait is refilled from the first line of its
  page (`C133_wrong`).  The partial theorems cover latency 0, and for C133 any latency with the address held.
* C134: the ideal cache keeps a request for which the MMU asks for a retry and answers it later, but the front end takes that cache to be ready in every
  cycle (front_top.cpp:1144-1147) and takes an answer only in a cycle in which it sends an address (1507-1510).  So after a retry the next address sent
  is lost (`C134_lost`, for all addresses), or the late answer is not taken (`C134_untaken`).  The partial theorems cover runs without retries, and
  a front end that obeys `peek_ready`.
* C135: `xprintf` puts the zeros before the sign (`%05d` of -42 prints `00-42`, `C135_zero_negative`) and drops all but the low sixteen digits of a
  binary number (`C135_binary`).  `C135_actual` says what is printed in every case; `C135_format_partial` covers everything else: widths below 2^31, upper-case types other than `X` (an extension of this
  library) left out of the formats.  `int` and `long` have 32 bits; a string argument is the list of its characters before the zero byte.
* C136: two logs of one simpoint in the directory (of a run and its repetition, for example) both count: the mean is wrong (`C136_twice`) and missing
  weight can go unreported (`C136_no_warning`).  `C136_mean_partial` and `C136_warning_partial` ask for at most one good log per simpoint.
  Floating-point numbers are taken as rationals.
* C137: the prediction that `commit_sync` reads from the fetch target queue is taken to be that with which the branch was executed (C21 proves that the
  queue keeps its entries); the counters are natural numbers.
* C138: the search for a label is not anchored and takes the last match.  `IDU Frontend Bound` and its four companions, printed later, are therefore read
  in place of `Frontend Bound` and so on (the comment at PerfCount.h:1359-1362 says the prefix avoids this), and `Ext Memory Bound` in place of
  `Memory Bound`.  `C138_right_iff` gives the exact condition under which the report is right all the same.
* C90, C91: the model of Ren.cpp is closed with a window, a register file and inputs that behave as proved of the other
  units (list at the head of `Spec/CoreFlow`): an operation runs once its producers have (C22, C43, C46, C48), reads the
  newest value (C26), only finished instructions retire, in order (C16, C17), branches only after their misprediction was
  reported, the front end follows the predicted path (C72, C80), memory and CSRs answer as the sequential external
  state does (C30, C53, C54), and nothing writes the destination of an instruction that is no longer in flight.  The last
  point fails for operations that survive a flush (C45); `CoreRun.C91_needs_flushed` shows what that does.
* C105: the assumptions of C90, C91; when the core flushes, the reorder buffer and the CSR unit choose event, target and CSRs as in
  `SysReach` (C16, C17, C29, C30, C77); every event is within `SysRef.Fits`: the words executed are in memory where the fetch finds
  them, translation is the manual's (C66, C67), data addresses are aligned and not devices, privilege levels are U, S or M,
  exceptions with direct vectors, fetch faults not right after an ECALL or an interrupt.  If the reference consults the core's
  fault flags they are those of the event (`Told`).  The timer compare value is constant (stores to devices are not covered)
  and the core's timer line is the reference's comparison (`htl`).
* C92: the assumptions of C90, C91; every instruction executed is one of those listed in `CoreRef.Step` (aligned, not a
  device address, no rotation by zero), and is still in memory when it is executed (`CoreRefRun.C92_needs_intact`).  Floating
  point, CSR, LR/SC, fences and traps are compared instruction by instruction elsewhere (C34, C56, C81, C82, C84).
* C93–C97: the configuration meets the static assertions of config.h and BPU_configs.h (`Cfg.Ok`, `Cfg.Lines`).  For
  C93 the instructions reported in a cycle are as many as the reorder buffer retired in the cycle before (`Paced`).

## Findings

Places where the code does not have the property one would expect.  Each is
proved as a theorem with a concrete witness; the property keeps a `_partial`.

* `rol`/`ror`/`rori` by 0 shift a 32-bit value by 32, undefined in C++ (C02).
* A correctly predicted branch can be reported mispredicted by the branch unit (C05).
* Reserved `funct7` values of OP execute as ADD; access to an unknown CSR
  executes as a no-op, neither raises illegal-instruction (C08).  The reference
  model behaves differently on these encodings (C09).
* A plain FENCE retires although committed stores are still pending: the
  forward-progress fallback of the commit logic (Rob.cpp:320-335) retires it in
  the very cycle in which the store gate (Rob.cpp:288-316) holds it back (C19).
* An interrupt is reported together with a valid commit entry for the oldest
  instruction, which may be unfinished (C39); consumers have to check the
  interrupt flag.
* The issue queue matches ports with instructions before looking at which
  functional units accept work, so an older ready instruction can be passed over
  by a younger one on a port that could execute both (C23).
* With 16 branch tags (config.h and the small configuration) the functional units
  never recognise a full flush: `mask == ~wire<16>(0)` compares after integer
  promotion and is always false (AbstractFU.h:122,203; base_types.h:242-256).  An
  operation that depends on no branch survives the flush, completes afterwards
  (C45) and a later operation on the same unit is lost (C25).
* The divider and the floating-point unit share port 1 and therefore one delayed
  wake-up channel; a division issued at T and an addition issued at T+13 announce
  together, which stops the simulator (debug) or loses a wake-up (release) (C47).
* A load (or store-conditional) with destination x0 is written back with `dest_en` set and physical
  register 0; an instruction that reads x0 in the next cycle gets the loaded value (C26).
* Privileged architecture (C28): exceptions in M-mode whose `medeleg` bit is set are
  delivered to S-mode; an environment call from M-mode reports cause 0 once bit 8 of
  `medeleg` is set; with a vectored `mtvec`/`stvec` exceptions continue at the raw
  register value (bit 0 set); pending machine interrupts are served in the order
  software, timer, external; a machine interrupt delegated to S-mode is reported with
  the supervisor code.
* Supervisor interrupts are treated as delegated whatever `mideleg` says (C29).
* The latched CSR write is not cleared when its instruction is squashed; the commit of a
  later read-only CSR instruction performs it (C30).
* No access check: CSR instructions have the same effect in every mode, and the read-only
  `mhartid` can be written (C49).
* `wire<N>` with N > 128 does not sign-extend: assigning a negative `int` sets only its own 32 bits,
  while for N <= 128 all bits are set (C35).
* `clog2` of a value above 2^63 shifts by 64, undefined (C36; no such count occurs).
* C31: with SUM=1 the reference model lets the supervisor execute from a user 4 MiB page
  (`MmuRun.C31_violated`); 4 KiB pages are checked correctly.  All data accesses agree with the manual.
* C34: a store to another byte address inside the reserved word does not end the reservation
  (`RefMemRun.C34_partial_store_keeps_reservation`); a failing store-conditional to the UART data register still
  sends a character (`C34_failing_sc_sends_character`); a load-reserved repeats the device side effects of the
  previous store (`C34_lr_repeats_output`).
* C33: a byte store to a timer register clears the other bytes of its half (`C33_timer_byte_store`); the claim
  excludes device registers.
* C53: a load behind a failed or undecided store-conditional to the same word is given the data of the
  store-conditional (`C53_failed_sc`); a load of a trap handler is given the data of the store at which the trap
  was taken while older stores are still draining (`C53_cancelled_store`).
* C113: the stale load of C58 reaches the program: a store commits, is carried out into a line that waits to be filled, and leaves the
  queue; a younger load of the word then goes to the cache and reports the old value (`C113_stale`).
* C52: a trap or interrupt taken at a store that has not reported completion fails the assertion of the store
  commit (`C52_trap_unreported_aborts`).
* C51: the overlap test of forwarding wraps at the top of the address space (`C51_wraps_at_top`).
* C55: the timer registers are recognised as devices only at their first byte (`C55_timer_bytes`).
* C56: an ordinary store to the reserved word, or a trap, does not end the core's reservation
  (`C56_store_keeps_reservation`, `C56_trap_keeps_reservation`); the reference model ends it on the store.
* C58: a store that is acknowledged while its line is being filled lives in the fill register of stage 2 only; the
  copy of the line from which waiting loads are answered is computed without it, so a later load of the same word
  returns the old value (`C58_stale_load`; `runFull` in `Props/Dcache` shows it at the default clock ratio with a full
  write buffer).
* C65: with several requesters behind the routing block `ptw_wait` is overwritten by the last of them, the wake-up of
  the other is lost for ever (`C65_lost_wakeup`; MemRouteBlock.cpp:77-79).  The simulator routes both TLBs through
  the one walker port, so it is not reachable today.
* C67: a supervisor fetch from a user 4 MiB page with SUM = 1 faults in the core and is translated by the reference
  model's `va2pa` (`TlbRun.C67_fetch_violated`; same cause as the C31 finding).
* Instruction cache (not a violation of C76–C80): while waiting for a withdrawn read to be accepted, the cache raises
  `mem_resp_ready` unconditionally (icache_module.cpp, `CANCEL_WAIT_ACCEPT`).  That is harmless only because the
  interconnect never shows an answer in the cycle it accepts the read.  And a `fence.i` orders fetches only after what
  the data cache and the memory *report*: a line evicted from the data cache into its write buffer after the memory read
  was made is reported as a miss with old memory content; whether that can happen depends on the interconnect, which
  is not in the repository.
* C105: when an interrupt is pending and the fetch of the next instruction faults, the core takes the interrupt and the reference
  the page fault (`SysRefRun.C105_fetch_fault_first`): `exec` looks for interrupts after the fetch only.
* C81: an exception with a vectored trap vector continues at the vector with its mode bits in the core
  (`RefRun.C81_vectored_exception`); delegated illegal instructions go to S-mode in the core and to M-mode in the
  reference (`RefRun.C81_illegal_delegated`); the reference takes a fetch fault right after an ECALL for another ECALL
  (`RefRun.C81_stale_ecall`), and an interrupt before an ECALL for the ECALL (`RefRun.C81_interrupt_at_ecall`); words
  with an unknown opcode do nothing in the reference (`RefRun.C81_unknown_opcode`); an atomic to an unmapped page
  always ends a run with differential testing (`C81_amo_double_fault`).
* C82: `csrrwi x0, csr, 0` writes in the core and does not in the reference (`RefRun.C82_csrrwi_zero`); writes of
  `mip`/`sip` are masked and mirrored in the core only (`RefRun.C82_pending_write`).  SYSTEM words with funct3 0 or 4
  whose upper bits name a CSR act on it in the reference.
* C83: not compared are stores of the core where the reference makes none (`DiffRun.C83_spurious_store`), the width of
  stores, the privilege level and the reservation (`C83_blind`).  The reservation handed to the reference after an
  exempt instruction is never set during a run (`C83_reservation_constant`).  A page fault reported by the core is forced
  on the reference (`va2pa_fix`), so faults that should not have happened pass.
* C84: reserved OP-FP encodings are not illegal; the core's unit asserts on them (`RefRun.C84_reserved_abort`; a no-op
  assertion in release builds).  Fused multiply-adds are illegal in the core and executed by the reference
  (`RefRun.C84_fused_illegal`).  The core ignores the format field and accepts rounding modes 5 and 6
  (`RefRun.C84_format_ignored`).
* Privilege level 2 can be reached by MRET with MPP = 2, in the core and the reference alike.
* C85, C87: the timer and DMA registers ignore the width of an access: a byte store sets the whole word, a byte load
  returns the whole word (`DevRun.C85_width_ignored`).
* C87: a DMA transfer reads and writes the backing memory and not the data cache, the write buffer or the store queue:
  it copies stale bytes of dirty lines, and cached copies of the destination stay stale.
* C89: every load from a device behind the AXI port is performed twice (`C89_first_answer_partial`, last entry), because
  the port reports `ready` in the cycle of the answer and the LSU repeats the request it has not yet seen answered; the
  answer to the second read completes the next device access (`MmioRun.C89_read_twice`).  A flushed load's answer
  completes the next device access as well (`MmioRun.C89_flushed_answer`).
* C91: the operations that survive a full flush (C45) can overwrite the register of a later instruction
  (`CoreRun.C91_needs_flushed` shows the effect of such a write on a committed register).
* C93: the predictor's back-pressure stops group commit only; a complete instruction still retires in every stalled
  cycle (`C93_stall_leaks`).  The queues do not overflow because each bank pops one entry per cycle before the pushes.
* C95: a call through a pointer (`jalr ra`) and the alternate link register are not seen as calls and returns
  (`C95_indirect_call_lost`), so the return after such a call pops the caller's entry.  The instruction an interrupt
  replaces is reported to the predictor as retired (`C95_interrupted`); an interrupted call is pushed twice
  (`C95_called_twice`), and an interrupted jump is trained with the trap vector as its target.
* C97: a redirect by a mispredicted branch at execution copies the retired history and stack over the speculative ones
  while older branches and calls are still waiting to retire; they are never added again, so the speculative state stays
  behind until the next redirect (`C97_out_of_step`).
* With the predictor enabled, `front_cycle` (rv_simu_mmu_v2.cpp:1131-1170) does not pass the statistical corrector's and
  the loop predictor's metadata to the back end (only the oracle branch, 1230-1240, does), so both train with zeros: the corrector's tables never change and it never has a
  say (`C112_deaf`); all branches train entry 0 of the loop table under tag 0 (`C112_stray`).
* C98: all type updates of a cycle read the old table.  Two instructions of one set that retire together pick the same
  victim, so the first is lost though a way is free, and a correction can be lost (`C98_collision`).
* C99, C100: without a target entry the target predictor answers, as valid, the word after the address *within the bank*
  (the address divided by the number of banks), not the next instruction (`C99_fallthrough`).  The kind of a jump is known
  one cycle before its target, and the two tables replace independently, so a jump of known kind without a target entry
  sends the fetch to an address no instruction ever named, e.g. 0x20000008 after 0x80000010 (`C100_stray`).
* C104: the loop table records the number of taken executions as the trip count but foretells the exit when one more
  execution would reach it (`iter_count + 1 == iter_limit`, TAGE_top.h:1055).  For every loop with a fixed trip count it is
  therefore wrong exactly twice per round, at the last taken execution and at the exit (`C104_off_by_one`), and its word is
  final when the provider's counter is weak (`C104_final`).  With one execution still in flight between prediction and training
  the two errors cancel; the theorem is about executions trained before the next is predicted.
* C101: tagged rows have no valid bit, so after reset a branch whose tag is zero is "known" to the longest table as strongly not taken
  (example beside `C101_unanimous`).
* With the sizes of `config.h.large` the number of store slots offered to dispatch can wrap round and a store is overwritten in a waiting
  list; the core then waits for it for ever (C115, `C115_wide_loses`).
* In the packed page-table walker, with the match bit as the comments describe it, the answer to a walk that was thrown away is taken for
  the answer to the next one if it arrives in the cycle that one's read is granted: the identifier "not the current one" is made by
  flipping a bit of 0 and equals the identifier given to the grant (C116, `C116_plain_match_fails`).  A replayed walk read of the
  instruction side turns into a walk of the data side (`C116_replay_fails`); of two events in a cycle the second is lost
  (`C116_two_events_fails`; the memory system sends one at most).
* With the oracle as front end, a redirect gives the oracle's machine the core's registers but not its memory: stores and atomics it has
  executed ahead stay, and an atomic that is executed again sees its own result (C117, `C117_memory_fails`).  The registers come from
  `dut_cpu`, which only the comparison with the reference keeps up to date: with the comparison off every redirect throws the oracle
  back to old registers (`C117_mirror_fails`).  With `CONFIG_ORACLE_STEADY_FETCH_WIDTH` a taken branch inside a group is always
  mispredicted (`C117_steady_fails`).  Only the speed suffers: the core checks every prediction (C90).
