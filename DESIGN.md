# librseq verification: design

Source under study: `/repo` (compudj/librseq, C). Read as text; never built or run.
Word size and byte order are parameters: the pool model (`Mem`, `Mempool*`, `PoolSet*`, `PoolConc*`) is
stated over a type class `Abi` (`wb` = `sizeof(unsigned long)` = `sizeof(void *)`, 4 or 8, and a byte
order), `Bits` and `Mmap` over the bit width `n` (32 or 64), the helper programs over word size and byte
order. `Register`, `Smp` and `Numa` use unbounded integers with explicit C ranges where they matter.

## 1. Layout of the Lean project

| Module (under `lean/Verif/`) | Contents |
|---|---|
| `Bits.lean`, `BitsProps.lean` | `src/rseq-utils.h` on `BitVec n`, 32 and 64 bits (C29, C30, C57) |
| `Mmap.lean`, `MmapProps.lean`, `MmapWrapProps.lean` | `aligned_mmap_anonymous` against a kernel that may return any page-aligned address (C31); requests that overflow (F56) |
| `Mem.lean` | `Abi`; words as bytes in either order; byte-addressed memory with private copy-on-write pages (kernel `MAP_PRIVATE` over a shared memfd page) |
| `Mempool*.lean` | `src/rseq-mempool.c`: create / malloc / zmalloc / malloc_init / free / destroy (C01-C21, C58, C59) |
| `PoolSet*.lean` | pool sets (C22-C24, C56); `PoolSetConc*`: threads sharing a set (C78, C79) |
| `Attr*.lean`, `Numa*.lean` | attribute setters (C25), NUMA batching (C26) |
| `PoolConc.lean` | many threads on one pool, byte by byte, one- or two-phase page faults |
| `PoolConcProg.lean` | the byte programs compute the sequential functions; rely/guarantee lemmas |
| `PoolConcInv.lean`, `PoolConcStep.lean` | invariant and its preservation |
| `PoolConcWeak.lean`, `PoolConcWeakStep.lean` | weaker invariant that survives two-phase page faults |
| `PoolConcProps.lean`, `PoolConcRace.lean` | C27, C28, counterexamples |
| `RseqMachine`, `RseqPseudo`, `RseqArch` | instruction-level machine; pseudo-code specification; the 69 helper programs |
| `RseqStraight`, `RseqMemcpy`, `RseqArchProps` | programs implement the pseudo-code (C35) |
| `RseqConc`, `RseqInv`, `RseqFoot*`, `RseqCut`, `RseqCopy`, `RseqCall`, `RseqConcProps` | threads, kernel abort rule, atomicity (C32-C34, C36, C37, C43) |
| `RseqOwn`, `RseqClient`, `RseqCounter*`, `RseqLock*`, `RseqStack*`, `RseqBuf*` | programs that use the helpers (C38-C40, C63) |
| `RseqDispatch*`, `RseqOrder*` | dispatch (C41), memory order (C42) |
| `RseqRegs*`, `RseqTaint`, `RseqCtl` | registers restored (C60) |
| `RseqRace*`, `RseqFence*` | helpers under data races (C61), barriers (C62), the membarrier test to its final sum (C95) |
| `Tap`, `TapLemmas`, `TapProps`, `TapTests` | the TAP library and driver, plans of the test programs (C96, C97) |
| `TapDriver` | which outputs the driver accepts, for any output (C96) |
| `TapSh`, `TapShLemmas`, `TapShProps` | tap.sh, run_param_test.tap (C99) |
| `MempoolCmp`, `MempoolCmpLemmas`, `MempoolCmpProps` | C103: `rseq_cmp_item` and its callers with signed overflow as undefined behaviour |
| `PoolConcLin`, `PoolConcLinLemmas`, `PoolConcLinProps` | C102: concurrent pool operations compared with an atomic allocator |
| `ParamArgs`, `ParamArgsLemmas`, `ParamArgsProps` | options and C delay points of param_test.c (C100, C101) |
| `Bench`, `BenchLemmas`, `BenchProps` | basic_percpu_benchmark.c (C98) |
| `RseqTwice*` | `RSEQ_COMPARE_TWICE` builds (C69) |
| `RseqInject*` | builds with delay injection (C80, C81) |
| `RseqBound*` | bound on the instructions of a call (C82) |
| `RseqTree`, `RseqSym*`, `RseqTrace*` | pseudo-code as a tree of accesses; symbolic execution of the programs; calls under races (C87, C88) |
| `RseqCause*` | why calls return -1, progress of retry loops (C86) |
| `RseqSpin`, `RseqSpinProps`, `RseqSpinEx`, `RseqListTest`, `RseqListTestProps`, `RseqListTestEx`, `RseqListInit`, `RseqListInitProps`, `RseqListInitEx` | the spinlock and list tests of basic_percpu_ops_test.c to their final sums |
| `ParamTest` | the progress report of param_test.c |
| `PoolConcBound`, `PoolConcBoundProps` | C91: length of concurrent pool operations, no deadlock |
| `CowTest`, `CowTestInv`, `CowTestProps`, `CowTestEnd` | tests/mempool_cow_race_test.c on the machine of `PoolConc` (C92) |
| `RseqBufTest`, `RseqBufTestInv`, `RseqBufTestLoop`, `RseqBufTestProps`, `RseqBufTestEx` | the threads and the final loops of the buffer tests of param_test.c (C93) |
| `RseqBufInit`, `RseqBufInitLemmas`, `RseqBufInitProps`, `RseqBufInitEx` | the loops that fill the buffers, and the tests as a whole (C93) |
| `MempoolInst`, `MempoolInstMore`, `PoolConcInst`, `RangeSysInst`, `RegisterInst`, `RseqInst`, `UtilInst` | per property theorem an `example` that applies it to a concrete state (for the theorems whose instance is not next to them) |
| `RseqWitness`, `RseqClientWitness` | the theorems about helpers and their clients applied to concrete executions |
| `RseqUnload*` | unloading libraries with critical sections (C83) |
| `RseqPool`, `RseqPoolProps` | helpers on items of a pool: the rseq machine and the pool on one memory (C84) |
| `RseqInc`, `RseqPoolTest`, `RseqPoolTestProps`, `RseqPoolTestEx` | C104: the spinlock and increment tests of param_test.c from pool creation to destruction |
| `RseqPoolList`, `RseqPoolListProps`, `RseqPoolListEx` | C105: the list test of param_test.c from pool creation to destruction, with nodes outside the pool |
| `RseqBufField`, `RseqBufFieldLemmas`, `RseqPoolBuf`, `RseqPoolBufProps`, `RseqPoolBufEx` | C106: the two buffer tests of param_test.c from pool creation to destruction, with the fields `buflen` and `array` in the item |
| `RseqDrain`, `RseqBufDrain`, `RseqIncDrain`, `RseqLockTaken`, `RseqSpinDrain`, `RseqPoolDrain`, `RseqPoolDrainProps`, `RseqPoolSpinDrain`, `RseqPoolSpinDrainProps`, `RseqListDrain`, `RseqPoolListDrain`, `RseqPoolListDrainProps`, `RseqPoolListDrainEx`, `RseqPoolDrainEx` | C107: from every state the spinlock, increment, list and buffer tests reach, the threads can be scheduled so that the test ends and passes |
| `PoolLocks`, `PoolLocksLemmas`, `PoolLocksProps`, `PoolLocksForkProps`, `PoolLocksSigProps` | The mutexes of the library (pool locks, set locks, `init_lock`) and the calls made while they are held, including by init callbacks (C108), in forked children (C109) and in signal handlers (C110). |
| `MempoolForkTests`, `MempoolForkTestsProps` | C112: the checks of mempool_test.c that run in a child |
| `TapMempool`, `TapMempoolProps`, `MempoolTestRuns` | C113: main of mempool_test.c, its verdict, the pools it asks for |
| `MempoolTestWhole`, `MempoolTestWholeProps` | C114: all of mempool_test.c on the pool model |
| `MacroArgs`, `MacroArgsProps` | C116: expressions as arguments of the macros of mempool.h |
| `PoolName`, `PoolNameProps` | C115: the name of a pool and of the memory of its ranges |
| `PoolConcFork`, `PoolConcForkProps` | C111: a pool of the machine of C27 in a forked child |
| `AsmTable*` | descriptors, signatures and sections as assembled; what the kernel reads (C64) |
| `MempoolGlobal`, `MempoolRetry`, `MempoolMisfree` | global pools used directly (C72); repeated destroy (C73); wrong frees (C74) |
| `MempoolTests`, `MempoolTestsProps` | tests/mempool_test.c as programs over the pool model; they pass (C75) |
| `RangeSys*` | range creation as system calls; processes with pools down to pages and descriptors (C66-C68) |
| `Barriers*` | barrier macros, memory models of the nine architectures, locks (C65), race-free data (C85) |
| `Acquire`, `AcquireLemmas`, `AcquireProps` | the values acquire loads and release stores transfer, by size (C94) |
| `Register*.lean` | `src/rseq.c` (C44-C49) |
| `Syscall`, `SyscallProps` | rseq(2) with its errors, `rseq_available`, the registration tests (C76, C77) |
| `RseqArea*` | the threads' `struct rseq_abi` areas byte by byte; accessors of `rseq.h` (C70, C71) |
| `Smp*.lean` | `src/smp.c` (C50-C53) |
| `LinkedList*.lean` | `src/list.h` (C54, C55) |

Functions of the source and their models (module.definition; several where several models exist):

| src/rseq-mempool.c | model |
|---|---|
| `__rseq_pool_range_percpu_ptr`, `..._init_ptr`, `__rseq_free_list_to_percpu_ptr`, `__rseq_percpu_to_free_list_ptr` | `Mempool.percpuPtr`, `.initPtr`, `.freeListToPercpu`, `.percpuToFreeList` |
| `rseq_cmp_item`, `rseq_percpu_zero_item`, `rseq_percpu_init_item`, `rseq_poison_item`, `rseq_percpu_poison_item`, `rseq_percpu_check_poison_item` (with `rseq_check_poison_item`) | `Mempool.cmpItem`, `.zeroItem`, `.initItem`, `.poisonBlock`, `.poisonItem`, `.checkPoisonItem`; byte by byte: `PoolConc.cmpP`, `.zeroP`, `.initP`, `.poisonP`, `.poisonItemP`, `.checkP` |
| `rseq_mempool_range_init_numa` | `Numa.rangeInitNuma` |
| `create_alloc_bitmap`, `set_alloc_slot`, `clear_alloc_slot`, `destroy_alloc_bitmap` | part of `Mempool.rangeCreate` and `RangeSys.rangeCreateSys`; `Mempool.setAllocSlot`, `.clearAllocSlot`, `.leaked` |
| `percpu_addr_in_pool`, `check_free_list`, `check_range_poison`, `check_pool_poison`, `pool_mappings_accessible` | `Mempool.addrInPool`, `.checkFreeList`, `.checkRangePoison`, `.checkPoolPoison`, `.mappingsAccessible` |
| `aligned_mmap_anonymous` | `Mmap.alignedMmap`, used by `RangeSys` |
| `rseq_memfd_create_init`, `rseq_memfd_close`, `rseq_mempool_range_create`, `rseq_mempool_range_destroy` | `RangeSys.memfdCreateInit`, `.memfdClose`, `.rangeCreateSys`, `.rangeDestroySys`; abstract: `Mempool.rangeCreate`, `.rangeUnmapArgs` |
| `rseq_mempool_create`, `rseq_mempool_get_max_nr_cpus`, `rseq_mempool_attr_set_*` | `MempoolCreate.create`, `.validate`, `.getMaxNrCpus`, `.setInit`, `.setRobust`, `.setPercpu`, `.setGlobal`, `.setMaxRanges`, `.setPoison`, `.setPolicy` |
| `rseq_mempool_destroy` | `Mempool.destroy`, `LinkedList.destroyWalk`, `MempoolRetry` (repeated) |
| `__rseq_percpu_malloc` and its three wrappers | `Mempool.malloc` (`Fill`), `PoolConc.lockedP`, `RangeSysPool` |
| `librseq_mempool_percpu_free` | `Mempool.free`, `PoolConc.freeP`, `MempoolMulti.wfree`, `MempoolMisfree` |
| `rseq_mempool_set_create`, `_destroy`, `_add_pool`, `__rseq_mempool_set_malloc` and wrappers | `PoolSet.empty`, `.setDestroy`, `.addPool`, `.setMalloc`; threads: `PoolSetConc.Call` |
| `get_pool_name`, the name in `rseq_memfd_create_init` | `PoolName.getPoolName`, `.nameArg` |
| `rseq_mempool_attr_create`, `_attr_destroy` | not modelled (calloc and free of a structure) |

| src/rseq.c, src/smp.c, headers | model |
|---|---|
| `rseq_init`, `rseq_exit`, `get_rseq_min_alloc_size`, `get_rseq_kernel_feature_size` | `Register.rseqInit`, `.rseqExit`, `.minAlloc`, `.featureSize`; the lock-free fast path: `RegInit.Step` |
| `sys_rseq`, `rseq_available`, `rseq_register_current_thread`, `rseq_unregister_current_thread` | `Syscall.call`, `.rseqAvailable`, `.registerCurrent`, `.unregisterCurrent`; threads: `Register.Step`, `RseqArea.Step` |
| `rseq_fallback_current_cpu`, `_node`, accessors of rseq.h (`rseq_current_cpu`, `rseq_cpu_start`, `rseq_current_mm_cid`, `rseq_clear_rseq_cs`, ...) | `Register.fallbackCurrentCpu`, `RseqArea.fallbackCurrentNode`, `.cpuStart`, `.rseqCurrentCpu`, `.currentNodeId`, `.currentMmCid`, `.clearRseqCs` |
| `rseq_prepare_unload` | `RseqUnload` |
| `_get_max_cpuid_from_sysfs`, `get_num_possible_cpus_fallback`, `get_cpu_mask_from_sysfs`, `get_max_cpuid_from_mask`, `update_possible_cpus_array_len_cache`, `get_possible_cpus_array_len` (`rseq_get_max_nr_cpus`) | `Smp.maxCpuidFromSysfs`, `.fallback`, `.getMask`, `.maxCpuidFromMask`, `.updateCache`, `.getArrayLen`; threads: `SmpConc` |
| src/list.h, src/rseq-utils.h | `LinkedList`, `Bits` |
| include/rseq/arch/*/bits.h, templates | `RseqArch` (compared with the text by `tools/check_asm.py`), `AsmTable` |
| include/rseq/rseq.h `rseq_load_*__ptr` | `RseqDispatch` |
| include/rseq/arch/*.h barriers | `Barriers`, `Acquire` |
| include/rseq/pseudocode.h | `RseqPseudo.pseudo` (effect), `RseqTree.Op.tree` (accesses) |
| `rseq_thread_pointer` (arch/*/thread-pointer.h), `sys_getcpu` | parameters: `RseqArea.Layout.tp`, the answer of the system call |
| tests/*.c | `CowTest` (mempool_cow_race), `Syscall` (basic, unregistered, no_syscall, fork, syscall_errors), `MempoolTests`, `RseqSpin`, `RseqListTest` (basic_percpu_ops), `RseqCounter`, `RseqLock`, `RseqStack`, `RseqBuf`, `RseqBufTest`, `RseqBufInit`, `RseqFence`, `RseqInject`, `ParamTest` (param_test), `TapTests` (plans and exit paths), `Bench` (basic_percpu_benchmark) |
| tests/utils/tap.c, tap-driver.sh | `Tap` |
| tests/utils/tap.sh, run_param_test.tap, run_param_test_cxx.tap | `TapSh` |
| tests/param_test.c: `main`, `RSEQ_INJECT_C` | `ParamArgs` |

For each part the executable model (definitions, with file:line citations) is in one file, helper
lemmas in a second, and property theorems in a file ending in `Props.lean`. The *specification*
vocabulary (what "live", "item bytes on CPU i", "disjoint" mean) is defined in the Props files or a
`Spec` file from observable results only (returned pointers, reads through `rseq_percpu_ptr`),
not from model internals.

Conventions:
* C integers that may wrap are `BitVec`/`% 2^(8 * wb)`, or `Nat` with the no-wrap condition written out
  as a hypothesis or checked in the model as undefined behaviour.
* Outcomes are an inductive type: normal return with value and errno, `abort()`, and (where the C
  code relies on an unchecked precondition) undefined behaviour as a separate constructor.
* Anything supplied by the kernel/libc (addresses from `mmap`, failures, callback results, `read`
  chunks, `dlsym`, schedules) is an explicit argument ("oracle"), universally quantified, restricted
  only by a stated kernel contract.

## 2. Property by property

### Memory pool (C01-C21)
Model: memory is `Nat -> UInt8` plus, per page, an optional "source page" - a private page that has
not been copied yet reads through to its source; the first store copies the page. A pool is
(config, list of ranges newest first, free-list head, counters). The free list is threaded through
this memory (CPU 0, init values, or dedicated area as in the code), so the free-list read in
`malloc` and write in `free` are memory accesses that could collide with user data if the layout
were wrong. User stores are operations of the history. `mmap` results are oracle addresses
restricted by: stride-aligned, fresh (disjoint from other mapped ranges), zero filled, not wrapping
the address space (C31 proves the first from the raw kernel contract).

* C01, C02, C05, C06, C14, C18, C19: invariant by induction over histories. Invariant: ranges
  aligned/disjoint; the free list read from memory is a finite duplicate-free chain of used slots;
  live items (computed from the call/return trace) and free-list items partition used slots;
  bitmap = live (robust). Theorems quantify over traces from `create`.
* C03, C04: functional theorems on `zero_item`/`init_item` over the COW memory, lifted to histories.
* C07, C08, C09: decision theorems for `malloc` plus capacity invariant.
* C10-C13: robust mode, from the invariant plus "freed items hold poison" invariant.
* C15: functional theorem on `poison_item` + free-list store.
* C16: callback trace function of `range_create`.
* C17: decision table of `create` against an independent predicate.
* C20: unmapping trace over all failure patterns. The return-value half is FALSE for the code
  (finding F2): negation proved, partial theorem kept.
* C21: child model (canary cleared, item memory inaccessible = reading it is an explicit fault
  outcome). FALSE for robust pools with live items at fork (finding F10): negation + partial.

* C58, C59 (`MempoolCheckProps`): exactness of the destroy-time checks for arbitrary memory (no invariant
  assumed about item memory); the CPU count getter.

### Pool sets, attributes, NUMA (C22-C26)
* C22, C23: set = function from order to optional pool, allocation against an abstract
  "pool can satisfy" predicate, then instantiated with the mempool model.
* C24: FALSE (finding F1). Negation proved with a concrete witness; partial: content is all zero,
  hence right exactly when the init bytes are zero.
* C25: setters as functions on the attr record. Commutation FALSE for `set_init` versus
  `set_populate_policy` (finding F17); the exact commuting pairs are proved.
* C26: batching loop as in the code, induction over pages.

### Concurrency of pools (C27, C28, C78, C79)
* Model (`PoolConc`): every function that touches item memory is a program of single-byte loads and
  stores; threads interleave after each byte. The free list, bitmap and ranges change at the end of the
  locked part. Creation of a range (with the init callback) is one step. Clients store to live items at
  any time, other code changes other memory at any time. Page faults of private pages are one step
  (`split = false`) or two: copy, later switch of the page table entry (`split = true`, what Linux does).
  `PoolConcProg`: run without interference the programs compute exactly the sequential functions of
  `Mempool.lean` (`run_*`, `lockedAlloc_eq`), so the two models cannot drift apart.
* C27 (`PoolConcInv`, `PoolConcStep`, `PoolConcProps`): rely/guarantee. Each thread's remaining program
  satisfies `Ok`: whatever the others do outside the items it owns (or outside the free items while it
  holds the lock), it stores only to its item and ends with its postcondition. Ownership, mutual exclusion and
  `conc_undisturbed_faults` hold for both kinds of page fault and any item length (`PoolConcWeak*`: free list
  nodes are never in shared pages, so a stale page copy cannot damage the pool's structure). Content, absence
  of aborts and lock release have the hypothesis `FaultSafe`: page faults cannot mix two items (atomic copy,
  or no COW_INIT, or items of at least one page).
* C28: without `FaultSafe` FALSE. `cow_race_loses_init`: `malloc_init` returns an item without its content.
  `cow_race_spurious_abort` (`PoolConcRace`): a robust pool used correctly aborts (finding F18).
  Under `FaultSafe` true by C27's theorems.
* C78, C79 (`PoolSetConc*`): threads inside `__rseq_mempool_set_malloc`. One step is one critical section: the search
  under the lock of the set, the allocation under the lock of the pool, add, free, anything outside the set. `Exec` is a
  numbered sequence of states and labels, `Spans` says from where to where a call extends, `FoundFull` that
  the caller's own allocation attempt at step k met a pool without room. `conc_set_solo` ties the steps to the sequential
  function of C22. C79 is FALSE (finding F36): `conc_set_enomem_with_room`. Partial: with neither a free nor a
  new range during the call, all items of all pools in question are in use at its end.

### Bits and mapping (C29-C31)
Direct functional theorems for all 32- and 64-bit values (no enumeration; C57 likewise), and for every
page-aligned kernel address. `alignedMmap_exact` also says that only the block just mapped is ever unmapped and that
`mmap` failure is reported only when the kernel refused the request.

### Ranges at the level of system calls (C66-C68)
* `RangeSys` models `rseq_mempool_range_create`/`_destroy`, `rseq_memfd_create_init`/`_close` as sequences of system calls
  on a process state: pages (backing, MADV flags), descriptors with the memory object they denote, object lengths,
  number of bitmaps. Sizes and addresses are machine words and wrap. Every system call may fail; a failing MAP_FIXED mapping
  may leave a hole. `RangeSysSpec` states the intended content of each page of a range (`wantedPage`) and the kernel's
  contract (`SysOK`). Simplifications: page content is not part of this model (it is in `Mempool`); `close` always
  releases the descriptor.
* C66: `rangeCreateSys_range`, `_null`, `_null_safe`, `_killed`, `_null_iff`; `absEnv_outcome` proves agreement with
  `Mempool.rangeCreate`. C67: `create_destroy`, `fork_child`, `fork_child_zero`.
* C68 (`RangeSysPool*`): processes with any number of pools (`PReach`): the allocator state, the page map and
  the rest of the program side by side. `process_is_world` shows that such a process is one of the worlds of
  `MempoolMulti`; what `EnvOK` assumes there about new mappings is derived from the mmap contract. The
  invariant is `PInv` in `RangeSysPoolStep`.
* C72 (`MempoolGlobal`): global pools used directly, `p` instead of `rseq_percpu_ptr(p, cpu)`. `GlobalPool` is a pool
  that `create` returned for attributes of global type, after any history. `global_items`, `global_malloc`,
  `global_store`, `global_free`.
* C73 (`MempoolRetry`) is FALSE for robust pools (F20): `destroy_retry_aborts` for every history; `destroy_retry_partial`
  proves the other cases. The memory between the two calls is any memory that keeps the content of the ranges left.
* C74 (`MempoolMisfree`) is FALSE for addresses inside a live item (F15): `interior_free_corrupts`;
  `robust_free_detects_partial` says exactly which addresses are reported.
* C75 (`MempoolTests`, `MempoolTestsProps`): the functions of tests/mempool_test.c as programs over the pool model,
  line by line; `mempool_robust_tests` and `mempool_fill_test` start from `create` with the attributes the tests set.
  The links of the list in the items are arbitrary bytes (`LinkStores`), the order of the list is kept beside them.
  `FillSteps` are the rounds of the fill loop; `test_fill_ends` shows that it comes to its end. Test comment that
  disagrees with the code: main says "From min(page size, 64kB)" where the code takes the larger of the two.

### Critical-section helpers (C32-C43, C60-C65, C69, C80-C88)
Model: each helper of each architecture is a program for a small abstract machine (registers, byte
memory, one instruction per step) transcribed instruction by instruction from `arch/*/bits.h`, with
labels for start, post-commit, abort and exits. Kernel contract (man page rseq.2): when a thread is
preempted, migrated or signalled with its descriptor pointer set and ip in
[start, post_commit), ip moves to abort and the pointer is cleared; outside the range the pointer is
cleared. Scheduler: any number of threads and CPUs, at most one thread running per CPU, any
instruction order between CPUs (sequentially consistent interleaving of instructions), any
preemption/migration/signal point.
* C35 (`RseqMachine`, `RseqPseudo`, `RseqArch`, `RseqStraight`, `RseqMemcpy`, `RseqArchProps`):
  sequential execution of each of the 69 programs equals the pseudo-code interpreter for all arguments,
  register assignments, memories and byte orders (loops by induction on the length); registers outside
  the clobber list are preserved on every exit. `RseqArch.lean` carries the source line of every
  instruction. Operand registers are assigned by an arbitrary function `al` (the compiler), restricted
  only by `Setup`; two operands of equal value may share a register, which is what breaks the
  memory-copy helpers of four architectures (F24).
* Machine of many threads (`RseqConc`): state = memory + threads; a thread runs a helper or other code,
  has a stack of contexts interrupted by signals (handlers may call helpers, nesting unbounded),
  `rseq_cs`, the `cpu_id`/`mm_cid` fields, the CPU and concurrency id the kernel gave it. Steps: call,
  one instruction, return, store by other code, preempt, resume on any free CPU (kernel rule applied),
  signal, signal return, register, unregister, `rseq_clear_rseq_cs`. Memory is sequentially consistent.
* Discipline: `Polite` says that a step of one thread does not modify bytes that another *running*
  thread has accessed in its current section. It is not an assumption about the schedule: `RseqOwn`
  proves it for every program that accesses the data of CPU c only through helpers called with
  `cpu = c` (`OReach.step_polite`), because two running threads cannot both be in sections of one CPU
  (`sections_exclusive`, `body_exclusive`).
* `RseqInv`: the invariant (per frame: where in the program, replay of the section since its start on
  current memory, commit count, CPU). `RseqExec`/`RseqZone`/`RseqFoot*`: what each instruction of each
  of the 69 programs may touch, by evaluation of the programs on symbolic arguments.
* C32-C34, C36, C43 (`RseqCall`, `RseqConcProps`): statements about a complete call - the sequence of
  events from its invocation to its return. Examples of calls for each result: `RseqConcEx`.
* C37: FALSE for mm_cid mode with cpu 0 (F3) and cpu_id mode with cpu -1 (F26); otherwise proved.
* C38 (`RseqCounter`): sum of counters = initial sum + returned-0 amounts + amounts of calls between
  final store and return. Example execution of two threads: `RseqCounterEx`.
* C39 (`RseqStack`, `RseqStackProps`): clients of the list idioms: pushes of held nodes whose `next` was
  stored beforehand, pops into local variables, nodes handed between threads, signal handlers doing the
  same. Ghost: one abstract stack per CPU, changed only at final stores of calls. Proved: memory holds
  exactly the abstract stacks (`IsList`); each node is in exactly one place; a pop's final store always
  finds its stack non-empty; what a returning call has done; the test's final walk finds each node once.
  Assumed: heads, `next` fields, locals do not overlap, and nobody stores to the bytes a null node
  pointer's `next` would occupy. Example: `RseqStackEx`.
* C40 (`RseqLock`): client programs of the lock idiom on the machine: lock calls by any threads and
  signal handlers, unlock (one store) by the owner wherever it runs now; other code leaves the lock
  words alone. Ghost: who owns each lock. Proved: a lock call is never about to return 0 while
  somebody owns that lock or another call for it is about to return 0; the assertion of
  `rseq_percpu_unlock` holds. Example with a migrating owner and a refused lock call: `RseqLockEx`.
  Memory is sequentially consistent (so the acquire/release barriers of the idiom are not used).
* C41 (`RseqDispatch`, `RseqDispatchProps`): the `switch` statements of rseq.h transcribed one by one;
  `helper_outcome` says which calls execute a program (and which one, on which field) and that all
  others return -1 with memory unchanged.
* C42 (`RseqOrder`, `RseqOrderProps`): one CPU with a store buffer executes the call; entries become
  visible in program order (x86, s390) or in any order that no barrier and no overlap forbids (the other
  six); other CPUs change memory outside the footprint at any time; the kernel may abort. Proved for the
  release programs of every architecture and for the relaxed programs of x86 and s390: when the change of
  `*v` is visible, so are the attempt stores, and a later load sees them. The relaxed programs of the other
  architectures are proved to have a reordering (`relaxed_may_reorder`). Simplified: loads execute in
  program order, a store becomes visible to all other CPUs at once, barriers are full store-store barriers.
* C60 (`RseqRegs`, `RseqRegsProps`): registers outside the clobber list and C locals are restored on every
  exit, for every interruption point. A program does not inspect register numbers, so it is the renaming of
  one program over symbolic registers; a data-flow check of that program (registers possibly modified, slots
  holding entry values) is evaluated by the kernel for each of the 73 entries of `program`, and its soundness is a
  theorem (`flow_keeps`, `FrameKeeps.exec`, `FrameKeeps.abort`). No hypothesis on interference or on operands
  having distinct registers.
* C61 (`RseqTaint`, `RseqCtl`, `RseqRace*`): executions with arbitrary interference (`AnyReach`, no
  `Polite`). A data-flow check of the symbolic programs (which registers may depend on loaded values; loaded
  values never reach the address of an attempt store; their only influence on control is the branch to the
  comparison-failed exit) is evaluated by the kernel for each program and proved sound (`Sim.exec`,
  `BSim.exec`): the racy run agrees, up to loaded values, with a run on some constant memory on which the call
  succeeds, so its store addresses are those of that run. Results: confinement of all stores, the return
  values, one final store (of `newv`) for 0, none for -1, no modification for 1; C33, C34 (first half),
  C36, C37, C43 again without hypothesis. `ex_race`: a racy call, in which C32 fails - so the hypothesis of
  C32 is needed. Not confined: the final store of `rseq_load_add_load_load_add_store`, whose address is
  loaded from memory.
* C62 (`RseqFence`, `RseqFenceProps`, `RseqFenceEx`): the membarrier protocol of `test_membarrier`. A barrier
  on CPU c is a piece of execution with an instant at which no thread is in user space on c; threads come back
  through `Step.resume`, which applies the kernel's abort rule (this is the contract of
  `MEMBARRIER_CMD_PRIVATE_EXPEDITED_RSEQ`, an assumption; memory is sequentially consistent, so the
  fence part of membarrier is not used). `barrier_restarts`: a section found after the barrier stored
  its descriptor after the barrier began. `barrier_pointer_switch`: so its final store goes through the new
  pointer. `inactive_list_stable`: the test's assertion, for any placement of the two lists. `ex_barrier`: an
  execution with all hypotheses; `ex_no_barrier`: the same without barrier, in which the inactive list changes.
* C63 (`RseqBuf`, `RseqBufInv`, `RseqBufProps`, `RseqBufEx`): the per-CPU buffers of `param_test.c`. A client reads
  an offset at some point (`BReach.read`), and later, whatever happened meanwhile, calls one of the four helpers with
  arguments computed from it (`BufCall`; the pointer that a pop read from the array is arbitrary). The abstract
  state is a list of byte strings per CPU; `bufStep` pushes or pops at the final store only. The invariant
  `BInv` says that memory holds the abstract stacks and that a section past its comparison writes only above the
  offset. Item size, capacity and placement are parameters; a pointer buffer is the case item size = word size.
  `ex_buf`: an execution with all four functions and a migration; `ex_buf_room`: the hypotheses of
  `buffer_push_finds_room`.

* C64 (`AsmTable`, `AsmTableSpec`, `AsmTableProps`, `AsmTableEx`): the abort rule of `RseqConc` speaks of a program's
  start, commit and abort positions; here they are recovered from bytes. `AsmTable`: the macros as lists of assembler
  items (section pushes, alignment, local labels, `.long`/`.quad`/`.inst`), an assembler that places them and
  resolves `Nf`/`Nb`, and the pointer-sized store to `rseq_cs`. `AsmTableSpec`: the kernel's reads and checks
  (`rseq_get_rseq_cs`, `in_rseq_cs` of kernel/rseq.c), written separately. `kernel_sees_critical_section` joins the
  two for each program of `RseqArch`, with instruction sizes and section addresses as parameters. Labels that only
  jumps use are left out. `AsmTableEx`: complete images for x86-64, arm, aarch64 (both big endian) and ppc32.

* C65 (`Barriers`, `BarriersSpec`, `BarriersProps`, `BarriersEx`): the barrier macros of each header as instruction
  lists, `Bar.orders` (which read/write pairs an instruction keeps, from the manuals), and axiomatic memory models.
  x86, s390, aarch64, riscv: no cycle in preserved program order, fences and communication between threads.
  ppc, arm, mips, loongarch: the rules of "Herding Cats" (no thin air, observation, propagation) with cumulative
  and full fences. Preserved program order contains only what the macros use (control dependency to a store,
  `ldar`/`stlr`, store-buffer order), so the model allows more runs than the hardware. `BarriersSpec` states
  happens-before, effects, lock sections and the counter in terms of C operations only. Theorems hold for runs of
  any size. `interleaved_allowed`: the model forbids no interleaving. `release_acquire_not_full`,
  `acquire_needs_branch`, `wmb_not_release`, `plain_not_ordered`: runs that remain possible, so the model is not
  sequentially consistent and each macro is needed. `Sections.serial` is an assumption: two helpers that take the lock of one CPU run on
  that CPU, one after the other (C32, C36 and C40 prove it on the sequentially consistent machine).
* C85 (`BarriersDrf`, `BarriersDrfProps`): why the machine of C32 may use one memory. In the models of C65 a run
  without races on a set of locations is explained, on those locations, by replaying its accesses on a plain memory, in
  any order compatible with happens-before (`Runs`). Per-CPU data (`OneCpu`) and lock-protected data are instances.
  Proof: happens-before has no cycle and never goes against `Eff` (C65), so the last store before a load in such an
  order is the one the load read. `races_not_sequential`: store buffering, on all nine architectures, has no such order.
  Not covered: the migration of a thread itself (the scheduler's barriers), and helpers with a racing second writer,
  which are C61.

* C69 (`RseqTwice`, `RseqTwiceProps`, `RseqTwiceEx`): the helpers as built with `-DRSEQ_COMPARE_TWICE`
  (tests/Makefile.am: `param_test_compare_twice` and its variants). The model inserts the block of repeated
  comparisons into each program of `RseqArch` and shifts all later labels and jump targets; leaving through
  `error1`, `error2`, `error3` (`rseq_bug()`, which aborts the process) is a return value of its own. Proof: the block,
  run on the memory the helper has seen, falls through with all registers unchanged (`RseqTwiceBlock`, one lemma per
  program), and a simulation relation maps every execution of all threads to one of the normal build, in which the
  block takes no step (`RseqTwiceSim`, `RseqTwiceStep`, `RseqTwiceCall`). Hence C32, C33, C34, C35, C36 carry over and
  `rseq_bug()` is never called. `step_eq`: with the normal programs the machine is that of `RseqConc`.
  `compare_twice_remote_store`: the assumption about other threads is needed (F29). `compare_twice_tear_down`
  (`RseqTwiceTear`): when a repeated comparison of a memory-copy helper does fail, the tear-down code of x86-64, s390, mips
  and loongarch leaves through the label of that comparison with the caller's registers and without a store.
* C80, C81 (`RseqInject`, `RseqInjectProps`, `RseqInjectEx`): the helpers as built by `tests/param_test.c`, which
  defines `RSEQ_INJECT_ASM(n)` as a loop over a counter. The model inserts the loops into the programs of
  `RseqArch.lean` (C80) and `RseqTwice.lean` (C81) and moves labels. Proved: for arbitrary counters the loops end and
  the helper implements its pseudo-code (`inject_implements`); every interrupted, concurrent execution corresponds to
  one without loops (`inject_simulated`), so C32-C36, C60 and C69 carry over. The proof needs that the scratch
  register and the condition codes are dead at each injection point, which is computed for the programs of every architecture, helper and ordering
  (`RseqInjectStatic`, by kernel reduction) and that the abort and exit code has no use of them. Needed: the entry of
  `RSEQ_INJECT_CLOBBER` (`Site.InjOK`); `inject_needs_clobber` is a run that stores to a wrong address without it.
  Simplified: counters are words (the C code has 32-bit counters), and the address of a counter is part of the load.
* C86 (`RseqCause`, `RseqCauseProps`): a call returns -1 exactly if it has a cause (`KernelAbort`: scheduling or signal
  of its thread inside the section; `CpuMismatch`: the comparison failed while the thread was not on the CPU). Proved
  by an invariant of a call under arbitrary steps of all threads (C61): it is in its abort handler exactly if one of
  its steps was a cause. The step from the CPU check uses the replay of the checked part (C32) and that every helper
  implements its pseudo-code (C35), which never has the value -1. Then the kernel's numbers of a thread change only
  when it is scheduled, so k failures need k events of the thread itself (`failed_attempts_bounded`), and a thread that
  runs alone completes (`alone_call_completes`, no condition on what the other threads are in the middle of).
* C89 (`RseqSpin*`, `RseqListTest*`): `SpinReach` runs the loop of `test_percpu_spinlock_thread` on the machine of C32:
  each thread (and each of its signal handlers) is idle, has the lock, has loaded the counter, or has stored it; load,
  store and unlock are separate steps of whichever CPU the thread is on then. `SpinInv` relates these phases to the
  owners of C40, so that the value a thread has loaded stays the value of the counter; ghost: how often each thread
  has executed `count++`. `spin_final` is the check of the test, with the addition of sign-extended `intptr_t` to
  `uint64_t`. For the list test, `popAll` is the final loop of `main` as a function on memory (with a bound on the
  iterations, which the theorem shows to suffice); C39 gives the lists it starts from. `listFill` is the loop that
  builds the lists (`list_setup`); `list_test_passes` goes from empty lists to `sum == expected_sum`.
* C90 (`ParamTest`): the condition of the progress report with division by zero as undefined.
* C91 (`PoolConcBound*`): `Len` bounds the accesses of a byte program over all values it may load, a store counting three
  (copy of the page, installation, store); `Left` is the number of steps left in a thread state, with a credit for a
  page that is already copied or private. Every step of the machine either is not one of the thread and keeps `Left`
  (pages of items in use never become shared again) or uses one up. Deadlock freedom by running the lock holder, then
  the thread.
* C92 (`CowTest*`): the two threads of tests/mempool_cow_race_test.c statement by statement, on the machine of C27 with
  thread 0 as init thread and thread 1 as writer; a store, free or destroy against the rules is a separate outcome
  (`misuse`). `PInv` gives for each statement of the init thread the live items, the phase, where the writer can be
  and which page fault can be pending. `cow_test_legal` (no misuse) needs nothing about page faults; that the
  comparisons succeed is C28's `conc_content` and `conc_undisturbed` under `FaultSafe`. The two witnesses run the test in
  its own configuration (256-byte items, stride 65536, 4 KiB pages), with the 256-byte fill evaluated symbolically
  (`filledTo`). `cow_test_can_end_partial` composes C91 with the statements.
* C93 (`RseqBufTest*`): the buffer tests of param_test.c as programs over C63. `TestReach` adds to the executions of C63
  the item each of the `N` threads has; invariant: what is popped and not pushed is what the threads have. The loops of
  the main thread (`ptrLoop`, `copyLoop`, `forCpus`) run on memory with plain loads and stores; their sum is a sum of
  64-bit words over a permutation of the items of the start. `RseqBufInit*` models the loops that fill the buffers
  (`ptrFill`, `copyFill`) and proves that they establish `BufInit` and what they add up: with `B` items per CPU,
  `expected_sum` is the number of CPUs times `B (B + 1) / 2` (pointers) or `(B + 1)² - 1` (copies), and the final
  assertion holds. Left out: `free`, `sched_yield`; what `malloc` returns is a parameter.
  The fields `buflen` and `array` are constants here; C106 has them in memory.
* C94 (`Acquire*`): the macros as functions on byte memory, with the switch over `sizeof` and the union of aarch64.h.
  Specification (`Holds`): digits to base 256 in the byte order, two's complement. Out-of-range values are covered: the
  object gets the value of its type that is congruent.
* C95 (`RseqFenceCount`, `RseqFenceCountProps`, `RseqFenceCountEx`): `Mgr` is the manager's loop over runs of the machine
  of C62. The comparisons hold by an invariant: the active list has been active since the last barrier, or from the
  beginning, and then nobody can have loaded the other list's address (`since_stable`, from C62 and `deref_loaded`).
  The count is an invariant like that of C38, but the memory location of the final addition is chosen by a pointer that
  others change: `worker_adds` shows that it is one of the two counters of the call's CPU, whatever the race.
* C96, C97 (`Tap*`): `Tap` has the static variables of tap.c (32-bit counters) and the lines printed, and the parser of
  tap-driver.sh on these lines. Specification: `checks`, the checks a list of calls makes, and `Check.good`, what each
  should give. `calls_body` gives the counters and the output in terms of `checks`, `foldl_lines` what the driver makes
  of the output. `TapTests` has the calls of each test program as a function of the results. C97 is false as stated.
  `verdict_success_iff` (`TapDriver`) says for any output of any program when the driver accepts it.
* C99 (`TapSh*`): `after` is the state of the script after a list of runs; `runOne_after` adds one. `allRuns` is the
  product of configurations, tests and programs.
* C105 (`RseqPoolList*`): the same for `test_percpu_list`, where the heads are in the item and the nodes come from
  `malloc`. `Heap` says what a correct `malloc` and separate stack frames give. `Writes` is plain code that stores to the
  item and outside the pool; `Writes.reach` says that every such change of what the threads see is one the page-level
  memory of the pool can follow (`ext_reach` builds the memory). `ListPool` is the list machine of C89 on this memory;
  `list_data`: nobody changes the data of a node. `list_test_pool` is stated with the functions of C89 for the loops
  of the main thread (`listSetup`, `popAll`) on the bytes the program sees, followed by `testEnd` on the pool.
* C106 (`RseqBufField*`, `RseqPoolBuf*`): the same for `test_percpu_buffer` and `test_percpu_memcpy_buffer`. The item holds
  `offset`, `buflen` and `array`; the main thread's loops store and load all three in memory (`ptrSetupM`, `copySetupM`,
  `ptrLoopM`, `copyLoopM`), and the calls of the threads take `buflen` and `array` from the memory at the time of the
  call (`memLayout`). `BufPool.sound`: nobody ever changes these two fields, so every execution is one of C93. `BufHeap` and
  `BufNodes` say what a correct `malloc` gives. A call reads `buflen` and `array` in the same step in which it starts; as
  they never change, reading them earlier would give the same.
* C107 (`RseqDrain`, `RseqBufDrain`, `RseqIncDrain`, `RseqSpinDrain`, `RseqLockTaken`, `RseqListDrain`, `RseqPoolDrain*`, `RseqPoolSpinDrain*`, `RseqPoolListDrain*`): the machines of C104 and C106 have no dead ends. `Live`
  (kept by every step) says that every frame a thread is in, or has below a signal handler, can go on to its end by
  executing alone; `settle` lets the threads do so one after another, until all are off the CPUs and outside helpers
  (`Idle`). Then each thread is put on one CPU, registers and makes the calls it still owes: it puts back its item
  (`push_back`; the buffer has room because an item in the hands of a thread is one the buffers lack), or makes the
  iterations it lacks (`inc_calls`). `BufFrom` and `IncFrom` are the executions that go on from a given state; they have the
  same steps as `BufPool` and `IncPool`, so that C104 and C106 apply to the final state and give the sum and the end of the
  test. This also shows that the conclusions of C104 and C106 about final states are not vacuous from any point on. Not
  claimed: that every fair schedule ends. For the spinlock test (`spinlock_test_can_end`) the
  levels of a thread (the thread and its nested handlers) are ended from the top: finish the helper, then store the count
  and unlock if the level has the lock, then return (`finish_levels`). `LReach.taken` is the converse of the safety
  invariant of C89: a lock word that is 1 has an owner, or a helper that has committed and is about to return; so once no
  thread is in a helper and none has a lock, all lock words are 0 (`spin_free`) and the calls that are still to be made
  succeed at the first attempt. `Tame` says that only `N` threads take locks and that no handler has returned with a lock.
  For the list test (`list_test_can_end`) handlers hand the nodes they hold to their thread before they return
  (`hand_over`); then the nodes are put back one after another (`put_back`: read the head, store it into `next`, push).
  `Kept` says that no handler has returned while it held a node.
* C108 (`PoolLocks*`): every function is reduced to the paths of its lock, unlock, callback and library-call actions; threads
  interleave them; callbacks make any number of their calls. The specification (`Takes`: the locks a call takes, `Edge`: the
  callback of a pool that may grow makes a call that takes a lock) does not mention the paths. Invariant (`Inv`): a lock is held
  by exactly the thread that still has its unlock to do, and what that thread does before is below the lock in the transitive
  closure of `Edge`. So a group of waiting threads gives a cycle (finite: only finitely many threads are in calls), and
  conversely every cycle is turned into an execution in which thread `i` holds pool `i`'s lock inside its callback and waits
  for the next one. False as stated (F19), with the exact condition proved.
* C109 (`PoolLocksForkProps`): `child` keeps the thread that forks and a copy of the locks. A lock nobody is going to release
  (`Lost`) stays so under all steps. If no other thread held a lock, the child satisfies the invariant of C108 and its calls
  can return. False as stated (F51), with the exact condition proved.
* C110 (`PoolLocksSigProps`): signals put a library call in front of what the interrupted thread has to do, at any moment and
  nested. `Again`: a thread holds a lock and takes it again before it releases it; kept by all steps and signals. Conversely
  calls that take no lock keep the invariant of C108. False as stated (F52), with the exact condition proved.
* C111 (`PoolConcFork`, `PoolConcForkProps`): `Forked` gives the child the memory, pool and lock of a reachable state of the
  machine of C27 and no calls in progress; its items are those of clients plus those other threads were working on. With the
  lock free the invariant of C27 holds for it, so the theorems of C27 (their proofs now start from the invariant, `CInv.*`)
  apply to everything the child does. With the lock held no thread of the child gets past it (`Stuck`). Destroy: the bitmaps
  and the count of free items are those of the invariant; COW_INIT pools lose their canary and their items at the fork.
* C112 (`MempoolForkTests`, `MempoolForkTestsProps`), partial: `runRobustTest` and `runForkDestroy` are the two functions of
  mempool_test.c on the results of the system (`Sys`), with the wait status as a number and the macros that decode it. What the
  child does is the pool model (C75, C21). False for the fork check (F47) and where `waitpid` fails (F53).
* C113 (`TapMempool`, `TapMempoolProps`, `MempoolTestRuns`), partial: `fillRuns` is the list of calls the loops of `main` make,
  for a page size; the output of the whole program goes through the TAP library (C81 ff.) to the driver. The arguments go to
  the model of `rseq_mempool_create`. An early end is a prefix of the output with any exit status. False above 64 kB pages (F55).
* C114 (`MempoolTestWhole`, `MempoolTestWholeProps`): `fillHead` and `fillTail` are the 16 checks of the fill test with the setters of
  the attributes; the loop between them is `FillSteps` of C75. `FillTest`, `RobustCheck` and `ForkCheck` say which results a
  test can have where the system grants its requests; the theorem says that these are all true and goes through C113.
* C115 (`PoolName`, `PoolNameProps`): strings as byte lists without zero, the uninitialised buffer of line 705 as any 249 bytes,
  `snprintf` as what it leaves in the buffer, and the name check of `memfd_create` (250 bytes looked at, EINVAL beyond), with
  reading past the object as an outcome of its own. Later ranges and changes of the caller's string come in any order.
  Proved by induction over them. The other failures of range creation are not repeated here (C66).
* C116 (`MacroArgs`, `MacroArgsProps`), partial: an expression is its operands and operators from left to right, `eval` an
  operator-precedence evaluation; the macro puts `cpu *` in front of the tokens of the argument. Operands are `uintptr_t` values
  (narrower types would add their conversions); `-`, `/`, `%`, comparisons and bitwise operators are left out. False for sums
  and conditionals (F31). Proved by induction over the operators.
* C104 (`RseqInc`, `RseqPoolTest*`): `testSetup` is the code of the two tests before the threads are created (attributes,
  create, zmalloc), `testEnd` the code after they are joined (assertion on the sum, free, destroy). `SpinPool` and
  `IncPool` are the threads: the machines of C89 and of the increment loop (`IncReach`, which counts finished iterations
  as natural numbers, so that the sum of sign-extended 32-bit counters can be stated too) on the memory of the pool,
  where each store is one to the item and any pool operation that leaves the item alone can happen in between.
  Proved by showing that the words of the item are apart (`spin_apart`), zero at the start (`testSetup_spec`) and
  untouched by the pool (`pool_keeps_word`). `spin_pool_total`, `inc_pool_total`: the restriction that stores are stores to
  the item excludes no step. Not modelled: `pthread_create` and `pthread_join`, the options (C100), `printf_verbose` (F39
  for its division).
* C103 (`MempoolCmp*`), partial: `cmpItemS` is `rseq_cmp_item` with `ub` where `v - cmp_value` does not fit an
  `intptr_t`; `zeroItemS`, `poisonItemS`, `checkPoisonItemS`, `mallocS`, `freeS`, `destroyS` are the callers on
  top of it, in the order of the code (init copy first, then CPU 0, 1, ...; a check stops at the first
  difference). `strict_or_same`: in any state each call is `ub` or equals the wrapping model, so all other
  claims carry over. `free_overflow_iff` says exactly when `free` of a live item overflows: the first word that
  differs from the poison, in a copy as it looks once the init copy is poisoned (`seenWord`: bytes of pages
  still shared with the init copy read as poison), is too far away. Holds (`obedient_no_overflow_partial`):
  allocations and destroy of obedient programs never overflow. False (`free_overflow_reachable`): `free` with
  any poison but 0, see F8.
* C102 (`PoolConcLin*`): `acts` reads calls, effects and returns off the changes of a thread's state, `Hist` collects them
  along the steps of `PoolConc`. `Atomic` is the allocator to compare with: taken items, free list, no memory. The step
  lemma of the weak invariant (`WInv.stepLin`) says in addition what each step does to the two lists; the effect is at the
  release of the lock. Since the weak invariant survives two-phase page faults, the result needs no assumption about
  them: the race of C28 (F18) loses content, never the free list.
* C100, C101 (`ParamArgs*`): the loop of `main` with its index into `argv`; `eat` reads the words from the left and
  `loop_eq` says that the loop does that. `configs` is the table of intended options. C101 is false as stated.
* C98 (`Bench*`): each thread has eleven places; the invariant `Inv` relates the counter to the numbers of threads that
  have arrived and finished, and says when a flag can and must be set. `measure` bounds the steps.
* C87, C88 (`RseqTree`, `RseqSym*`, `RseqTraceCall`, `RseqTraceProps`, `RseqTraceEx`): `Op.tree` writes each
  function of pseudocode.h as a tree of loads and stores whose continuation depends on the values loaded; `tree_alone`
  says that on a memory nobody else changes it is `pseudo`. `race_trace` says that the accesses of a call, in the order
  of its events and with the values they had, are a run of the tree. Method: symbolic execution. Registers hold
  symbolic terms; each program is walked together with the symbolic tree, and every memory access must be the next one
  of the tree with equal terms (`step_sound`); the copy loop is cut at its head with a symbolic byte index, once per
  direction. The walk is a computable check, evaluated by the kernel for every program of all architectures, helpers
  and orderings (`all_tree`). Operands may share registers; a register that may share with one written is forgotten
  (`sepOK`). Nothing is assumed about other threads. The walk rejected three programs, which is F38; the tree with the
  second load is used for them.
* C82 (`RseqBound*`): a call executes at most (length of the helper) + 6 * (bytes to copy) instructions of its own,
  under preemption, migration, signals and arbitrary stores of other threads; it is aborted at most once and is never
  stuck. Method: a checker over programs (`bcheck`) that every jump goes forward except the one that closes the copy
  loop, that this loop advances or decreases a counter by one per round, that the counter is private and is tested
  against zero before the loop, and that the abort handler has no way back. It accepts all programs of both builds
  (`all_bcheck8`, `all_bcheckTwice8`, kernel reduction); the general theorem (`bcheck_fueled`) gives a measure that
  every instruction decreases and the kernel does not increase. No reachability or restriction on other threads is
  used. Needed: registers of their own for the modified inputs (F24); `shared_register_never_returns` is a helper
  that loops for ever without that.
* C83 (`RseqUnload`, `RseqUnloadProps`): the machine with a set of sites whose descriptor and code are unmapped, and the
  history of steps. Unloading needs what rseq.h:217-226 asks for, stated over the history (`Prepared`). Proved by
  induction: a non-null `rseq_cs` was stored by a section executed since the last clearing. `unload_needs_prepare` shows
  the call is needed although no thread is inside a section.
* C84 (`RseqPool`, `RseqPoolProps`): the machine of C32 and the pool of C01 share one memory (`view`: the pool's memory
  through its page mapping). Helper steps are followed by byte stores of the pool model to the items in use
  (`joint_total`: always possible, so no execution is lost); pool steps are all allocations, frees and stores of other
  items, and the rest of the program. `joint_sound` gives both sides their own reachability, hence all their theorems;
  `pool_counter_exact` composes C02, C03, C05, C06, C19 and C38.

### Registration (C44-C49, C70, C71, C76, C77)
State machine with kernel model (registered address/length/signature per thread; EBUSY, EINVAL,
EPERM, ENOSYS answers).  C44: step-level model of double-checked locking with any number of threads.
C46, C47, C48 are FALSE in corner cases (F4, F5, F6); negations and partial theorems.
* C70 (`RseqArea`, `RseqAreaProps`): the address space with one area per live thread at `thread pointer + offset`;
  thread creation and exit, scheduling, registration by librseq or the C library, stores of the program. The invariant
  says byte by byte what each live area holds; the accessors are loads of 4 bytes in either byte order. Hypothesis
  `Fits`: feature size at most 32 if librseq owns the registration, an area of at least 32 bytes if the C library does.
  This discharges what C32-C43 and C49 take as given about `cpu_id` and `mm_cid`. The thread pointer itself
  (`thread-pointer.h`) and the fixed TLS distance of the initial-exec model are trusted.
* C71 is FALSE for feature sizes above 32 (F30): `kernel_stays_in_area_partial`, `kernel_overwrites_neighbour`.
  C47's bound by the 1024 bytes of `RSEQ_THREAD_AREA_ALLOC_SIZE` is the documented one; the variable has 32.
* C76 (`Syscall`, `SyscallProps`): the system call with four arguments and its errors, transcribed from
  kernel/rseq.c (order of the checks included; kernels before 6.3 as a variant), and a seccomp filter that may answer in its
  place. `register_contract`, `unregister_contract`, `available_contract`: the Boolean kernel functions of
  `Register` (`kRegister`, `kUnregister`, `kProbe`) are exactly what this contract gives for the arguments librseq passes, so
  C44-C49 and C70 rest on it. `available_filtered`, `register_filtered`: behaviour under a filter (F32).
* C77: tests/basic_test.c, unregistered_test.c, no_syscall_test.c, fork_test.c, syscall_errors_test.c as programs over that
  model, with the bytes of the area. Exact lists of check results for every system that meets `Sane`. Two of them contain
  a failure: F4 and F33. `tests_skipped`, `no_syscall_test_available`: what they do on the other kind of kernel.

### CPU count (C50-C53)
`strtoul`/`strtol` decimal scanning on byte lists, CPU-list printer in the kernel's format, and
round-trip theorem for every ascending list; `read` loop over arbitrary chunk sequences.

### Lists (C54, C55)
Pointer-level heap (`next`, `prev` maps); refinement to `List` for disjoint well-formed lists.

## 3. Trusted base
* Lean 4.33.0 kernel; axioms `propext`, `Classical.choice`, `Quot.sound` only (checked with
  `#print axioms`; listed per theorem group in section 6).
* That the Lean definitions transcribe the cited C lines (simplifications are stated next to each
  definition). For the assembly helpers this is checked mechanically: `tools/check_asm.py` expands the headers as
  text (own preprocessor `tools/cpp.py`, no compiler), cuts out each `asm goto` statement, resolves its numeric
  labels, translates every instruction, and compares the result with the elaborated programs of `RseqArch.lean`
  and `RseqTwice.lean`, `RseqInject.lean` (printed by `lake env lean`). It covers 840 helpers: nine architectures, both word sizes of riscv,
  ppc, s390 and mips, `cpu_id` and `mm_cid`, relaxed and release, with and without `RSEQ_COMPARE_TWICE`,
  with and without the delay loops of `tests/param_test.c`. Compared are the
  code, the jump targets, the start, post-commit and abort addresses of the descriptor (and of its copy next to the
  code), the signature, the exit points, the clobber lists and the return values. Current result: no mismatch.
  The script was itself tested with 34 random edits of the Lean file and of a copy of the headers; it reported all.
  What remains trusted there is the table from mnemonics to `Instr` constructors.
* The kernel contracts named above (mmap, munmap, MAP_PRIVATE copy-on-write, madvise fork
  behaviour, rseq abort rule, mutex mutual exclusion, getauxval).
* The memory model of each architecture and what each barrier instruction orders (C65), taken from the manuals
  and from the cited comments in the headers; mixed-size accesses and device memory are outside it.
* That memory in the machine of C32 is one map. For per-CPU data and data handed over with the library's barriers this
  is proved from the previous item (C85); for the rest (other code's racy stores, context switches) it is assumed.
* Not modelled: text of error messages and `perror`; compiler transformations;
  instruction encodings, relocations and linker scripts
  (C64 takes section addresses and instruction sizes as given); C++ wrappers; the instructions of
  `thread-pointer.h` (C70 takes the thread pointer as given); the shell scripts that only set
  `GLIBC_TUNABLES` and start one program; the names in test output.

## 4. Disagreements between code and documentation / suspected defects
F1. `rseq_mempool_set_percpu_malloc_init` (rseq-mempool.c:1290-1294) passes `zeroed = true`, so the
    item is zeroed and `init_ptr` ignored; mempool.h:373-383 documents initialisation from it.
F2. `rseq_mempool_destroy` (890-924) returns 0 even when `munmap` fails (`ret` is never assigned);
    mempool.h documents -1. `rseq_mempool_set_destroy` then drops its entry and leaks the pool.
F3. rseq.h:107-113 says sections on non-registered threads always fail. In mm_cid mode with cpu 0
    they can commit: the `mm_cid` field of an unregistered thread is 0.
F4. rseq.c:164/184/198: the first registration passes length 32 (rseq_size is 0), then rseq_size
    becomes the kernel feature size; if that is > 32, unregistration of the first thread uses
    another length than its registration (kernel: EINVAL), and rseq_size exceeds the registered
    length for that thread.
F5. Registering twice in one thread (owning mode) aborts the process (rseq.c:171-174): the kernel
    says EBUSY and rseq_size > 0.
F6. `rseq_available(RSEQ_AVAILABLE_QUERY_LIBC)` is true before initialisation and after
    `rseq_exit` although libc does not own the registration (rseq_size = -1U, ownership 0); after
    `rseq_exit`, `rseq_register_current_thread` returns 0 without registering.
F7. `rseq_mempool_create` with item_len > 2^63 (2^31 on 32 bits): `1UL << 64` (`1UL << 32`) is undefined (939-944).
F8. `rseq_cmp_item` (252-267): `v - cmp_value` is a signed subtraction that can overflow (undefined
    in ISO C; the model of C01-C15 uses wrapping subtraction). No build flag defines it (`-fwrapv`
    is not used). Proved: `free_overflow_reachable` (any poison but 0; e.g. the word
    0x8000000000000000 in a pool with the default poison 0x5555555555555555), `use_after_free_overflow`
    (the poison check of a robust pool on corrupted memory); `obedient_no_overflow_partial` says where it
    cannot happen.
F9. smp.c: a mask of 4096 bytes or more is silently truncated (the result may be too small);
    `cpu2147483647` makes the fallback overflow a signed addition (118); a separator at index 0 is
    not recognised (214).
F10. In a forked child, destroying a robust COW_INIT pool with live items aborts
    (`destroy_alloc_bitmap` runs regardless of accessibility), whereas mempool.h:525-533 says
    destroy may be called in the child to free resources. Items that other threads were allocating
    or freeing at the fork count as live and cannot be freed by the child (`fork_child_destroy`, C111).
F11. Leaked items in a robust pool are reported as "Corrupted free-list" by check_free_list; the
    leak report of destroy_alloc_bitmap is unreachable when mappings are accessible.
F12. list.h: `list_replace`/`list_replace_init` on an element that is alone in no list (self-linked)
    leave inconsistent links.
F13. `stride * max_nr_cpus` can wrap in `size_t` (758); no check. On 32 bits with 65536 CPUs and the default stride
    the MAP_FIXED mappings then overwrite pages of the program outside the range, also when the call fails.
    Proved: `rangeCreateSys_overflow`.
F14. The first range is created before the pool name is set (1010 vs 1016): its memfd is always
    called `<anonymous>:rseq-mempool`. Proved: `first_range_anonymous`.
F15. A robust pool does not detect freeing an interior pointer of a live item; a misaligned node is
    then pushed on the free list: the item that follows is overwritten with poison, and the next allocation overlaps it.
    Proved: `interior_free_corrupts`.
F16. mempool.h: header comment says global is the default type, attribute documentation and code say
    per-CPU; destroy/create comments mention ENOENT and mmap/munmap callbacks that do not exist.
F17. `rseq_mempool_attr_set_init` silently overrides an earlier populate policy.
F18. `rseq_percpu_init_item`/`zero_item`/`poison_item` check-then-skip is not safe against a page
    copy in flight: kernel copies the old page, init writes the shared page, the check reads the new
    value through the old page-table entry and skips, then the kernel installs the stale copy.
    The item then lacks its init value on that CPU (or lacks poison: false alarm in robust pools).
    Proved: `cow_race_loses_init`, `cow_race_spurious_abort`.
F19. The init callback runs with the pool lock held (1094 inside 1065-1110); calling back into the
    same pool deadlocks. Not documented. Proved: `callback_same_pool`, `callback_set`, `callback_cross`; exactly which
    programs can deadlock: `deadlock_iff`.
F20. After a partial `munmap` failure, `rseq_mempool_destroy` of a robust pool keeps the pool
    (mempool.h invites a retry), but the retry walks the free list through ranges that are already
    unmapped: check_free_list (528-561) aborts (it tests the address of a node before reading it, so it does not
    fault). Proved: `destroy_retry_aborts`.
F21. `__max` (smp.c:24) evaluates the chosen argument twice: `get_num_possible_cpus_fallback` can
    return a value that lost the comparison if the system's answer changes in between; the directory
    is also scanned twice. Directories `cpu+9`/`cpu 9` count as CPUs; one number above INT_MAX hides
    all the others.
F22. `possible_cpus_array_len_cache` is read and written by several threads without synchronisation
    (a data race in C11 terms); with detections that disagree the returned count can change. Proved: `count_unstable_threads`
    (the change; the race itself is not a notion of the model).
F23. `rseq_mempool_range_init_numa` returns 0 when `move_pages` reports pages that were not migrated
    (445-455 only prints); the caller cannot tell.
F24. The memory-copy helpers of x86-64 (x86/bits.h:423-476), s390, mips and loongarch increment the
    registers of `[src]`, `[dst]` and decrement `[len]`, which are declared as *input-only* operands
    of the asm statement. They save and restore them, but a compiler may place two inputs with equal
    value (for example `newv == (intptr_t) dst`) in one register; then the final store writes
    `dst + len`. Proved: `shared_register_breaks_memcpy`; with registers of their own the helpers are
    correct. aarch64, arm, i386, riscv and ppc copy the operands into clobbered registers first.
F25. (Read only, not modelled.) The aarch64 release final store uses `stlr` with constraint "Qo"
    (aarch64.h), which allows an offset address that `stlr` cannot encode.
F26. Same place as F3: `cpu_id` of an unregistered thread is -1 (`RSEQ_CPU_ID_UNINITIALIZED`), the value
    `rseq_current_cpu_raw()` returns. A helper called with that value as cpu passes the check and
    commits, unprotected. Proved: `unregistered_can_commit`.
F27. (Read only.) x86.h:49-50: `rseq_smp_mb` uses `%rsp` also in the i386 build, where it does not assemble. It is
    unused inside the library.
F28. (Read only.) abi.h:179-221: the `__NR_rseq` fallback has no case for mips, loongarch and big-endian arm and
    aarch64, which the headers otherwise support; there the build depends on the kernel headers.
F29. Builds with `RSEQ_COMPARE_TWICE`: a store by another CPU to the compared variable between the two
    comparisons makes the helper print a message and abort the process, whereas the normal build commits and
    returns 0 (the helpers are atomic with respect to their own CPU only). The repeated comparison is a sound check
    only for variables that no other CPU writes while the section runs. Proved: `compare_twice_remote_store`.
F30. rseq.c:66-76: the comment says that the alignment of `__rseq_abi` "guarantees that the rseq_abi structure
    allocated size is at least RSEQ_THREAD_AREA_ALLOC_SIZE bytes". `aligned(1024)` on a variable changes its address
    only; `sizeof(struct rseq_abi)` stays 32 and the linker may place other thread-local variables right after
    it. On a kernel whose feature size exceeds 32, every thread after the first registers with that size (rseq.c:164
    with `get_rseq_min_alloc_size`), and the kernel stores beyond the variable. Proved:
    `kernel_overwrites_neighbour`. A union with a 1024-byte array, or an aligned type, would provide the space.
F31. mempool.h:259-260, 285-288: macro arguments without parentheses. `rseq_percpu_ptr(p, cpu, a + b)`
    computes `p + cpu * a + b`; `rseq_mempool_free(p + 1)` converts `p` before adding. `rseq_mempool_percpu_free` has the
    same form for its stride, which is harmless there (a function argument). With a conditional as stride all CPUs but the
    first share one pointer. Proved: `stride_sum_cpu0`, `stride_cond_same`, `free_arg_iff` (C116).
F32. rseq.c:95-105: `rseq_available(RSEQ_AVAILABLE_QUERY_KERNEL)` aborts the process for every error but ENOSYS and
    EINVAL. A seccomp policy that refuses the system call with EPERM, a common choice, thus kills a program that
    only asks whether rseq is supported; one that answers EINVAL makes it say yes. Likewise a policy installed after the
    first registration: the next thread that registers aborts the process (171-174). Proved: `available_filtered`,
    `register_filtered`.
F33. tests/run_no_syscall_test.tap does not disable the C library's registration, as the other scripts do with
    `glibc.pthread.rseq=0`. A C library that registers threads (glibc 2.35 and later) does so before the constructor of the
    preloaded library installs the filter; `rseq_size` is then not 0 and `cpu_id` not -1, and two of the four
    checks fail. Proved: `no_syscall_test_libc`.
F34. (Read only.) compiler.h:39-54 says that a memory-clobbering empty asm is emitted after each `asm goto` and at
    each of its label targets, "for all compilers", against miscompilation. `mips/bits.h` and `riscv/bits.h` contain no
    `rseq_after_asm_goto()` at all; the other six headers have it at every exit.
F35. (Read only.) `mips/bits.h` (`rseq_load_cbeq_store_add_load_store__ptr`, `rseq_load_add_store__ptr`) adds with
    `daddiu $4, %[voffp]` / `addiu`, and `loongarch/bits.h` with `addi.d $r4, $r4, %[voffp]`; the operand constraint is
    "Ir", which also admits a register. These mnemonics exist with an immediate only. A call whose `count` or `voffp` is
    not a compile-time constant of the allowed width (12 bits on loongarch, 16 on mips) does not assemble. The model takes
    the operand as a register holding the value, so the claims are about calls that assemble.
    `riscv/bits.h:70` declares `voffp` as `off_t`; every other architecture and pseudocode.h have `long`.
F36. `__rseq_mempool_set_malloc` (1247-1270) visits the pools one after the other and never looks back. Thread 1 finds the
    small pool full; thread 2 frees an item of the small pool and takes the last item of the large one; thread 1 finds the
    large pool full and returns ENOMEM, although at every moment an item of sufficient length was free. mempool.h calls the
    function MT-safe and documents ENOMEM as "not enough space left". Proved: `conc_set_enomem_with_room`.
F37. (Read only, depends on the compiler.) The ppc helpers compare with `cmpw cr7, ...` (ppc.h:153-172), and their clobber
    lists name "cc". Where a compiler takes "cc" to mean cr0 only (GCC's rs6000 port), cr7 is changed without notice to it.
    The injection loop of tests/param_test.c:204 also sets XER.CA (`subic.`) without declaring it. The model has one flag
    that is not preserved across a helper.

F38. On aarch64 (aarch64/bits.h:93,99), riscv (riscv/bits.h:83,89) and ppc (ppc/bits.h:103,112) the pop helper
    `rseq_load_cbeq_store_add_load_store` compares `*v` with `expectnot` and then loads `*v` again for the value it
    hands out. pseudocode.h:62-77 and the other six architectures load once. If another thread changes `*v` between
    the two loads (the caller then races, which the documentation does not exclude for this helper more than for the
    others), the pop can return 0 and hand out `expectnot`, usually NULL, and load the next pointer from address
    `voffp`. Witnesses: `pop_race_excluded` (aarch64), `pop_race_excluded_riscv`, `pop_race_excluded_ppc`; the same
    schedule on x86_64 is harmless (`ex_pop_race_x86`). Without such a race the second load is only redundant (C35).
F39. tests/param_test.c:484 and :598 compute `i % (reps / 10)` for `i != 0`. The option `-r` accepts every number not
    below 0 (:1817). For 2 to 9 repetitions this divides by zero (undefined; SIGFPE on x86). Proved:
    `reports_undefined`. (Read only: `-t 0` is accepted as well, and declares arrays of length zero, `pthread_t
    test_threads[num_threads]`, undefined by C11 6.7.6.2. `-D M` leaves every M-th thread unregistered; unless the C
    library registers it, its `rseq_this_cpu_lock` never succeeds (C37) and the test does not end.)
F40. tests/mempool_cow_race_test.c compares the item with the init value (104-110) before it waits for the writer (112).
    A page that the kernel switches after the comparison and before the end of the writer's store goes unnoticed: the
    iteration passes although the item has lost its value (F18). Proved: `cow_test_blind`; that the test can also
    notice F18: `cow_test_fails`. Comparing after line 112 would see both. (The writer's delay, at most 9999
    barriers, makes either schedule rare.)
F41. aarch64.h:45-106: the `switch (sizeof(*(p)))` of `rseq_smp_load_acquire` and `rseq_smp_store_release` has no default.
    For an object of another size than 1, 2, 4 or 8 (`__int128`, `long double`, a structure) the load returns the
    uninitialised union and the store is dropped, without a diagnostic; the other architectures access the object.
    Proved: `other_size_lost`, `load_acquire_int128`. (The library itself uses pointers and `intptr_t`.)
F42. tap.c:371-398 (and tap.sh:420-430): `exit_status` returns a count, of which `exit` passes on the low eight bits:
    256 failing checks, or 256 checks too many, end with status 0. run_param_test.tap plans 1184. The TAP driver
    notices by the lines. Proved: `exit_code_wraps`.
F43. fork_test.c:83-95 returns `WEXITSTATUS(wstatus)` without `WIFEXITED`: for a child killed by a signal that is 0. If
    the child dies before its two checks the driver notices that two are missing; if it dies later (an exit handler, a
    destructor of the library) nothing does. Proved: `fork_test_killed_exit_code`, `fork_test_success`.
F44. tap.c:359-369: `todo_end` frees `todo_msg` and keeps the pointer; a second call without `todo_start` frees it
    again. Proved: `todo_end_twice`. (No test uses todo sections.)
F45. tap.c:177: `setbuf(stdout, 0)` runs in the first plan function. basic_percpu_benchmark.c:251-253 prints before it,
    which ISO C does not allow (7.21.5.5). Not modelled.
F46. tap.sh:86-94: the script is sourced with the arguments of run_param_test.tap, and its `getopts` loop looks at
    `$_opt`, which is never set; utils.sh:12 has `set -u`. Any option given to run_param_test.tap, meant for param_test
    (`EXTRA_ARGS`, line 17), therefore ends the script. tap.sh:104 lacks the `_die` of the other plan functions.
    Proved: `script_arguments`.
F47. mempool_test.c:343-370: the fork test ignores the results of `waitpid` and of `rseq_mempool_destroy` in the child
    (`fork_child`, line 337; the child then exits with success): it notices a signal only. Proved: `fork_check_blind`.
F48. basic_percpu_benchmark.c:227-228 does not check `pthread_create`. If one fails, the other threads wait for `test_go`
    forever and `main` joins a thread that does not exist. Proved: `create_failure_hangs`. Line 259 does not check the
    allocation either (line 177 would write through it).
F49. run_param_test.tap and the usage text of param_test.c offer delays at points 1 to 9, and yields, signals and sleeps at
    7, 8 and 9. The headers have `RSEQ_INJECT_ASM` 1 to 6 and `RSEQ_INJECT_C(9)` only; 7 and 8 do not exist. 20 of the
    37 configurations are repetitions of the default one (640 of 1184 runs; 280 of 518 for C++). Proved:
    `configs_same_as_default`. Point 9 is the C code in front of the assembly, so that no configuration yields, sleeps or
    raises a signal inside a critical section.
F50. param_test.c:1799-1810 accepts `-t 0` and `-t x` (0 threads): the tests then declare an array of zero elements, which
    is undefined (C11 6.7.6.2p5). `-t 4294967297` means one thread. Proved: `zero_threads`, `threads_wrap`.
F51. There are no `pthread_atfork` handlers: a pool, set or init lock that another thread holds when the process forks is
    locked for ever in the child. mempool.h:524-549 excludes only COW_INIT pools from use in children. Proved:
    `child_loses_lock`, `child_returns_iff`; `child_destroys` for the documented use.
F52. Functions of the library that take a lock must not be called by signal handlers (they can interrupt the thread that
    holds the lock). mempool.h says MT-safe and nothing about handlers. Proved: `handler_blocks`, `handlers_iff`.
F53. mempool_test.c:302 and 363 do not check `waitpid`. It fails (ECHILD, after the child has ended) if the program that started
    the test ignores SIGCHLD, which is inherited. The checks then depend on the uninitialised variable `status`. Proved:
    `wait_failure_junk`.
F54. mempool_test.c:390 says "From min(page size, 64kB) to 4MB"; the code (387-389) starts at the maximum. With pages of 64 kB
    or more (arm64, powerpc, mips configurations) the loops of 379-385 have no iteration, and no fill test has more than one
    range, so growth of a pool is not tested there. Proved: `one_range_only`.
F55. mempool_test.c:258 asks for a stride of `RSEQ_MEMPOOL_STRIDE` (64 kB). With larger pages (256 kB on some PowerPC and
    Hexagon configurations) `rseq_mempool_create` refuses it with EINVAL, as it does the default stride: all robust checks fail
    and the fork check ends the program. Proved: `big_pages_refuse`, `big_pages_fail`. The fill tests follow the page size.
    By reading only: if the pool of a fill test cannot be created (line 71; the last strides map 2 GB for 1024 CPUs, which
    32-bit address spaces may not have), the test goes on and passes NULL to `rseq_mempool_percpu_zmalloc`, which dereferences it.
F56. aligned_mmap_anonymous (rseq-mempool.c:644-647) does not check that header, range and alignment fit a `size_t`. A stride the
    library accepts (2^63 bytes and one CPU; 1 GB and three CPUs on 32 bits) fails the assertion of 647 and ends the process,
    where the documentation of `rseq_mempool_create` has NULL with ENOMEM. If already header and range do not fit (32 bits,
    stride and pages of 4 kB, 2^20 - 1 CPUs), one page is mapped and returned as header and range. Proved: `alignedMmap_assert`,
    `alignedMmap_short` and its example; `rangeCreateSys_asserts` for every such configuration.

## 5. Status
See MANIFEST.json (machine readable).

## 6. Axioms
Output of `#print axioms` for every theorem named in MANIFEST.json (577 theorems), grouped. Nothing but the three
standard axioms of Lean occurs.

**Classical.choice, Quot.sound, propext** (474):
* `Verif.Acquire`: load_acquire_value, release_then_acquire, other_size_lost
* `Verif.Area`: registered_fields, unregistered_fields, cpu_start_possible, current_cpu_exact, unregistered_never_matches, registered_matches_iff, register_assertion, after_register, node_id_exact, mm_cid_exact, fallback_node_exact, clear_rseq_cs_exact, clear_rseq_cs_step, kernel_stays_in_area_partial, kernel_overwrites_neighbour
* `Verif.Asm`: kernel_sees_critical_section, kernel_sees_none, field_stays_small, wrong_signature_rejected, debug_arrays, ppc64_address, ppc32_address, aarch64_address
* `Verif.Barrier`: handover_visible, handover_value, lock_orders_sections, lock_counter_exact, interleaved_allowed, release_acquire_not_full, acquire_needs_branch, wmb_not_release, plain_not_ordered, race_free_sequential, race_free_any_order, percpu_sequential, locked_sequential, races_not_sequential
* `Verif.Bench`: all_present, own_cpu, steps_bounded, not_stuck, create_failure_hangs
* `Verif.Bits`: flsU64_isNumBits, flsU32_isNumBits, countOrder_isLeast, countOrder_neg_iff, countOrder32_isLeast, countOrder32_neg_iff, countOrderUlong_isLeast, countOrderUlong_neg_iff, isPow2_iff, offsetAlign_least, rseqAlign_least
* `Verif.CowTest`: cow_test_legal, cow_test_passes_partial, cow_test_shown_partial, cow_test_can_end_partial, cow_test_fails, cow_test_blind
* `Verif.Joint`: spinlock_test_passes, inc_test_passes, spin_pool_total, inc_pool_total, list_test_pool, list_pool_total, list_data, buffer_test_pool, memcpy_buffer_test_pool, buf_pool_total, buffer_test_can_end, memcpy_buffer_test_can_end, inc_test_can_end, spinlock_test_can_end, list_test_can_end, joint_sound, joint_confined, joint_total, pool_counter_exact
* `Verif.Joint.BufPool`: sound
* `Verif.LinkedList`: init_spec, add_spec, addTail_spec, add_after_spec, addTail_before_spec, del_spec, delInit_spec, move_spec, move_same_spec, replace_spec, replace_head_spec, splice_spec, isEmpty_spec, replaceInit_spec, replaceInit_self_broken, safe_iteration, safe_iteration_prev, safe_iteration_free_all, forEachSafe_from, destroy_list_coherent, forEach_spec, forEachPrev_spec
* `Verif.LinkedList.IsList`: untouched
* `Verif.Locks`: calls_return_partial, someone_steps_partial, deadlock_iff, calls_return_iff, ordered_no_deadlock, fixed_pools_no_deadlock, leaf_calls_no_deadlock, callback_cross, child_returns_partial, child_returns_iff, handlers_return_partial, handlers_iff, handler_calls
* `Verif.Mempool`: live_disjoint, live_inside, zmalloc_zero, malloc_init_content, malloc_keeps_live, free_keeps_live, store_isolated, malloc_fails_iff, malloc_reuses_freed, capacity_bound, capacity_reached, capacity_unlimited, einval_iff, double_free_aborts, obedient_no_overflow_partial, free_overflow_reachable, free_overflow_iff, cmp_overflow_iff, strict_or_same, use_after_free_overflow, destroy_leak_aborts, robust_checks_pass, fork_check_partial, other_signal_noticed, fork_check_blind, fill_accepted, big_pages_refuse, big_pages_fail, fill_test_passes, robust_check_passes, fork_check_passes, mempool_test_passes, no_attr_noticed, use_after_free_detected, no_false_alarm, uaf_coherent, freed_is_poisoned, create_validates, create_reach, create_cleanup, create_huge_item_ub, every_pool_has_history, pointer_leads_to_range, free_finds_its_pool, malloc_keeps_other_pools, addressing_injective, destroy_unmaps_once_partial, destroy_hides_failure, destroy_in_child_partial, destroy_in_child_aborts, checkFreeList_exact, destroy_corrupt_list_aborts, destroy_passes, max_nr_cpus_spec, global_items, global_malloc, global_store, global_free, destroy_retry_partial, destroy_retry_aborts, robust_free_detects_partial, interior_free_corrupts, mempool_robust_tests, mempool_fill_test, test_fill_ends, test_double_free, test_memory_leak, test_poison_malloc, test_poison_destroy, test_corrupt_after_free, test_free_list_corruption, test_fork_destroy, test_fill
* `Verif.Mmap`: alignedMmap_exact, alignedMmap_einval_iff, alignedMmap_assert, alignedMmap_short
* `Verif.Numa`: numa_covers_pages, numa_hides_unmigrated
* `Verif.Param`: param_options, script_options, threads_wrap
* `Verif.ParamTest`: reports_defined_partial, reports_undefined
* `Verif.PoolConc`: pool_linearizable, pool_refines_atomic, reach_hist, taken_once, last_in_first_out, items_bounded_by_peak, ranges_bounded_by_peak, refused_only_when_full, fork_child_exists, fork_child_sound, fork_child_content, fork_child_keeps, fork_child_lost, fork_child_destroy, conc_exclusive, conc_exclusive_calls, conc_lock_exclusive, conc_undisturbed_faults, conc_content, conc_undisturbed, conc_private_memory, conc_zmalloc_view, conc_malloc_init_view, conc_no_abort, conc_lock, conc_lock_released, cow_faults_partial, conc_op_bounded, conc_can_step, conc_finishes
* `Verif.PoolName`: name_in_buffer, name_never_refused, later_ranges_named, name_whole_iff, first_range_anonymous, other_policies_unnamed, uncut_refused
* `Verif.PoolSet`: set_malloc_succeeds_iff, set_malloc_smallest, add_pool_spec, set_one_per_size, set_malloc_init_ignores_content, set_malloc_init_partial, set_malloc_init_repaired, set_destroy_spec, conc_set_safe, conc_set_disjoint, conc_set_pools, conc_set_enomem, conc_set_ptr, conc_set_bounded, conc_set_solo, conc_set_enomem_moment_partial, conc_set_enomem_with_room
* `Verif.RangeSys`: rangeCreateSys_range, rangeCreateSys_null, rangeCreateSys_null_safe, rangeCreateSys_killed, rangeCreateSys_null_iff, absEnv_outcome, rangeCreateSys_asserts, create_destroy, fork_child, fork_child_zero, process_is_world, process_layout, process_no_leak, process_cow, process_malloc_total, process_malloc_null_iff, process_create_total, process_destroy_total
* `Verif.Register`: register_zero_truth, register_minus_truth, register_abort_truth, unregister_zero_truth, libc_owns_no_registration, unregister_minus_truth, unregister_succeeds_partial, unregister_succeeds_later_threads, rseq_size_bound_partial, field_availability, field_availability_exact, size_exceeds_registered, available_truth_partial
* `Verif.Register.Init`: init_exactly_once, init_visible, init_mutex
* `Verif.Rseq`: inc_counts, inc_final, settle, inc_drains, buffers_drain, lists_drain, spin_drains, spin_free, returns_zero_atomic, sections_exclusive, call_exists, ex_call_zero, returns_abort_no_commit, returns_abort_variable, race_returns_abort, race_returns_abort_variable, ex_call_abort, ex_call_migrated, returns_one_compare_failed, race_returns_one, ex_call_one, helpers_implement_pseudocode, ex_memcpy_commits, never_on_cpu_aborts, commit_on_cpu, race_never_on_cpu, race_commit_on_cpu, race_sections_exclusive, unregistered_aborts_partial, race_unregistered_partial, unregistered_fields, unregistered_can_commit, counters_exact, counters_final, ex_counters, lists_are_stacks, final_store_effect, returns_effect, final_walk, ex_list, lock_exclusive, unlock_assertion, ex_locks, helper_outcome, dispatch_iff, ex_refused, ex_supported, release_publishes, release_message_passing, ex_release_sees, redirect_only_in_section, race_redirect_only_in_section, registers_restored, call_restores, race_store_confined, race_return_values, race_returns_zero, ex_race, barrier_restarts, barrier_pointer_switch, inactive_list_stable, ex_barrier, ex_no_barrier, buffers_are_stacks, buffer_final_store, buffer_returns, buffer_attempts_above, buffer_conservation, buffer_final_check, buffer_push_finds_room, ex_buf, ex_buf_room, compare_twice_never_fires, compare_twice_simulated, compare_twice_implements, twice_return_values, twice_returns_zero_atomic, twice_returns_abort_no_commit, twice_returns_one_compare_failed, twice_never_on_cpu_aborts, compare_twice_tear_down, inject_implements, inject_simulated, inject_registers_restored, inject_return_values, inject_returns_zero_atomic, inject_returns_abort_no_commit, inject_returns_one_compare_failed, inject_never_on_cpu_aborts, inject_needs_clobber, inject_twice_implements, inject_twice_simulated, inject_twice_never_fires, inject_twice_return_values, inject_twice_returns_zero_atomic, inject_twice_returns_abort_no_commit, inject_twice_returns_one_compare_failed, inject_twice_never_on_cpu_aborts, call_instructions_bounded, twice_call_instructions_bounded, call_aborted_at_most_once, twice_call_aborted_at_most_once, call_never_stuck, twice_call_never_stuck, call_returns_if_left_alone, twice_call_returns_if_left_alone, unload_needs_prepare, abort_iff_cause, failed_attempt_interrupted, uninterrupted_call_completes, failed_attempts_bounded, alone_call_completes, race_trace, race_trace_pseudocode, race_one_observed, race_zero_compared, race_add, race_deref, race_copy, race_pop_reread, race_pop_partial, pop_race_excluded, pop_race_excluded_riscv, pop_race_excluded_ppc, spin_counts, spin_exclusive, spin_loaded, spin_assertion, spin_final, ex_spin, list_data_kept, list_test_final, list_setup, list_test_passes, buffer_test_items, buffer_test_no_abort, buffer_test_final, memcpy_buffer_test_final, buffer_setup, memcpy_buffer_setup, buffer_test_passes, memcpy_buffer_test_passes, membarrier_test_passes, lists_count_exact, membarrier_total
* `Verif.Rseq.LReach`: taken
* `Verif.Rseq.OReach`: step_polite, reach
* `Verif.Smp`: cpu_count_exact, long_mask_undercounts, read_safe, read_exact, fallback_is_max_partial, fallback_if_no_digits
* `Verif.Sys`: register_contract, register_len_old, basic_test_own, basic_test_libc, unregistered_test, no_syscall_test, fork_test, syscall_errors_test, unregistered_reads, test_cpus
* `Verif.Tap`: fill_runs, fill_strides, fill_runs_length, mempool_test_success, mempool_test_early, failed_check_noticed, one_range_only, planned_success_iff, unplanned_success_iff, flat_test_success, no_syscall_test_success, percpu_test_success, basic_test_success, forgotten_plan, verdict_success_iff, exit_code_partial, exit_code_wraps, unplanned_run, param_script_success, param_script_exit_code_wraps

**Quot.sound, propext** (62):
* `Verif.Acquire`: store_release_value, load_acquire_int128
* `Verif.Barrier`: happens_before_respected, wmb_publishes, mb_sequential
* `Verif.Bench`: affinity_table, order_perm
* `Verif.Bits`: hweight_digitSum, pageLen_spec
* `Verif.Joint.BufFrom`: pool
* `Verif.Joint.IncFrom`: pool'
* `Verif.Joint.ListFrom`: pool'
* `Verif.Joint.SpinFrom`: pool'
* `Verif.Locks`: callback_same_pool, callback_set, child_waits, child_loses_lock
* `Verif.MacroArgs`: stride_expr_partial
* `Verif.Mempool`: robust_check_iff, fork_check_iff, wait_failure_junk, callback_once, cyclic_not_intact
* `Verif.Numa`: numa_refused
* `Verif.Param`: zero_threads, inject_every_nth, asm_points_used, configs_same_as_default
* `Verif.PoolConc`: fork_child_stuck, cow_race_loses_init, cow_race_spurious_abort
* `Verif.RangeSys`: wantedPage_inside, rangeCreateSys_overflow
* `Verif.Register`: current_cpu_truth
* `Verif.Register.Init`: unsynchronised_may_be_stale
* `Verif.Rseq`: shared_register_breaks_memcpy, relaxed_may_reorder, helper_length, unload_safe, tree_alone
* `Verif.Smp`: fallback_if_read_error, count_stable, count_stable_threads
* `Verif.Sys`: recorded, unregister_contract, available_exact, available_contract, available_filtered, register_filtered, no_syscall_test_libc, no_syscall_test_available, tests_skipped, fork_test_libc, fork_child, registered_reads
* `Verif.Tap`: fill_runs_once, fork_test_success, fork_test_killed_exit_code, param_script_runs, param_script_skipped, param_script_exit_code, planned_exit_code

**propext** (30):
* `Verif.Area`: get_abi_area
* `Verif.Asm`: i386_address
* `Verif.Locks`: handler_blocks
* `Verif.MacroArgs`: stride_sum_iff, stride_sum_cpu0, stride_cond_same, free_arg_iff
* `Verif.Mempool`: setters_commute_partial, setters_do_not_commute
* `Verif.Param`: param_no_argv
* `Verif.Rseq`: pseudo_one_iff, program_exists_iff, unregistered_lost_update, ex_release, outside_never_redirected, prepare_unload_clears, compare_twice_remote_store, step_eq, inject_delays, shared_register_never_returns, unload_conservative
* `Verif.Smp`: fallback_if_no_file, fallback_double_evaluation, fallback_overflow, fallback_large_hides_all, fallback_accepts_sign_and_space
* `Verif.Tap`: skip_all_success, todo_end_twice, fork_test_exit_code, script_arguments

**none** (11):
* `Verif.Bench`: ex_two
* `Verif.Locks`: deadlock_lasts, child_destroys
* `Verif.Mempool`: setters_exact
* `Verif.Param`: inject_never
* `Verif.Register`: register_after_exit_lies, unregister_fails_large_feature, register_twice_aborts, field_availability_before_init, available_wrong_outside_lifetime
* `Verif.Smp`: count_unstable_threads
