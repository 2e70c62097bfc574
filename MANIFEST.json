{
 "claims": [
  {
   "property": "C01",
   "status": "proved",
   "theorems": [
    "Verif.Mempool.live_disjoint"
   ],
   "note": "Every history of create/malloc/free/store/other-program memory changes; also with stores to freed items (robust or COW_INIT pools)."
  },
  {
   "property": "C02",
   "status": "proved",
   "theorems": [
    "Verif.Mempool.live_inside"
   ],
   "note": "Placement, per-CPU area and natural alignment of every live item."
  },
  {
   "property": "C03",
   "status": "proved",
   "theorems": [
    "Verif.Mempool.zmalloc_zero"
   ],
   "note": "Every byte on every CPU reads zero."
  },
  {
   "property": "C04",
   "status": "proved",
   "theorems": [
    "Verif.Mempool.malloc_init_content"
   ],
   "note": "First init_len bytes on every CPU."
  },
  {
   "property": "C05",
   "status": "proved",
   "theorems": [
    "Verif.Mempool.malloc_keeps_live",
    "Verif.Mempool.free_keeps_live"
   ],
   "note": "Bytes of all live items on all CPUs; other pools: Verif.Mempool.malloc_keeps_other_pools."
  },
  {
   "property": "C06",
   "status": "proved",
   "theorems": [
    "Verif.Mempool.store_isolated"
   ],
   "note": "A store through one CPU pointer is seen through that address only."
  },
  {
   "property": "C07",
   "status": "proved",
   "theorems": [
    "Verif.Mempool.malloc_fails_iff",
    "Verif.Mempool.malloc_reuses_freed"
   ],
   "note": "Exact failure condition."
  },
  {
   "property": "C08",
   "status": "proved",
   "theorems": [
    "Verif.Mempool.capacity_bound",
    "Verif.Mempool.capacity_reached",
    "Verif.Mempool.capacity_unlimited"
   ],
   "note": "Bound and reachability of the bound."
  },
  {
   "property": "C09",
   "status": "proved",
   "theorems": [
    "Verif.Mempool.einval_iff"
   ],
   "note": ""
  },
  {
   "property": "C10",
   "status": "proved",
   "theorems": [
    "Verif.Mempool.double_free_aborts"
   ],
   "note": "Robust pools, item freed earlier and not reallocated."
  },
  {
   "property": "C100",
   "status": "proved",
   "theorems": [
    "Verif.Param.param_options",
    "Verif.Param.param_no_argv",
    "Verif.Param.script_options",
    "Verif.Param.zero_threads",
    "Verif.Param.threads_wrap"
   ],
   "note": "atol and atoll as strtol with 64-bit long; conversion to int keeps the low 32 bits. zero_threads, threads_wrap: what is accepted although it is no number of threads (F50)."
  },
  {
   "property": "C101",
   "status": "partial",
   "theorems": [
    "Verif.Param.inject_every_nth",
    "Verif.Param.inject_never",
    "Verif.Param.asm_points_used",
    "Verif.Param.configs_same_as_default"
   ],
   "note": "The first part is proved (inject_every_nth, inject_never). The second is FALSE (F49): points 7 and 8 no longer exist in the headers, so 21 of the 37 configurations are the same for the injected code (configs_same_as_default: exactly these). That RSEQ_INJECT_C is used with 9 only was read off the headers (55 places)."
  },
  {
   "property": "C102",
   "status": "proved",
   "theorems": [
    "Verif.PoolConc.pool_linearizable",
    "Verif.PoolConc.pool_refines_atomic",
    "Verif.PoolConc.reach_hist",
    "Verif.PoolConc.taken_once",
    "Verif.PoolConc.last_in_first_out",
    "Verif.PoolConc.items_bounded_by_peak",
    "Verif.PoolConc.ranges_bounded_by_peak",
    "Verif.PoolConc.refused_only_when_full"
   ],
   "note": "Machine of C27, page faults of either kind (no FaultSafe). Events are read off the changes of the thread states (acts). A thread that aborts (F18) has no effect for its last call; the allocator it is compared with (Atomic) is separate from the pool model."
  },
  {
   "property": "C103",
   "status": "partial",
   "theorems": [
    "Verif.Mempool.obedient_no_overflow_partial",
    "Verif.Mempool.free_overflow_reachable",
    "Verif.Mempool.free_overflow_iff",
    "Verif.Mempool.cmp_overflow_iff",
    "Verif.Mempool.strict_or_same",
    "Verif.Mempool.use_after_free_overflow"
   ],
   "note": "FALSE for free (F8): in every pool with a poison other than 0 (the default of COW_INIT pools is 0x5555...), after any history, one word stored into a live item makes its free overflow (free_overflow_reachable; free_overflow_iff says exactly when). The part that holds: allocations and destroy never overflow, free does not with poison 0, without poison, or when no word involved is negative (obedient_no_overflow_partial). In any state a call either runs into the overflow or does what the wrapping model of C01-C15 says (strict_or_same); so those results hold as they stand where the compiler wraps, and up to this undefined outcome otherwise. use_after_free_overflow: the report of a use after free (C12) can itself be undefined."
  },
  {
   "property": "C104",
   "status": "proved",
   "theorems": [
    "Verif.Joint.spinlock_test_passes",
    "Verif.Joint.inc_test_passes",
    "Verif.Joint.spin_pool_total",
    "Verif.Joint.inc_pool_total",
    "Verif.Rseq.inc_counts",
    "Verif.Rseq.inc_final"
   ],
   "note": "Composes C17 (create), C04 (zmalloc), C89 and C38 (threads), C84 (one memory), C05/C10 (free, destroy). The threads name CPUs below the number the pool was created for (C29 says when the detected number is large enough); the product of threads and iterations fits an intptr_t. That the test finishes (C36) and thread creation are not part of the claim."
  },
  {
   "property": "C105",
   "status": "proved",
   "theorems": [
    "Verif.Joint.list_test_pool",
    "Verif.Joint.list_pool_total",
    "Verif.Joint.list_data"
   ],
   "note": "Composes C17 (create), C04 (zmalloc), C89 (list threads), C84 (one memory), C05/C10 (free, destroy). Nodes and local variables are outside the ranges of the pool, as a correct malloc gives. That the test finishes (C36) and thread creation are not part of the claim."
  },
  {
   "property": "C106",
   "status": "proved",
   "theorems": [
    "Verif.Joint.buffer_test_pool",
    "Verif.Joint.memcpy_buffer_test_pool",
    "Verif.Joint.buf_pool_total",
    "Verif.Joint.BufPool.sound"
   ],
   "note": "Composes C17 (create), C04 (zmalloc), C93 (buffer threads and loops), C84 (one memory), C05/C10 (free, destroy). Arrays, nodes and local variables are outside the ranges of the pool, as a correct malloc gives. free() of nodes and arrays, that the test finishes (C36) and thread creation are not part of the claim."
  },
  {
   "property": "C107",
   "status": "proved",
   "theorems": [
    "Verif.Joint.buffer_test_can_end",
    "Verif.Joint.memcpy_buffer_test_can_end",
    "Verif.Joint.inc_test_can_end",
    "Verif.Joint.spinlock_test_can_end",
    "Verif.Joint.list_test_can_end",
    "Verif.Joint.BufFrom.pool",
    "Verif.Joint.IncFrom.pool'",
    "Verif.Joint.SpinFrom.pool'",
    "Verif.Joint.ListFrom.pool'",
    "Verif.Rseq.settle",
    "Verif.Rseq.inc_drains",
    "Verif.Rseq.buffers_drain",
    "Verif.Rseq.lists_drain",
    "Verif.Rseq.spin_drains",
    "Verif.Rseq.spin_free",
    "Verif.Rseq.LReach.taken"
   ],
   "note": "Existence of a schedule, not fairness: for a scheduler that keeps preempting a thread the test need not end (C36, C86 bound what is needed). BufFrom and IncFrom have the steps of the machines of C104 and C106 only. CanCall: the program has a call site of the helper for every operation of its kind. The increment and spinlock theorems ask that no thread has exceeded its iterations. spinlock_test_can_end: only N threads take locks, and handlers that take one have given it back when they return (Tame); the handlers of the test take none. Threads in handlers that hold locks are covered: each level stores its count and unlocks before it returns. list_test_can_end: no handler has returned while it held a node (Kept; true in the test, whose handlers use no list); a handler that holds nodes hands them to its thread before it returns."
  },
  {
   "property": "C108",
   "status": "partial",
   "theorems": [
    "Verif.Locks.calls_return_partial",
    "Verif.Locks.someone_steps_partial",
    "Verif.Locks.deadlock_iff",
    "Verif.Locks.calls_return_iff",
    "Verif.Locks.deadlock_lasts",
    "Verif.Locks.ordered_no_deadlock",
    "Verif.Locks.fixed_pools_no_deadlock",
    "Verif.Locks.leaf_calls_no_deadlock",
    "Verif.Locks.callback_same_pool",
    "Verif.Locks.callback_cross",
    "Verif.Locks.callback_set"
   ],
   "note": "FALSE (F19): range creation inside malloc runs the init callback with the lock of the pool held, so a callback that uses its own pool, directly or through a set or another pool's callback, blocks (callback_same_pool, callback_set; two threads: callback_cross). The condition is exact: a program can deadlock if and only if the callbacks of pools with max_nr_ranges other than 1 lead from a pool lock back to it (deadlock_iff, calls_return_iff). Everything else holds: no other pair of locks is ever nested (a set releases its lock before it allocates from the pool, creation runs the callback without lock). The model has the lock operations and calls of each function, not memory; any allocation may find the pool full, so the deadlock is shown for programs that fill it."
  },
  {
   "property": "C109",
   "status": "partial",
   "theorems": [
    "Verif.Locks.child_returns_partial",
    "Verif.Locks.child_returns_iff",
    "Verif.Locks.child_waits",
    "Verif.Locks.child_loses_lock",
    "Verif.Locks.child_destroys"
   ],
   "note": "FALSE (F51): the library has no pthread_atfork handlers, so a pool, set or init lock held by another thread at the fork stays locked in the child, and whoever takes it there waits for ever (child_waits); for every program and lock there is such a moment (child_loses_lock). The condition is exact: all calls of the child can return if and only if no other thread held a lock at the fork (child_returns_iff, for programs whose callbacks do not deadlock by themselves, C108). rseq_mempool_destroy takes no lock and returns (child_destroys); what it does to memory is C21 and C67. POSIX promises nothing for functions that are not async-signal-safe in the child of a multi-threaded process; the library does not say more or less."
  },
  {
   "property": "C11",
   "status": "proved",
   "theorems": [
    "Verif.Mempool.destroy_leak_aborts"
   ],
   "note": "Robust pools."
  },
  {
   "property": "C110",
   "status": "partial",
   "theorems": [
    "Verif.Locks.handlers_return_partial",
    "Verif.Locks.handlers_iff",
    "Verif.Locks.handler_calls",
    "Verif.Locks.handler_blocks"
   ],
   "note": "FALSE (F52) for every function that takes a lock: the mutexes are not recursive, and a handler that interrupts its own thread between lock and unlock waits for ever (handler_blocks). The condition is exact: calls can return if and only if handlers make only calls that take no lock of the library (handlers_iff, for programs that do not deadlock without handlers, C108): destroying pools, and creating pools whose callbacks take none (handler_calls). Locks of the C library (calloc, free) are not in the model. Registration blocks only while another registration or the constructor initializes the library; the model lets any registration take the slow path. The documentation calls the functions MT-safe and is silent about signal handlers."
  },
  {
   "property": "C111",
   "status": "proved",
   "theorems": [
    "Verif.PoolConc.fork_child_exists",
    "Verif.PoolConc.fork_child_sound",
    "Verif.PoolConc.fork_child_content",
    "Verif.PoolConc.fork_child_keeps",
    "Verif.PoolConc.fork_child_lost",
    "Verif.PoolConc.fork_child_stuck",
    "Verif.PoolConc.fork_child_destroy"
   ],
   "note": "Machine of C27 (fork between two steps; structure changes become visible at the unlock). The child has the memory, pool and lock of the parent and no call in progress; every item allocated in the parent may be used and freed by it. What is lost: items other threads were working on (fork_child_lost); in a robust pool they also make destroy abort (fork_child_destroy, extends F10). Items of COW_INIT pools are not mapped in the child, so for those only destroy is covered (fork_child_destroy under FaultSafe). The lock held at the fork: fork_child_stuck and C109 (F51); destroy then reads a pool in the middle of a change, which is not covered."
  },
  {
   "property": "C112",
   "status": "partial",
   "theorems": [
    "Verif.Mempool.robust_check_iff",
    "Verif.Mempool.robust_checks_pass",
    "Verif.Mempool.fork_check_iff",
    "Verif.Mempool.fork_check_partial",
    "Verif.Mempool.other_signal_noticed",
    "Verif.Mempool.fork_check_blind",
    "Verif.Mempool.wait_failure_junk"
   ],
   "note": "The robust checks are exact where waitpid works (robust_check_iff, other_signal_noticed) and pass on the code (robust_checks_pass). FALSE for the fork check (F47): it notices signals only, and passes where the child could unmap nothing (fork_check_blind; fork_check_iff says what it tests, fork_check_partial that it passes where munmap works). FALSE for both if waitpid fails (F53, wait_failure_junk). Wait status as encoded by Linux and decoded by the macros of the GNU C library."
  },
  {
   "property": "C113",
   "status": "partial",
   "theorems": [
    "Verif.Tap.fill_runs",
    "Verif.Tap.fill_strides",
    "Verif.Tap.fill_runs_once",
    "Verif.Tap.fill_runs_length",
    "Verif.Tap.mempool_test_success",
    "Verif.Tap.mempool_test_early",
    "Verif.Tap.failed_check_noticed",
    "Verif.Tap.one_range_only",
    "Verif.Mempool.fill_accepted",
    "Verif.Mempool.big_pages_refuse",
    "Verif.Mempool.big_pages_fail"
   ],
   "note": "The results of the checks are given here (C75, C112 say what they are on this code). FALSE for pages above 64 kB in one part: the pool of the robust and fork checks has a stride of 64 kB and is refused, so the test fails for a library that is right (F55, big_pages_fail). With pages of 64 kB or more no fill test uses more than one range (F54, one_range_only). Where a fill test's pool cannot be created for lack of resources the test goes on with NULL (undefined); the failed check is noticed if the program ends in one of these two ways (failed_check_noticed)."
  },
  {
   "property": "C114",
   "status": "proved",
   "theorems": [
    "Verif.Mempool.fill_test_passes",
    "Verif.Mempool.robust_check_passes",
    "Verif.Mempool.fork_check_passes",
    "Verif.Mempool.mempool_test_passes",
    "Verif.Mempool.no_attr_noticed"
   ],
   "note": "Joins C75, C112 and C113: the checks one by one (fillHead, fillTail), all runs of main, the TAP library and the driver. Assumed: creation of the pools and attributes succeeds (in particular pages of at most 64 kB for the robust and fork checks, F55), ranges are granted up to the limit, fork, waitpid and munmap work; the tests have one thread. Each test starts from an arbitrary well formed memory. The example meets all hypotheses for 64 kB pages. Failed allocation of the attributes is noticed (no_attr_noticed)."
  },
  {
   "property": "C115",
   "status": "proved",
   "theorems": [
    "Verif.PoolName.name_in_buffer",
    "Verif.PoolName.name_never_refused",
    "Verif.PoolName.later_ranges_named",
    "Verif.PoolName.name_whole_iff",
    "Verif.PoolName.first_range_anonymous",
    "Verif.PoolName.other_policies_unnamed",
    "Verif.PoolName.uncut_refused"
   ],
   "note": "Names are byte lists without zero bytes (C strings); the check of the system call is that of mm/memfd.c. Other failures of range creation are C66. first_range_anonymous is F14: the name is set after the first range is created. uncut_refused shows that the bound of the buffer matters."
  },
  {
   "property": "C116",
   "status": "partial",
   "theorems": [
    "Verif.MacroArgs.stride_expr_partial",
    "Verif.MacroArgs.stride_sum_iff",
    "Verif.MacroArgs.stride_sum_cpu0",
    "Verif.MacroArgs.stride_cond_same",
    "Verif.MacroArgs.free_arg_iff"
   ],
   "note": "FALSE for sums and conditionals without parentheses (F31): stride_sum_iff says exactly when a sum is right, stride_sum_cpu0 that it is wrong on CPU 0, stride_cond_same that with a conditional all CPUs but the first share one pointer; free_arg_iff is the same defect in rseq_mempool_free. Proved for all products and shifts (stride_expr_partial). Operands are uintptr_t values; other operators are not modelled."
  },
  {
   "property": "C12",
   "status": "proved",
   "theorems": [
    "Verif.Mempool.use_after_free_detected"
   ],
   "note": "Detection at the next allocation of the item or at destroy."
  },
  {
   "property": "C13",
   "status": "proved",
   "theorems": [
    "Verif.Mempool.no_false_alarm"
   ],
   "note": "Correct clients never see an abort."
  },
  {
   "property": "C14",
   "status": "proved",
   "theorems": [
    "Verif.Mempool.uaf_coherent"
   ],
   "note": "Robust or COW_INIT pools."
  },
  {
   "property": "C15",
   "status": "proved",
   "theorems": [
    "Verif.Mempool.freed_is_poisoned"
   ],
   "note": ""
  },
  {
   "property": "C16",
   "status": "proved",
   "theorems": [
    "Verif.Mempool.callback_once"
   ],
   "note": ""
  },
  {
   "property": "C17",
   "status": "proved",
   "theorems": [
    "Verif.Mempool.create_validates",
    "Verif.Mempool.create_reach",
    "Verif.Mempool.create_cleanup",
    "Verif.Mempool.create_huge_item_ub"
   ],
   "note": "item_len up to half the address space (2^63 or 2^31); for every larger one the code has undefined behaviour (F7, proved). Ranges that do not fit the address space with the room for their alignment: F13, F56 (C66)."
  },
  {
   "property": "C18",
   "status": "proved",
   "theorems": [
    "Verif.Mempool.every_pool_has_history",
    "Verif.Mempool.pointer_leads_to_range",
    "Verif.Mempool.free_finds_its_pool",
    "Verif.Mempool.malloc_keeps_other_pools"
   ],
   "note": "Any number of pools in one process."
  },
  {
   "property": "C19",
   "status": "proved",
   "theorems": [
    "Verif.Mempool.addressing_injective"
   ],
   "note": ""
  },
  {
   "property": "C20",
   "status": "partial",
   "theorems": [
    "Verif.Mempool.destroy_unmaps_once_partial",
    "Verif.Mempool.destroy_hides_failure"
   ],
   "note": "Every mapping is unmapped exactly once; the reported-failure half is false for the code (F2, negation proved)."
  },
  {
   "property": "C21",
   "status": "partial",
   "theorems": [
    "Verif.Mempool.destroy_in_child_partial",
    "Verif.Mempool.destroy_in_child_aborts"
   ],
   "note": "False for robust pools with live items (F10, negation proved); proved otherwise."
  },
  {
   "property": "C22",
   "status": "proved",
   "theorems": [
    "Verif.PoolSet.set_malloc_succeeds_iff",
    "Verif.PoolSet.set_malloc_smallest"
   ],
   "note": "Every history of a process with a set; exact success condition and choice of pool."
  },
  {
   "property": "C23",
   "status": "proved",
   "theorems": [
    "Verif.PoolSet.add_pool_spec",
    "Verif.PoolSet.set_one_per_size"
   ],
   "note": ""
  },
  {
   "property": "C24",
   "status": "partial",
   "theorems": [
    "Verif.PoolSet.set_malloc_init_ignores_content",
    "Verif.PoolSet.set_malloc_init_partial",
    "Verif.PoolSet.set_malloc_init_repaired"
   ],
   "note": "False for the code (F1): the item reads zero whatever the init bytes are; right exactly when the init bytes are zero."
  },
  {
   "property": "C25",
   "status": "partial",
   "theorems": [
    "Verif.Mempool.setters_exact",
    "Verif.Mempool.setters_commute_partial",
    "Verif.Mempool.setters_do_not_commute"
   ],
   "note": "set_init overrides the populate policy (F17, negation proved)."
  },
  {
   "property": "C26",
   "status": "proved",
   "theorems": [
    "Verif.Numa.numa_covers_pages",
    "Verif.Numa.numa_refused",
    "Verif.Numa.numa_hides_unmigrated"
   ],
   "note": "Any length and kernel answers. Success is reported even when pages were not migrated (F23, proved)."
  },
  {
   "property": "C27",
   "status": "proved",
   "theorems": [
    "Verif.PoolConc.conc_exclusive",
    "Verif.PoolConc.conc_exclusive_calls",
    "Verif.PoolConc.conc_lock_exclusive",
    "Verif.PoolConc.conc_undisturbed_faults",
    "Verif.PoolConc.conc_content",
    "Verif.PoolConc.conc_undisturbed",
    "Verif.PoolConc.conc_private_memory",
    "Verif.PoolConc.conc_zmalloc_view",
    "Verif.PoolConc.conc_malloc_init_view",
    "Verif.PoolConc.conc_no_abort",
    "Verif.PoolConc.conc_lock",
    "Verif.PoolConc.conc_lock_released"
   ],
   "note": "Byte-granular interleavings of any number of threads. Ownership and mutual exclusion unconditionally. For content, no-abort and lock release hypothesis FaultSafe: page copies are atomic, or the pool is not COW_INIT, or items are at least a page long; the remaining case is C28."
  },
  {
   "property": "C28",
   "status": "partial",
   "theorems": [
    "Verif.PoolConc.cow_faults_partial",
    "Verif.PoolConc.cow_race_loses_init",
    "Verif.PoolConc.cow_race_spurious_abort",
    "Verif.PoolConc.conc_content",
    "Verif.PoolConc.conc_zmalloc_view",
    "Verif.PoolConc.conc_malloc_init_view",
    "Verif.PoolConc.conc_no_abort"
   ],
   "note": "FALSE for pages holding several items when the kernel copies the page before it switches the page table entry (finding F18): concrete schedules in which malloc_init's bytes are missing and in which a robust pool of obedient clients aborts. True with an atomic page copy, and for items of at least a page."
  },
  {
   "property": "C29",
   "status": "proved",
   "theorems": [
    "Verif.Bits.flsU64_isNumBits",
    "Verif.Bits.flsU32_isNumBits",
    "Verif.Bits.countOrder_isLeast",
    "Verif.Bits.countOrder_neg_iff",
    "Verif.Bits.countOrder32_isLeast",
    "Verif.Bits.countOrder32_neg_iff",
    "Verif.Bits.countOrderUlong_isLeast",
    "Verif.Bits.countOrderUlong_neg_iff"
   ],
   "note": "All 64-bit and 32-bit arguments."
  },
  {
   "property": "C30",
   "status": "proved",
   "theorems": [
    "Verif.Bits.isPow2_iff",
    "Verif.Bits.offsetAlign_least",
    "Verif.Bits.rseqAlign_least"
   ],
   "note": "rseq_align under the stated no-overflow condition."
  },
  {
   "property": "C31",
   "status": "proved",
   "theorems": [
    "Verif.Mmap.alignedMmap_exact",
    "Verif.Mmap.alignedMmap_einval_iff",
    "Verif.Mmap.alignedMmap_assert",
    "Verif.Mmap.alignedMmap_short"
   ],
   "note": "Well-formed requests (header+len+alignment does not overflow a word), 32 and 64 bits, any conforming kernel address; munmap failure aborts as in the code. What happens to larger requests (F56): alignedMmap_assert, alignedMmap_short."
  },
  {
   "property": "C32",
   "status": "proved",
   "theorems": [
    "Verif.Rseq.returns_zero_atomic",
    "Verif.Rseq.sections_exclusive",
    "Verif.Rseq.OReach.step_polite",
    "Verif.Rseq.OReach.reach",
    "Verif.Rseq.call_exists",
    "Verif.Rseq.ex_call_zero"
   ],
   "note": "All 69 programs, any threads, CPUs, schedules, migrations, nested signals; sequentially consistent memory. Other threads must not write the data of a running section (Polite); OReach.step_polite proves this for programs that reach per-CPU data only through helpers naming that CPU."
  },
  {
   "property": "C33",
   "status": "proved",
   "theorems": [
    "Verif.Rseq.returns_abort_no_commit",
    "Verif.Rseq.returns_abort_variable",
    "Verif.Rseq.race_returns_abort",
    "Verif.Rseq.race_returns_abort_variable",
    "Verif.Rseq.ex_call_abort",
    "Verif.Rseq.ex_call_migrated"
   ],
   "note": "As C32; race_* without any hypothesis on the other threads. The attempt targets may have been written (witness ex_call_migrated)."
  },
  {
   "property": "C34",
   "status": "proved",
   "theorems": [
    "Verif.Rseq.returns_one_compare_failed",
    "Verif.Rseq.pseudo_one_iff",
    "Verif.Rseq.race_returns_one",
    "Verif.Rseq.ex_call_one"
   ],
   "note": "As C32; race_returns_one (nothing modified) without any hypothesis on the other threads."
  },
  {
   "property": "C35",
   "status": "proved",
   "theorems": [
    "Verif.Rseq.helpers_implement_pseudocode",
    "Verif.Rseq.program_exists_iff",
    "Verif.Rseq.ex_memcpy_commits",
    "Verif.Rseq.shared_register_breaks_memcpy"
   ],
   "note": "69 programs, 9 architectures, both byte orders, any word size of at least 4 bytes. memcpy helpers: non-overlapping areas; on x86-64, s390, mips and loongarch also that src/dst/len have registers of their own, without which it is false (F24, proved)."
  },
  {
   "property": "C36",
   "status": "proved",
   "theorems": [
    "Verif.Rseq.never_on_cpu_aborts",
    "Verif.Rseq.commit_on_cpu",
    "Verif.Rseq.race_never_on_cpu",
    "Verif.Rseq.race_commit_on_cpu",
    "Verif.Rseq.race_sections_exclusive",
    "Verif.Rseq.ex_call_migrated"
   ],
   "note": "Both indexing modes; race_* without any hypothesis on the other threads."
  },
  {
   "property": "C37",
   "status": "partial",
   "theorems": [
    "Verif.Rseq.unregistered_aborts_partial",
    "Verif.Rseq.race_unregistered_partial",
    "Verif.Rseq.unregistered_fields",
    "Verif.Rseq.unregistered_can_commit",
    "Verif.Rseq.unregistered_lost_update"
   ],
   "note": "False for mm_cid mode with cpu 0 (F3) and cpu_id mode with cpu -1 (F26): negation and a lost update proved. Proved for all other arguments."
  },
  {
   "property": "C38",
   "status": "proved",
   "theorems": [
    "Verif.Rseq.counters_exact",
    "Verif.Rseq.counters_final",
    "Verif.Rseq.ex_counters"
   ],
   "note": "Any number of threads and CPUs, nested signal handlers using the counters, all architectures, both modes."
  },
  {
   "property": "C39",
   "status": "proved",
   "theorems": [
    "Verif.Rseq.lists_are_stacks",
    "Verif.Rseq.final_store_effect",
    "Verif.Rseq.returns_effect",
    "Verif.Rseq.final_walk",
    "Verif.Rseq.ex_list"
   ],
   "note": "Any number of threads, CPUs, nodes, signal handlers, all architectures, both modes; sequentially consistent memory."
  },
  {
   "property": "C40",
   "status": "proved",
   "theorems": [
    "Verif.Rseq.lock_exclusive",
    "Verif.Rseq.unlock_assertion",
    "Verif.Rseq.ex_locks"
   ],
   "note": "Any number of threads and CPUs, signal handlers, all architectures, both modes; sequentially consistent memory. Other code must not store to the lock words; unlock only by the owner."
  },
  {
   "property": "C41",
   "status": "proved",
   "theorems": [
    "Verif.Rseq.helper_outcome",
    "Verif.Rseq.dispatch_iff",
    "Verif.Rseq.ex_refused",
    "Verif.Rseq.ex_supported"
   ],
   "note": ""
  },
  {
   "property": "C42",
   "status": "proved",
   "theorems": [
    "Verif.Rseq.release_publishes",
    "Verif.Rseq.release_message_passing",
    "Verif.Rseq.relaxed_may_reorder",
    "Verif.Rseq.ex_release",
    "Verif.Rseq.ex_release_sees"
   ],
   "note": "Store-buffer machine, all architectures; total store order on x86 and s390, any order not forbidden by a barrier or an overlap elsewhere. The relaxed helpers of weakly ordered architectures are proved to reorder."
  },
  {
   "property": "C43",
   "status": "proved",
   "theorems": [
    "Verif.Rseq.redirect_only_in_section",
    "Verif.Rseq.race_redirect_only_in_section",
    "Verif.Rseq.outside_never_redirected",
    "Verif.Rseq.prepare_unload_clears"
   ],
   "note": ""
  },
  {
   "property": "C44",
   "status": "proved",
   "theorems": [
    "Verif.Register.Init.init_exactly_once",
    "Verif.Register.Init.init_visible",
    "Verif.Register.Init.init_mutex",
    "Verif.Register.Init.unsynchronised_may_be_stale"
   ],
   "note": "Release/acquire view machine, any number of threads."
  },
  {
   "property": "C45",
   "status": "proved",
   "theorems": [
    "Verif.Register.register_zero_truth",
    "Verif.Register.register_minus_truth",
    "Verif.Register.register_abort_truth",
    "Verif.Register.unregister_zero_truth",
    "Verif.Register.libc_owns_no_registration",
    "Verif.Register.unregister_minus_truth",
    "Verif.Register.register_after_exit_lies"
   ],
   "note": "Every interleaved history between initialisation and rseq_exit; after rseq_exit it is false (F6, proved)."
  },
  {
   "property": "C46",
   "status": "partial",
   "theorems": [
    "Verif.Register.unregister_succeeds_partial",
    "Verif.Register.unregister_succeeds_later_threads",
    "Verif.Register.unregister_fails_large_feature",
    "Verif.Register.register_twice_aborts"
   ],
   "note": "Proved for kernel feature sizes up to 32 and for threads registering after the first; false otherwise (F4, witness proved)."
  },
  {
   "property": "C47",
   "status": "partial",
   "theorems": [
    "Verif.Register.rseq_size_bound_partial",
    "Verif.Register.field_availability",
    "Verif.Register.field_availability_exact",
    "Verif.Register.field_availability_before_init",
    "Verif.Register.size_exceeds_registered"
   ],
   "note": "Feature-size and area bounds proved; the bound by the registered length is false when the feature size exceeds 32 (F4)."
  },
  {
   "property": "C48",
   "status": "partial",
   "theorems": [
    "Verif.Register.available_truth_partial",
    "Verif.Register.available_wrong_outside_lifetime"
   ],
   "note": "Proved between initialisation and exit; false before and after (F6)."
  },
  {
   "property": "C49",
   "status": "proved",
   "theorems": [
    "Verif.Register.current_cpu_truth"
   ],
   "note": ""
  },
  {
   "property": "C50",
   "status": "proved",
   "theorems": [
    "Verif.Smp.cpu_count_exact",
    "Verif.Smp.long_mask_undercounts"
   ],
   "note": "Every ascending list whose text fits the 4095 usable bytes, every delivery; a longer list is miscounted (F9, proved)."
  },
  {
   "property": "C51",
   "status": "proved",
   "theorems": [
    "Verif.Smp.read_safe",
    "Verif.Smp.read_exact",
    "Verif.Smp.fallback_if_read_error"
   ],
   "note": ""
  },
  {
   "property": "C52",
   "status": "proved",
   "theorems": [
    "Verif.Smp.count_stable",
    "Verif.Smp.count_stable_threads",
    "Verif.Smp.count_unstable_threads"
   ],
   "note": "Sequential calls with any answers; threads when successful detections agree (otherwise false, F22, proved)."
  },
  {
   "property": "C53",
   "status": "partial",
   "theorems": [
    "Verif.Smp.fallback_is_max_partial",
    "Verif.Smp.fallback_if_no_file",
    "Verif.Smp.fallback_if_read_error",
    "Verif.Smp.fallback_if_no_digits",
    "Verif.Smp.fallback_double_evaluation",
    "Verif.Smp.fallback_overflow",
    "Verif.Smp.fallback_large_hides_all",
    "Verif.Smp.fallback_accepts_sign_and_space"
   ],
   "note": "Holds for stable answers, names without sign/space after cpu and numbers below INT_MAX; each condition shown necessary (F9, F21)."
  },
  {
   "property": "C54",
   "status": "proved",
   "theorems": [
    "Verif.LinkedList.init_spec",
    "Verif.LinkedList.add_spec",
    "Verif.LinkedList.addTail_spec",
    "Verif.LinkedList.add_after_spec",
    "Verif.LinkedList.addTail_before_spec",
    "Verif.LinkedList.del_spec",
    "Verif.LinkedList.delInit_spec",
    "Verif.LinkedList.move_spec",
    "Verif.LinkedList.move_same_spec",
    "Verif.LinkedList.replace_spec",
    "Verif.LinkedList.replace_head_spec",
    "Verif.LinkedList.splice_spec",
    "Verif.LinkedList.isEmpty_spec",
    "Verif.LinkedList.replaceInit_spec",
    "Verif.LinkedList.replaceInit_self_broken",
    "Verif.LinkedList.IsList.untouched"
   ],
   "note": "All well-formed lists; replace_init of an empty head is outside the contract and proved broken (F12)."
  },
  {
   "property": "C55",
   "status": "proved",
   "theorems": [
    "Verif.LinkedList.safe_iteration",
    "Verif.LinkedList.safe_iteration_prev",
    "Verif.LinkedList.safe_iteration_free_all",
    "Verif.LinkedList.forEachSafe_from",
    "Verif.LinkedList.destroy_list_coherent",
    "Verif.LinkedList.forEach_spec",
    "Verif.LinkedList.forEachPrev_spec"
   ],
   "note": ""
  },
  {
   "property": "C56",
   "status": "proved",
   "theorems": [
    "Verif.PoolSet.set_destroy_spec"
   ],
   "note": "Relative to the return values of rseq_mempool_destroy (always 0 in the code, F2)."
  },
  {
   "property": "C57",
   "status": "proved",
   "theorems": [
    "Verif.Bits.hweight_digitSum",
    "Verif.Bits.pageLen_spec"
   ],
   "note": "All arguments of either word size; the page length is the answer of sysconf or 4096."
  },
  {
   "property": "C58",
   "status": "proved",
   "theorems": [
    "Verif.Mempool.checkFreeList_exact",
    "Verif.Mempool.destroy_corrupt_list_aborts",
    "Verif.Mempool.cyclic_not_intact",
    "Verif.Mempool.destroy_passes"
   ],
   "note": "Arbitrary memory; the range records themselves (calloc'ed, not item memory) are assumed well-formed."
  },
  {
   "property": "C59",
   "status": "proved",
   "theorems": [
    "Verif.Mempool.max_nr_cpus_spec"
   ],
   "note": "For every pool returned by create."
  },
  {
   "property": "C60",
   "status": "proved",
   "theorems": [
    "Verif.Rseq.registers_restored",
    "Verif.Rseq.call_restores"
   ],
   "note": "Arbitrary executions, no politeness or ownership hypothesis; slots numbered 100 and above are the rseq_scratch save areas."
  },
  {
   "property": "C61",
   "status": "proved",
   "theorems": [
    "Verif.Rseq.race_store_confined",
    "Verif.Rseq.race_return_values",
    "Verif.Rseq.race_returns_zero",
    "Verif.Rseq.race_returns_abort",
    "Verif.Rseq.race_returns_abort_variable",
    "Verif.Rseq.race_returns_one",
    "Verif.Rseq.ex_race"
   ],
   "note": "All 69 programs; arbitrary interference by other threads (no Polite hypothesis), sequentially consistent memory. For rseq_load_add_load_load_add_store the address of the final store is itself loaded from memory and not confined. ex_race is a racy call, and shows that C32 needs its hypothesis."
  },
  {
   "property": "C62",
   "status": "proved",
   "theorems": [
    "Verif.Rseq.barrier_restarts",
    "Verif.Rseq.barrier_pointer_switch",
    "Verif.Rseq.inactive_list_stable",
    "Verif.Rseq.ex_barrier",
    "Verif.Rseq.ex_no_barrier"
   ],
   "note": "The kernel's membarrier contract is an assumption (at some instant during the call no thread executes in user space on that CPU, and an interrupted section is aborted); sequentially consistent memory. The helper exists on x86-64 only. ex_no_barrier proves that the barrier is needed."
  },
  {
   "property": "C63",
   "status": "proved",
   "theorems": [
    "Verif.Rseq.buffers_are_stacks",
    "Verif.Rseq.buffer_final_store",
    "Verif.Rseq.buffer_returns",
    "Verif.Rseq.buffer_attempts_above",
    "Verif.Rseq.buffer_conservation",
    "Verif.Rseq.buffer_final_check",
    "Verif.Rseq.buffer_push_finds_room",
    "Verif.Rseq.ex_buf",
    "Verif.Rseq.ex_buf_room"
   ],
   "note": "Any number of threads, CPUs, signal handlers, all architectures, both modes; sequentially consistent memory. Arrays, offsets and local variables do not overlap; other code stores elsewhere."
  },
  {
   "property": "C64",
   "status": "proved",
   "theorems": [
    "Verif.Asm.kernel_sees_critical_section",
    "Verif.Asm.kernel_sees_none",
    "Verif.Asm.field_stays_small",
    "Verif.Asm.wrong_signature_rejected",
    "Verif.Asm.debug_arrays",
    "Verif.Asm.ppc64_address",
    "Verif.Asm.ppc32_address",
    "Verif.Asm.aarch64_address",
    "Verif.Asm.i386_address"
   ],
   "note": "Instruction encodings are abstract (any positive sizes, any section addresses). Assumed: sections do not overlap and lie below the end of the address space; the unused half of rseq_cs is 0 (abi.h: initialized to zero; kept by every store); kernel checks as in kernel/rseq.c. Label references are resolved by the GNU as rule."
  },
  {
   "property": "C65",
   "status": "proved",
   "theorems": [
    "Verif.Barrier.happens_before_respected",
    "Verif.Barrier.handover_visible",
    "Verif.Barrier.handover_value",
    "Verif.Barrier.wmb_publishes",
    "Verif.Barrier.mb_sequential",
    "Verif.Barrier.lock_orders_sections",
    "Verif.Barrier.lock_counter_exact",
    "Verif.Barrier.interleaved_allowed",
    "Verif.Barrier.release_acquire_not_full",
    "Verif.Barrier.acquire_needs_branch",
    "Verif.Barrier.wmb_not_release",
    "Verif.Barrier.plain_not_ordered"
   ],
   "note": "Axiomatic memory models: one global order on x86, s390, aarch64, riscv; the four rules of Herding Cats with full fences on ppc, arm, mips, loongarch. What each barrier instruction orders is from the manuals (trusted). Assumed for the lock: helpers that take it on one CPU run one after the other (C32, C36, C40); finitely many sections. Single-size accesses. The last four theorems show runs that the macros do not exclude."
  },
  {
   "property": "C66",
   "status": "proved",
   "theorems": [
    "Verif.RangeSys.rangeCreateSys_range",
    "Verif.RangeSys.rangeCreateSys_null",
    "Verif.RangeSys.rangeCreateSys_null_safe",
    "Verif.RangeSys.rangeCreateSys_killed",
    "Verif.RangeSys.rangeCreateSys_null_iff",
    "Verif.RangeSys.wantedPage_inside",
    "Verif.RangeSys.absEnv_outcome",
    "Verif.RangeSys.rangeCreateSys_overflow",
    "Verif.RangeSys.rangeCreateSys_asserts"
   ],
   "note": "System calls answer arbitrarily within the mmap contract (SysOK): unused page-aligned addresses below the end of the address space, a descriptor not in use. A range that fits only without the room for its alignment ends the process (F56, rangeCreateSys_asserts). The block must fit the address space: rangeCreateSys_overflow shows that without it (F13: 32 bits, 65536 CPUs) a failing call has overwritten a page of the program."
  },
  {
   "property": "C67",
   "status": "proved",
   "theorems": [
    "Verif.RangeSys.create_destroy",
    "Verif.RangeSys.fork_child",
    "Verif.RangeSys.fork_child_zero"
   ],
   "note": "munmap succeeds; kernel semantics of MADV_DONTFORK and MADV_WIPEONFORK as documented."
  },
  {
   "property": "C68",
   "status": "proved",
   "theorems": [
    "Verif.RangeSys.process_is_world",
    "Verif.RangeSys.process_layout",
    "Verif.RangeSys.process_no_leak",
    "Verif.RangeSys.process_cow",
    "Verif.RangeSys.process_malloc_total",
    "Verif.RangeSys.process_malloc_null_iff",
    "Verif.RangeSys.process_create_total",
    "Verif.RangeSys.process_destroy_total"
   ],
   "note": "Operations of one process one after the other (C27 for concurrency); munmap not refused; callbacks store inside the area they are given; the rest of the program leaves pool pages alone."
  },
  {
   "property": "C69",
   "status": "proved",
   "theorems": [
    "Verif.Rseq.compare_twice_never_fires",
    "Verif.Rseq.compare_twice_simulated",
    "Verif.Rseq.compare_twice_implements",
    "Verif.Rseq.twice_return_values",
    "Verif.Rseq.twice_returns_zero_atomic",
    "Verif.Rseq.twice_returns_abort_no_commit",
    "Verif.Rseq.twice_returns_one_compare_failed",
    "Verif.Rseq.twice_never_on_cpu_aborts",
    "Verif.Rseq.compare_twice_remote_store",
    "Verif.Rseq.compare_twice_tear_down",
    "Verif.Rseq.step_eq"
   ],
   "note": "Sequentially consistent machine of C32; other running threads keep the bytes a section has accessed (TPolite). compare_twice_remote_store shows that this is needed (F29). ex_tcall_zero, ex_tcall_one, ex_tcall_abort: such calls exist."
  },
  {
   "property": "C70",
   "status": "proved",
   "theorems": [
    "Verif.Area.get_abi_area",
    "Verif.Area.registered_fields",
    "Verif.Area.unregistered_fields",
    "Verif.Area.cpu_start_possible",
    "Verif.Area.current_cpu_exact",
    "Verif.Area.unregistered_never_matches",
    "Verif.Area.registered_matches_iff",
    "Verif.Area.register_assertion",
    "Verif.Area.after_register",
    "Verif.Area.node_id_exact",
    "Verif.Area.mm_cid_exact",
    "Verif.Area.fallback_node_exact",
    "Verif.Area.clear_rseq_cs_exact",
    "Verif.Area.clear_rseq_cs_step"
   ],
   "note": "Fits: feature size at most 32 if librseq owns the registration, C library area of at least 32 bytes otherwise. The kernel stores CPU, node and concurrency ID before every return to user mode and resets them on unregistration (kernel/rseq.c). Areas of live threads do not overlap; the program stores only into rseq_cs and flags of an area."
  },
  {
   "property": "C71",
   "status": "partial",
   "theorems": [
    "Verif.Area.kernel_stays_in_area_partial",
    "Verif.Area.kernel_overwrites_neighbour"
   ],
   "note": "Missing: feature sizes above 32, where the property is false (F30): the variable has 32 bytes although the code registers the kernel's feature size. kernel_overwrites_neighbour is the witness."
  },
  {
   "property": "C72",
   "status": "proved",
   "theorems": [
    "Verif.Mempool.global_items",
    "Verif.Mempool.global_malloc",
    "Verif.Mempool.global_store",
    "Verif.Mempool.global_free"
   ],
   "note": "GlobalPool: a pool that create returned for attributes of global type, after any history without stores to freed memory. The wrappers are casts; the address is used as it is."
  },
  {
   "property": "C73",
   "status": "partial",
   "theorems": [
    "Verif.Mempool.destroy_retry_partial",
    "Verif.Mempool.destroy_retry_aborts"
   ],
   "note": "False for robust pools of which some range was already unmapped (F20): the second call always aborts the process, because the free list still runs through the ranges that are gone (destroy_retry_aborts, for every such history). Proved for non-robust pools and for pools of which nothing was unmapped yet."
  },
  {
   "property": "C74",
   "status": "partial",
   "theorems": [
    "Verif.Mempool.robust_free_detects_partial",
    "Verif.Mempool.interior_free_corrupts"
   ],
   "note": "Reported exactly if the item that contains the address is not live (freed or never allocated). False for an address inside a live item (F15): it is accepted, overwrites the item that follows and is handed out by the next allocation (interior_free_corrupts, for every history of a pool without COW_INIT)."
  },
  {
   "property": "C75",
   "status": "proved",
   "theorems": [
    "Verif.Mempool.mempool_robust_tests",
    "Verif.Mempool.mempool_fill_test",
    "Verif.Mempool.test_fill_ends",
    "Verif.Mempool.test_double_free",
    "Verif.Mempool.test_memory_leak",
    "Verif.Mempool.test_poison_malloc",
    "Verif.Mempool.test_poison_destroy",
    "Verif.Mempool.test_corrupt_after_free",
    "Verif.Mempool.test_free_list_corruption",
    "Verif.Mempool.test_fork_destroy",
    "Verif.Mempool.test_fill"
   ],
   "note": "The tests are programs over the pool model (MempoolTests). The links that list_add stores into the items are arbitrary bytes; the order of the list is kept beside them. test_double_free etc. hold for every robust pool without live items, not only new ones."
  },
  {
   "property": "C76",
   "status": "proved",
   "theorems": [
    "Verif.Sys.recorded",
    "Verif.Sys.register_contract",
    "Verif.Sys.register_len_old",
    "Verif.Sys.unregister_contract",
    "Verif.Sys.available_exact",
    "Verif.Sys.available_contract",
    "Verif.Sys.available_filtered",
    "Verif.Sys.register_filtered"
   ],
   "note": "Sane: __rseq_abi is aligned as declared and lies in user space, the auxiliary vector describes the kernel's structure and satisfies the assertions of rseq.c. The order of the kernel's checks is that of kernel/rseq.c."
  },
  {
   "property": "C77",
   "status": "proved",
   "theorems": [
    "Verif.Sys.basic_test_own",
    "Verif.Sys.basic_test_libc",
    "Verif.Sys.unregistered_test",
    "Verif.Sys.no_syscall_test",
    "Verif.Sys.no_syscall_test_libc",
    "Verif.Sys.no_syscall_test_available",
    "Verif.Sys.tests_skipped",
    "Verif.Sys.fork_test",
    "Verif.Sys.fork_test_libc",
    "Verif.Sys.fork_child",
    "Verif.Sys.syscall_errors_test",
    "Verif.Sys.registered_reads",
    "Verif.Sys.unregistered_reads",
    "Verif.Sys.test_cpus"
   ],
   "note": "Exact check results, including the two failures (F4, F33). The offset of the area is not 0 because the tests declare a thread-local variable for that purpose (hypothesis). The invalid address of syscall_errors_test is above user space on 64-bit machines (hypothesis)."
  },
  {
   "property": "C78",
   "status": "proved",
   "theorems": [
    "Verif.PoolSet.conc_set_safe",
    "Verif.PoolSet.conc_set_disjoint",
    "Verif.PoolSet.conc_set_pools",
    "Verif.PoolSet.conc_set_enomem",
    "Verif.PoolSet.conc_set_ptr",
    "Verif.PoolSet.conc_set_bounded",
    "Verif.PoolSet.conc_set_solo"
   ],
   "note": "One step is one critical section (search under the lock of the set, allocation from one pool under its lock, add, free). The bytewise interleaving inside one pool is C27/C28. Destroying the set is not concurrent with its use."
  },
  {
   "property": "C79",
   "status": "partial",
   "theorems": [
    "Verif.PoolSet.conc_set_enomem_moment_partial",
    "Verif.PoolSet.conc_set_enomem_with_room"
   ],
   "note": "FALSE (F36): concrete execution of two threads in which an allocation fails although some pool has a free item of sufficient length at every moment of the call. Proved for calls during which no item is freed and no range added."
  },
  {
   "property": "C80",
   "status": "proved",
   "theorems": [
    "Verif.Rseq.inject_implements",
    "Verif.Rseq.inject_simulated",
    "Verif.Rseq.inject_registers_restored",
    "Verif.Rseq.inject_return_values",
    "Verif.Rseq.inject_returns_zero_atomic",
    "Verif.Rseq.inject_returns_abort_no_commit",
    "Verif.Rseq.inject_returns_one_compare_failed",
    "Verif.Rseq.inject_never_on_cpu_aborts",
    "Verif.Rseq.inject_needs_clobber",
    "Verif.Rseq.inject_delays"
   ],
   "note": "Sequentially consistent machine of C32 with polite other threads. Counters are private words with arbitrary contents. InjAll: no operand in the scratch register, which RSEQ_INJECT_CLOBBER makes the compiler ensure; inject_needs_clobber shows that this is needed. ex_icall: such calls exist, with loops that iterate."
  },
  {
   "property": "C81",
   "status": "proved",
   "theorems": [
    "Verif.Rseq.inject_twice_implements",
    "Verif.Rseq.inject_twice_simulated",
    "Verif.Rseq.inject_twice_never_fires",
    "Verif.Rseq.inject_twice_return_values",
    "Verif.Rseq.inject_twice_returns_zero_atomic",
    "Verif.Rseq.inject_twice_returns_abort_no_commit",
    "Verif.Rseq.inject_twice_returns_one_compare_failed",
    "Verif.Rseq.inject_twice_never_on_cpu_aborts"
   ],
   "note": "As C80 and C69."
  },
  {
   "property": "C82",
   "status": "proved",
   "theorems": [
    "Verif.Rseq.call_instructions_bounded",
    "Verif.Rseq.twice_call_instructions_bounded",
    "Verif.Rseq.helper_length",
    "Verif.Rseq.call_aborted_at_most_once",
    "Verif.Rseq.twice_call_aborted_at_most_once",
    "Verif.Rseq.call_never_stuck",
    "Verif.Rseq.twice_call_never_stuck",
    "Verif.Rseq.call_returns_if_left_alone",
    "Verif.Rseq.twice_call_returns_if_left_alone",
    "Verif.Rseq.shared_register_never_returns"
   ],
   "note": "Machine of C32 without any restriction on the other threads, and without the requirement that the state be reachable. Instructions of signal handlers nested in the call do not count. CallOK: for the copying helpers on x86_64, s390, mips and loongarch src, dst and len are in registers of their own (F24); shared_register_never_returns is an assignment without that on which the helper loops for ever. ex_redirected: a call that is aborted."
  },
  {
   "property": "C83",
   "status": "proved",
   "theorems": [
    "Verif.Rseq.unload_safe",
    "Verif.Rseq.unload_conservative",
    "Verif.Rseq.unload_needs_prepare"
   ],
   "note": "Machine of C32 with arbitrary stores of other threads, plus unloading and loading of sites. unload_needs_prepare: without the call, a thread that is outside every helper still has the descriptor in rseq_cs (it is cleared lazily). ex_unload: the obligation can be met."
  },
  {
   "property": "C84",
   "status": "proved",
   "theorems": [
    "Verif.Joint.joint_sound",
    "Verif.Joint.joint_confined",
    "Verif.Joint.joint_total",
    "Verif.Joint.pool_counter_exact"
   ],
   "note": "Pool operations are single steps of the joint machine (their interleaving is C27). Calls name CPU numbers below the CPU count of the pool (C50, C59). Calls whose footprint depends on memory contents (pops from lists) are outside UsesItems unless every such content leads into the items. ex_joint: concrete execution with two CPUs whose count is 5."
  },
  {
   "property": "C85",
   "status": "proved",
   "theorems": [
    "Verif.Barrier.race_free_sequential",
    "Verif.Barrier.race_free_any_order",
    "Verif.Barrier.percpu_sequential",
    "Verif.Barrier.locked_sequential",
    "Verif.Barrier.races_not_sequential"
   ],
   "note": "Axiomatic models of C65 with CPUs as threads: the instruction stream of a CPU is the program order. Finite runs (race_free_any_order without that). This justifies the sequentially consistent memory of the machine of C32 for data that only its own CPU accesses; that a context switch orders a thread's accesses on its old and new CPU is the kernel's part and an assumption. Examples: a run with a race elsewhere on every architecture, and the lock-protected counter."
  },
  {
   "property": "C86",
   "status": "proved",
   "theorems": [
    "Verif.Rseq.abort_iff_cause",
    "Verif.Rseq.failed_attempt_interrupted",
    "Verif.Rseq.uninterrupted_call_completes",
    "Verif.Rseq.failed_attempts_bounded",
    "Verif.Rseq.alone_call_completes"
   ],
   "note": "Machine of C32 without any restriction on the other threads (C61). The event counter ev of a thread counts the times it is scheduled and gets a signal. The kernel aborts a section at every scheduling and signal, also if the CPU is the same. ex_cause, ex_failed, ex_alone: calls with and without a cause exist. A bounded number of instructions per attempt is C82."
  },
  {
   "property": "C87",
   "status": "proved",
   "theorems": [
    "Verif.Rseq.race_trace",
    "Verif.Rseq.race_trace_pseudocode",
    "Verif.Rseq.tree_alone",
    "Verif.Rseq.race_one_observed",
    "Verif.Rseq.race_zero_compared",
    "Verif.Rseq.race_add",
    "Verif.Rseq.race_deref",
    "Verif.Rseq.race_copy",
    "Verif.Rseq.race_pop_reread"
   ],
   "note": "Machine of C32 without any restriction on the other threads. Op.tree is the pseudo-code as a tree of accesses, with a flag for the second load of F38; tree_alone: run on a memory that nobody else changes, either tree is the pseudo-code. race_trace_pseudocode excludes the pops of aarch64, riscv and ppc (race_trace covers them with the second load). The bytes of a copy may be copied in either direction (Op.order). Words are accessed in one instruction. Weak memory is not part of it. Examples with a racing store of another thread for each consequence."
  },
  {
   "property": "C88",
   "status": "partial",
   "theorems": [
    "Verif.Rseq.race_pop_partial",
    "Verif.Rseq.pop_race_excluded",
    "Verif.Rseq.pop_race_excluded_riscv",
    "Verif.Rseq.pop_race_excluded_ppc"
   ],
   "note": "False on aarch64, riscv and ppc (F38): these pops load the head a second time after the comparison; concrete executions in which a pop returns 0 and stores NULL (= expectnot) as the popped node and then takes its successor from address offset. Proved for the other six architectures. race_pop_reread (C87) is what remains true. If only the own CPU writes the head, pops are correct everywhere (C32, C39)."
  },
  {
   "property": "C89",
   "status": "proved",
   "theorems": [
    "Verif.Rseq.spin_counts",
    "Verif.Rseq.spin_exclusive",
    "Verif.Rseq.spin_loaded",
    "Verif.Rseq.spin_assertion",
    "Verif.Rseq.spin_final",
    "Verif.Rseq.ex_spin",
    "Verif.Rseq.list_data_kept",
    "Verif.Rseq.list_test_final",
    "Verif.Rseq.list_setup",
    "Verif.Rseq.list_test_passes"
   ],
   "note": "Machine of C32 (sequentially consistent; for weak memory C65 and C85: data accessed only in lock sections behave sequentially). count++ is a load and a store with anything in between. The other code of the program stores neither to lock words nor to counters; the two arrays do not overlap. spin_final: counters zero at the start (memset, zmalloc: C84). list_test_final: heads, nodes and local variables do not overlap (C39), nobody stores to node->data; free(node) is not modelled. list_setup: the loops that build the lists establish its hypotheses from empty lists; list_test_passes puts both together, for 2 B smaller than a word, B nodes per CPU; what malloc returns is a parameter. Termination of the loops is C86. Examples: a holder migrating between load and store; a node that changes lists."
  },
  {
   "property": "C90",
   "status": "partial",
   "theorems": [
    "Verif.ParamTest.reports_defined_partial",
    "Verif.ParamTest.reports_undefined"
   ],
   "note": "False for -r 2 to -r 9 (F39): reps / 10 is 0 and the second iteration computes i % 0 (reports_undefined: exactly these). Builds with BENCHMARK do not have the code."
  },
  {
   "property": "C91",
   "status": "proved",
   "theorems": [
    "Verif.PoolConc.conc_op_bounded",
    "Verif.PoolConc.conc_can_step",
    "Verif.PoolConc.conc_finishes"
   ],
   "note": "Machine of C27. conc_op_bounded: any kind of page fault, any item length; a step of a thread is one that changes what it is doing or its page fault. conc_can_step, conc_finishes: under FaultSafe (otherwise an abort is possible, C28); the system may refuse memory. mmap and the other calls of a range creation, with the init callback, count as one step; a callback that does not return, or uses the pool itself (F19), is outside. Fairness of the scheduler and of the mutex is not modelled. Example: a thread waiting for the holder of the lock."
  },
  {
   "property": "C92",
   "status": "partial",
   "theorems": [
    "Verif.CowTest.cow_test_legal",
    "Verif.CowTest.cow_test_passes_partial",
    "Verif.CowTest.cow_test_shown_partial",
    "Verif.CowTest.cow_test_can_end_partial",
    "Verif.CowTest.cow_test_fails",
    "Verif.CowTest.cow_test_blind"
   ],
   "note": "cow_test_legal holds for every kind of page fault. FALSE for the verdict of the test with the two-phase page copy of Linux: cow_test_fails (configuration and values of the test; F18) and cow_test_blind (F40: all 256 comparisons succeed, the item then loses its value, the iteration goes on; the comparison comes before the wait for the writer). Proved under FaultSafe: no false alarm, no abort, the item shows its value until freed, both threads can end. Phase and stop variables are sequentially consistent; the test gives up if the system refuses memory (noMem)."
  },
  {
   "property": "C93",
   "status": "proved",
   "theorems": [
    "Verif.Rseq.buffer_test_items",
    "Verif.Rseq.buffer_test_no_abort",
    "Verif.Rseq.buffer_test_final",
    "Verif.Rseq.memcpy_buffer_test_final",
    "Verif.Rseq.buffer_setup",
    "Verif.Rseq.memcpy_buffer_setup",
    "Verif.Rseq.buffer_test_passes",
    "Verif.Rseq.memcpy_buffer_test_passes"
   ],
   "note": "On the machine and client of C63, restricted to what the threads of the tests do (TestReach): a thread without an item pops, one with an item pushes it. Offsets, arrays, nodes and local variables do not overlap; each buffer can take all items (lines 1057, 1301); the nodes are not NULL and nobody stores to their data; signal handlers do not use the buffers (line 1362). The memory at the start holds the items (BufInit); buffer_setup and memcpy_buffer_setup derive this from the loops that fill the buffers (lines 1047-1077, 1291-1317) and give the value of expected_sum, and the _passes theorems put setup, threads and final loops together: the assertions of lines 1112 and 1353 hold. There 2 B must fit a word, as the data are signed words. The addresses malloc returns are parameters; free is not modelled. That the memcpy test passes the popped item by value is part of TestCall. Termination of the retry loops is C86. ex_test_pop, ex_test_push: an execution in which an item changes CPUs."
  },
  {
   "property": "C94",
   "status": "proved",
   "theorems": [
    "Verif.Acquire.load_acquire_value",
    "Verif.Acquire.store_release_value",
    "Verif.Acquire.release_then_acquire",
    "Verif.Acquire.other_size_lost",
    "Verif.Acquire.load_acquire_int128"
   ],
   "note": "Values only; the ordering is C65. Instructions ldarb, ldarh, ldar, stlrb, stlrh, stlr as byte accesses in the data byte order, registers zero-extended. Floating-point and pointer values as unsigned numbers. The access to the union through __u8 *, __u16 *, ... is taken to access its bytes. other_size_lost is finding F41."
  },
  {
   "property": "C95",
   "status": "proved",
   "theorems": [
    "Verif.Rseq.membarrier_test_passes",
    "Verif.Rseq.lists_count_exact",
    "Verif.Rseq.membarrier_total"
   ],
   "note": "Machine of C61 and C62 (calls may race with the manager's stores; sequentially consistent). Mgr is the manager's loop with the comparisons, the switch, the barrier (BarrierFor of C62; ENXIO: no thread on that CPU) and the read of the expected value as separate steps with anything in between; the state at the start is the one after the lists have been published (line 1555), where heads point to nodes with data 0 and nothing overlaps. Workers have nothing but calls of the helper and code that changes neither pointer, heads nor nodes. membarrier_total: sum modulo 2^64 of all counters; each worker has had reps calls that returned 0 (its loop; termination is C86), the manager none, all calls have returned. rand() is any choice of CPUs. free and the destruction of the pool are not part of it. Example: a call on list a, a switch with barrier, a call on list b."
  },
  {
   "property": "C96",
   "status": "proved",
   "theorems": [
    "Verif.Tap.planned_success_iff",
    "Verif.Tap.unplanned_success_iff",
    "Verif.Tap.skip_all_success",
    "Verif.Tap.flat_test_success",
    "Verif.Tap.no_syscall_test_success",
    "Verif.Tap.percpu_test_success",
    "Verif.Tap.basic_test_success",
    "Verif.Tap.fork_test_success",
    "Verif.Tap.forgotten_plan",
    "Verif.Tap.todo_end_twice",
    "Verif.Tap.verdict_success_iff",
    "Verif.Tap.fork_test_exit_code"
   ],
   "note": "tap.c with its 32-bit counters, _cleanup through atexit and exit inside the plan functions; the driver from the lines on (plan, results, numbers, directives, end of input), the exit status being its low eight bits. The names of checks are left out: they are taken to hold no newline before their end and no text that the driver reads as a directive (true of all names in the tests). Only the main thread calls the library (LOCK is empty: HAVE_LIBPTHREAD is not defined). stderr, merged by --merge, holds comments only. fork_test_success is exact and includes that a child killed by a signal after its two checks is accepted (F43). todo_end twice is undefined behaviour (double free); no test does it. Examples: accepted and rejected runs."
  },
  {
   "property": "C97",
   "status": "partial",
   "theorems": [
    "Verif.Tap.exit_code_partial",
    "Verif.Tap.exit_code_wraps",
    "Verif.Tap.fork_test_killed_exit_code",
    "Verif.Tap.unplanned_run"
   ],
   "note": "False as stated: the low eight bits of the count are reported, so 256 k failing checks give status 0 (exit_code_wraps, F42), and fork_test returns WEXITSTATUS without WIFEXITED, 0 for a killed child (fork_test_killed_exit_code, F43). Proved for deviations below 256. A todo check that passes is no failure for the exit status. The driver still reports the 256 failures (C96). For tap.sh see C99."
  },
  {
   "property": "C98",
   "status": "proved",
   "theorems": [
    "Verif.Bench.affinity_table",
    "Verif.Bench.order_perm",
    "Verif.Bench.all_present",
    "Verif.Bench.own_cpu",
    "Verif.Bench.steps_bounded",
    "Verif.Bench.not_stuck",
    "Verif.Bench.create_failure_hangs",
    "Verif.Bench.ex_two"
   ],
   "note": "The threads as state machines over affinity_mutex, next_aff, nr_active_threads (32 bits), test_go and test_stop, sequentially consistent (the accesses are relaxed atomics; each flag is stored once, after the addition whose result it depends on). Spinning is no step. nr_threads is the number of entries of the table: both calls of sched_getaffinity give the same set, and all CPUs are below NR_CPUS = 1024 = CPU_SETSIZE. The result of sched_setaffinity is not checked by the program; that a pinned thread runs on its CPU is the kernel's part. Accesses to the per-CPU items are C19; the calls that plan and report are C96. ex_two: a run in which one thread works while the other has not seen the flag yet."
  },
  {
   "property": "C99",
   "status": "proved",
   "theorems": [
    "Verif.Tap.param_script_runs",
    "Verif.Tap.param_script_success",
    "Verif.Tap.param_script_skipped",
    "Verif.Tap.param_script_exit_code",
    "Verif.Tap.param_script_exit_code_wraps",
    "Verif.Tap.planned_exit_code",
    "Verif.Tap.script_arguments",
    "Verif.Tap.verdict_success_iff"
   ],
   "note": "tap.sh as functions on its variables and lines printed (Sh), the script as folds over its lists; the exit status of the k-th run is an arbitrary function. A run that never ends is not covered (C91, C86 and others say when tests end). The exit status alone is a count modulo 256 (F42, param_script_exit_code_wraps); the verdict is not affected."
  }
 ]
}