{"id": "C01", "title": "Live per-CPU items never overlap", "statement": "At any moment, the memory of two distinct allocated-and-not-yet-freed items of a pool is disjoint: for every pair of CPUs (i, j) within max_nr_cpus, the item_len bytes that rseq_percpu_ptr(a, i) designates and the item_len bytes that rseq_percpu_ptr(b, j) designates share no byte. The two instances of one item on two different CPUs are disjoint too.", "quantifier": "every pool configuration, every finite history of malloc/zmalloc/malloc_init/free and user stores, every address the kernel may return for a new range, every pair of CPUs", "why_tests_cant": "An overlap depends on the exact history of allocations and frees, range exhaustion and kernel placement; tests try a handful of fixed sequences.", "anchors": ["src/rseq-mempool.c: __rseq_percpu_malloc, librseq_mempool_percpu_free, rseq_mempool_range_create", "include/rseq/mempool.h: rseq_percpu_ptr"]}
{"id": "C02", "title": "Allocated items lie inside pool memory and are aligned", "statement": "Every non-NULL pointer returned by an allocation is aligned on the item length rounded up to a power of two, and on every CPU below max_nr_cpus the whole item lies inside the memory the pool mapped for that CPU (never in the header, init values or dedicated free-list areas).", "quantifier": "every configuration, history and placement of ranges, every CPU", "why_tests_cant": "Out-of-area items only appear on particular slot/range boundaries and placements.", "anchors": ["src/rseq-mempool.c: __rseq_percpu_malloc, __rseq_pool_range_percpu_ptr, rseq_mempool_range_create"]}
{"id": "C03", "title": "zmalloc returns zeroed memory on every CPU", "statement": "When zmalloc returns an item, all its item_len bytes read as zero through the per-CPU pointer of every CPU, whatever the item was used for before (previous content, poison, free-list pointers, private or not-yet-copied pages).", "quantifier": "every configuration (robust or not, COW_INIT or COW_ZERO, any poison), every history, every CPU and byte", "why_tests_cant": "Stale bytes survive only for particular combinations of reuse, copy-on-write state and policy.", "anchors": ["src/rseq-mempool.c: rseq_percpu_zero_item, rseq_cmp_item, __rseq_percpu_malloc", "include/rseq/mempool.h: rseq_mempool_percpu_zmalloc"]}
{"id": "C04", "title": "malloc_init content is visible on every CPU", "statement": "When malloc_init(init_ptr, len) returns an item (no concurrent store to the same pool memory), the first len bytes of the item read as the init bytes through the per-CPU pointer of every CPU.", "quantifier": "every configuration, history, init content, len <= item_len, CPU", "why_tests_cant": "Correctness depends on which pages have been privately copied before, i.e. on the whole history of stores.", "anchors": ["src/rseq-mempool.c: rseq_percpu_init_item, __rseq_percpu_malloc", "include/rseq/mempool.h: rseq_mempool_percpu_malloc_init"]}
{"id": "C05", "title": "Allocator operations do not disturb live items", "statement": "No allocation, failed allocation, zero/init fill, or free of one item changes any byte of any other live item as seen on any CPU, including when the policy shares init pages between CPUs.", "quantifier": "every configuration, history, pair of items, CPU, byte", "why_tests_cant": "Cross-item disturbance would go through page sharing, free-list words or poison and shows only for some layouts.", "anchors": ["src/rseq-mempool.c: __rseq_percpu_malloc, librseq_mempool_percpu_free, rseq_percpu_poison_item, rseq_percpu_zero_item, rseq_percpu_init_item"]}
{"id": "C06", "title": "CPU-local isolation of stores", "statement": "A user store into a live item on CPU i changes, among all live items and all CPUs, exactly the stored bytes on CPU i: no other CPU's instance and no other live item changes, including on the first store that triggers a private page copy.", "quantifier": "every configuration, history, item, CPU, offset and value", "why_tests_cant": "Needs every combination of page-sharing states.", "anchors": ["src/rseq-mempool.c: rseq_mempool_range_create (MAP_PRIVATE/MAP_SHARED mappings)", "include/rseq/mempool.h: rseq_percpu_ptr, RSEQ_MEMPOOL_POPULATE_COW_INIT"]}
{"id": "C07", "title": "Allocation fails with ENOMEM only when nothing is left", "statement": "malloc/zmalloc/malloc_init with len <= item_len fail only when there is no freed item to reuse, the newest range has no never-used slot and a new range could not be added (max_nr_ranges reached or the system refused memory); then errno is ENOMEM and the pool is unchanged. In particular a freed item can always be allocated again.", "quantifier": "every configuration, history and sequence of system failures", "why_tests_cant": "Requires reasoning over all histories; tests check one exhaustion scenario.", "anchors": ["src/rseq-mempool.c: __rseq_percpu_malloc, rseq_mempool_range_create", "include/rseq/mempool.h: rseq_mempool_percpu_malloc, rseq_mempool_attr_set_max_nr_ranges"]}
{"id": "C08", "title": "max_nr_ranges bounds the pool capacity", "statement": "With max_nr_ranges = n > 0 a pool never maps more than n ranges, and the number of simultaneously live items never exceeds n * (stride / item_len); if the system never refuses memory exactly that many items can be live.", "quantifier": "every n, stride, item length and history", "why_tests_cant": "Bound over all histories.", "anchors": ["src/rseq-mempool.c: rseq_mempool_range_create", "include/rseq/mempool.h: rseq_mempool_attr_set_max_nr_ranges"]}
{"id": "C09", "title": "An oversized init length is rejected without effect", "statement": "malloc_init with len greater than the pool item length (after rounding) returns NULL with errno EINVAL and changes neither the pool nor any memory; with len <= item length it never reports EINVAL.", "quantifier": "every pool, history and length", "why_tests_cant": "Boundary over all lengths and states.", "anchors": ["src/rseq-mempool.c: __rseq_percpu_malloc"]}
{"id": "C10", "title": "Robust pools detect every double free", "statement": "In a robust pool, freeing a pointer obtained from that pool that is not currently allocated (freed already, however many other operations happened in between) aborts the process before the pool is modified.", "quantifier": "every robust configuration, history and freed item", "why_tests_cant": "Tests show one immediate double free; detection must hold after any intermediate history.", "anchors": ["src/rseq-mempool.c: clear_alloc_slot, set_alloc_slot, librseq_mempool_percpu_free", "include/rseq/mempool.h: rseq_mempool_attr_set_robust"]}
{"id": "C11", "title": "Robust pools detect leaks on destroy", "statement": "Destroying a robust pool while at least one item is allocated aborts the process.", "quantifier": "every robust configuration, history and non-empty set of live items", "why_tests_cant": "All histories.", "anchors": ["src/rseq-mempool.c: check_free_list, destroy_alloc_bitmap, rseq_mempool_destroy"]}
{"id": "C12", "title": "Robust pools detect use-after-free stores", "statement": "In a robust pool, if the content of a freed item on some CPU differs from the poison value, then the next allocation that would return this item, and pool destruction, abort the process instead of continuing.", "quantifier": "every robust configuration, history, freed item, CPU and corrupting value", "why_tests_cant": "Any byte of any CPU instance, after any history.", "anchors": ["src/rseq-mempool.c: rseq_percpu_check_poison_item, check_pool_poison, rseq_cmp_item, rseq_percpu_poison_item"]}
{"id": "C13", "title": "Robust pools raise no false alarm", "statement": "A client that only stores to live items and frees each allocated item once never makes a robust pool abort, neither on malloc/free nor on destroy with no live item.", "quantifier": "every robust configuration, every correct client history", "why_tests_cant": "Absence of false positives over all histories.", "anchors": ["src/rseq-mempool.c: set_alloc_slot, clear_alloc_slot, check_free_list, rseq_percpu_check_poison_item, check_pool_poison, destroy_alloc_bitmap"]}
{"id": "C14", "title": "Robust pools stay coherent under use-after-free stores", "statement": "In a robust pool, stores through stale pointers into freed items (on any CPU) never make the allocator return an item overlapping a live one: every later allocation either aborts or returns an item disjoint from all live items.", "quantifier": "every robust configuration and history that mixes correct calls with arbitrary stores into per-CPU item memory", "why_tests_cant": "The space of corrupting stores is unbounded.", "anchors": ["src/rseq-mempool.c: struct rseq_mempool_range (layout), __rseq_percpu_to_free_list_ptr, __rseq_free_list_to_percpu_ptr"]}
{"id": "C15", "title": "Freed items are poisoned on every CPU", "statement": "After free in a pool with a poison value, every word of the item on every CPU reads as poison, except - in non-robust pools - the first word where the free list is threaded (CPU 0 for COW_ZERO; CPUs that still share the init page for COW_INIT).", "quantifier": "every configuration with poison, history, item, CPU and word", "why_tests_cant": "Depends on private/shared page state produced by the history.", "anchors": ["src/rseq-mempool.c: rseq_percpu_poison_item, librseq_mempool_percpu_free", "include/rseq/mempool.h: rseq_mempool_attr_set_poison"]}
{"id": "C16", "title": "The init callback runs exactly once per CPU and range", "statement": "When a range is added to a pool that has an init callback, the callback is invoked exactly once for each CPU 0..max_nr_cpus-1 in order with that CPU's memory (address, stride), or exactly once with cpu = -1 for a global pool, before any item of the range is returned; a non-zero return stops the sequence, the range is not added and creation/allocation fails with ENOMEM.", "quantifier": "every configuration, number of CPUs and callback behaviour", "why_tests_cant": "Callback outcomes at every index.", "anchors": ["src/rseq-mempool.c: rseq_mempool_range_create", "include/rseq/mempool.h: rseq_mempool_attr_set_init"]}
{"id": "C17", "title": "Pool creation validates its arguments", "statement": "rseq_mempool_create fails with EINVAL exactly when the populate policy is unknown, max_nr_cpus is negative, CPU auto-detection yields nothing, the stride is not a power of two, is smaller than a page, or is smaller than the rounded item length; otherwise it fails only for lack of resources (ENOMEM). A created pool has item_len = the least power of two >= max(requested, pointer size), stride = requested or 64 KiB by default, and the requested or detected number of CPUs.", "quantifier": "every item length, attribute combination, page size and system failure", "why_tests_cant": "Full argument domain.", "anchors": ["src/rseq-mempool.c: rseq_mempool_create", "include/rseq/mempool.h: rseq_mempool_create"]}
{"id": "C18", "title": "Any per-CPU item pointer leads back to its pool", "statement": "For every pointer returned by an allocation from a pool with stride s, free(ptr, s) operates on exactly the pool and range that ptr came from, for any number of pools and ranges and any kernel placement.", "quantifier": "every set of ranges and pointers", "why_tests_cant": "Address arithmetic over all placements.", "anchors": ["src/rseq-mempool.c: librseq_mempool_percpu_free, rseq_mempool_range_create, aligned_mmap_anonymous"]}
{"id": "C19", "title": "Per-CPU addressing is injective and in range", "statement": "rseq_percpu_ptr(p, cpu) for distinct (item, cpu, byte) triples designates distinct addresses, and the addresses for cpu < max_nr_cpus stay inside the range of p; the free-list node address and the item address determine each other.", "quantifier": "every stride, CPU number, item offset", "why_tests_cant": "Arithmetic over the full domain.", "anchors": ["include/rseq/mempool.h: rseq_percpu_ptr", "src/rseq-mempool.c: __rseq_pool_range_percpu_ptr, __rseq_percpu_to_free_list_ptr, __rseq_free_list_to_percpu_ptr"]}
{"id": "C20", "title": "Destroy releases every mapping exactly once and reports failure", "statement": "rseq_mempool_destroy unmaps each range of the pool exactly once (whole mapping, or only the header pages in a forked child of a COW_INIT pool) and returns 0 only if all were unmapped, -1 otherwise.", "quantifier": "every number of ranges and every pattern of munmap failures", "why_tests_cant": "munmap failures cannot be provoked by unit tests.", "anchors": ["src/rseq-mempool.c: rseq_mempool_destroy, rseq_mempool_range_destroy, pool_mappings_accessible", "include/rseq/mempool.h: rseq_mempool_destroy"]}
{"id": "C21", "title": "Destroy is usable in a forked child", "statement": "In a forked child of a process that owns a COW_INIT pool, rseq_mempool_destroy never reads or unmaps item memory (which is not mapped in the child) and frees the header pages of every range, whatever items were live at the time of the fork.", "quantifier": "every pool state at the time of the fork", "why_tests_cant": "All pool states.", "anchors": ["src/rseq-mempool.c: pool_mappings_accessible, rseq_mempool_destroy, destroy_alloc_bitmap", "include/rseq/mempool.h: RSEQ_MEMPOOL_POPULATE_COW_INIT"]}
{"id": "C22", "title": "A pool set allocates from the smallest pool with room", "statement": "An allocation of len bytes from a pool set returns an item of the pool with the smallest item length >= len among those pools of the set that can currently satisfy an allocation; pools with smaller items are left unchanged or were full; the call fails (ENOMEM) exactly when no such pool exists.", "quantifier": "every set content, len, and state of each pool", "why_tests_cant": "All combinations of pool sizes and fill levels.", "anchors": ["src/rseq-mempool.c: __rseq_mempool_set_malloc", "include/rseq/mempool.h: rseq_mempool_set_percpu_malloc"]}
{"id": "C23", "title": "A pool set holds at most one pool per size", "statement": "Adding a pool whose rounded item length equals that of a pool already in the set fails with EBUSY and leaves the set unchanged; otherwise the pool becomes usable for allocation and no other entry changes. Any pointer obtained from a set allocation of len bytes refers to an item of at least len bytes.", "quantifier": "every set and pool", "why_tests_cant": "All set states.", "anchors": ["src/rseq-mempool.c: rseq_mempool_set_add_pool, __rseq_mempool_set_malloc"]}
{"id": "C24", "title": "Pool set malloc_init initialises the item", "statement": "Items returned by rseq_mempool_set_percpu_malloc_init(set, init_ptr, len) contain the len init bytes on every CPU.", "quantifier": "every set, init content and len", "why_tests_cant": "Any content/length; only some contents (all zero) hide a wrong fill.", "anchors": ["src/rseq-mempool.c: rseq_mempool_set_percpu_malloc_init, __rseq_mempool_set_malloc", "include/rseq/mempool.h: rseq_mempool_set_percpu_malloc_init"]}
{"id": "C25", "title": "Attribute setters affect exactly their own attributes", "statement": "Each rseq_mempool_attr_set_* call on a NULL attr returns -1/EINVAL; otherwise returns 0 and changes only the attributes it documents, so setters of different attributes commute.", "quantifier": "every attribute state and arguments, every pair of setters", "why_tests_cant": "All orderings of calls.", "anchors": ["src/rseq-mempool.c: rseq_mempool_attr_set_init, rseq_mempool_attr_set_robust, rseq_mempool_attr_set_percpu, rseq_mempool_attr_set_global, rseq_mempool_attr_set_max_nr_ranges, rseq_mempool_attr_set_poison, rseq_mempool_attr_set_populate_policy"]}
{"id": "C26", "title": "NUMA initialisation covers every page exactly once", "statement": "rseq_mempool_range_init_numa submits each whole page of [addr, addr+len) to the kernel exactly once, in order, in batches of at most 4096, all with the node of the given CPU, and stops with a negative result at the first failing batch; with flags 0 it fails with EINVAL without any submission.", "quantifier": "every len, page size, node answer and per-batch kernel result", "why_tests_cant": "Lengths beyond one batch and failing batches are not exercised.", "anchors": ["src/rseq-mempool.c: rseq_mempool_range_init_numa"]}
{"id": "C27", "title": "Pool operations are safe under any thread interleaving", "statement": "With any number of threads concurrently allocating from and freeing to one pool, under every interleaving, two threads never own overlapping items, each thread's zmalloc/malloc_init content guarantee holds when its call returns, and the items of other threads are not disturbed; no thread aborts and the lock is always released. (Excluded here and treated as C28: a kernel page copy in flight on a page that holds several items of a COW_INIT pool.)", "quantifier": "every number of threads, programs and schedules of single byte loads and stores", "why_tests_cant": "Schedules cannot be enumerated by tests.", "anchors": ["src/rseq-mempool.c: __rseq_percpu_malloc, librseq_mempool_percpu_free (lock discipline)"]}
{"id": "C28", "title": "malloc_init versus a concurrent copy-on-write fault", "statement": "If, while thread A runs malloc_init (or zmalloc, or poison-on-free) in a COW_INIT pool, thread B stores to another live item that shares a page with A's item on some CPU, A's item still shows the complete content on that CPU when the call returns and afterwards.", "quantifier": "every interleaving of A's init stores and per-CPU checks with B's store, for each order of the kernel's page copy and page-table switch", "why_tests_cant": "The window is a few instructions inside a kernel page fault; the repository's race test runs 10 s of random delays.", "anchors": ["src/rseq-mempool.c: rseq_percpu_init_item, rseq_percpu_zero_item, rseq_percpu_poison_item", "tests/mempool_cow_race_test.c"]}
{"id": "C29", "title": "Size rounding is minimal", "statement": "The count-order helper returns the least k with x <= 2^k for every x >= 1 and -1 for 0, so item lengths are rounded to the least sufficient power of two; find-last-set returns the number of significant bits.", "quantifier": "every 64-bit (and 32-bit) unsigned value", "why_tests_cant": "2^64 inputs.", "anchors": ["src/rseq-utils.h: rseq_fls_u64, rseq_fls_u32, rseq_get_count_order_ulong"]}
{"id": "C30", "title": "Alignment helpers are exact", "statement": "For any power-of-two alignment, offset_align gives the least offset to the next aligned address, rseq_align the least aligned value >= v (absent overflow), and is_pow2 is true exactly for powers of two and zero.", "quantifier": "every 32- or 64-bit value and power-of-two alignment", "why_tests_cant": "2^64 inputs.", "anchors": ["src/rseq-utils.h: offset_align, rseq_align, is_pow2"]}
{"id": "C31", "title": "Aligned mapping keeps exactly the requested memory", "statement": "For any page-aligned address the kernel may return, the aligned mapping helper yields base memory aligned on the requested alignment, preceded by the requested header, keeps mapped exactly header+len bytes out of what it mapped, unmaps everything else exactly once and nothing it did not map; none of its internal assertions can fail. Invalid lengths/alignments give EINVAL with nothing mapped.", "quantifier": "every page size, length, alignment, header length and kernel address", "why_tests_cant": "Kernel placement is not under test control.", "anchors": ["src/rseq-mempool.c: aligned_mmap_anonymous"]}
{"id": "C32", "title": "A critical section that returns 0 took effect atomically", "statement": "If a helper called with cpu = c returns 0, its documented effect (compare, loads, stores) happened as one indivisible step with respect to every other helper execution targeting the same per-CPU data of CPU c, regardless of preemption, migration, signals and what runs on other CPUs.", "quantifier": "every number of threads and CPUs, every schedule of instructions, preemptions, migrations and signals, every arguments", "why_tests_cant": "Interruption at every instruction boundary combined with every other thread's progress.", "anchors": ["include/rseq/rseq.h: rseq_load_cbne_store__ptr and the other rseq_load_* helpers", "include/rseq/arch/*/bits.h", "include/rseq/pseudocode.h"]}
{"id": "C33", "title": "An aborted critical section did not commit", "statement": "If a helper returns -1 the committed variable (*v) was not modified by that call; the only memory it may have modified are the documented store-attempt targets (v2, dst buffer, load destination).", "quantifier": "every helper, architecture, arguments and interruption point", "why_tests_cant": "Interruption at each instruction.", "anchors": ["include/rseq/arch/*/bits.h", "include/rseq/pseudocode.h"]}
{"id": "C34", "title": "A comparison failure has no side effect", "statement": "If a helper returns 1, the compared variable did differ from expect (or equal expectnot) at some moment of the call while running on the requested CPU, and the call stored nothing to memory.", "quantifier": "every helper, architecture, arguments, memory content", "why_tests_cant": "All memory contents and schedules.", "anchors": ["include/rseq/arch/*/bits.h", "include/rseq/pseudocode.h"]}
{"id": "C35", "title": "Helpers implement their pseudo-code on every architecture", "statement": "Run without interruption on the requested CPU, each helper of each architecture (x86-64, i386, aarch64, arm, riscv, ppc, s390, mips, loongarch), relaxed or release, has exactly the result and memory effect of its pseudo-code.", "quantifier": "every architecture, helper, arguments and memory content", "why_tests_cant": "The test machine runs one architecture.", "anchors": ["include/rseq/arch/*/bits.h", "include/rseq/pseudocode.h"]}
{"id": "C36", "title": "A critical section never commits on another CPU", "statement": "If a thread is not running on CPU c (or, in mm_cid mode, does not hold concurrency id c) from the check until the commit instruction, a helper called with cpu = c does not commit: it returns -1.", "quantifier": "every schedule and migration point", "why_tests_cant": "Migration at every instruction boundary.", "anchors": ["include/rseq/arch/*/bits.h: RSEQ_ASM_CBNE_CPU_ID", "include/rseq/rseq.h"]}
{"id": "C37", "title": "Critical sections always fail on non-registered threads", "statement": "A helper executed by a thread that is not registered returns -1 and never commits, for both indexing modes and every cpu argument.", "quantifier": "every helper, mode, cpu argument", "why_tests_cant": "All arguments and modes.", "anchors": ["include/rseq/rseq.h (lines 107-113): rseq_register_current_thread", "src/rseq.c: __rseq_abi"]}
{"id": "C38", "title": "Per-CPU counters lose no update", "statement": "When threads increment per-CPU counters with rseq_load_add_store retried until it returns 0, at every moment the sum over CPUs of a counter equals its initial sum plus the sum of the counts of all committed calls (mod 2^64).", "quantifier": "every number of threads, CPUs, schedules, counts", "why_tests_cant": "Schedules.", "anchors": ["include/rseq/rseq.h: rseq_load_add_store__ptr", "tests/param_test.c: test_percpu_inc_thread"]}
{"id": "C39", "title": "Per-CPU lists are linearizable stacks", "statement": "A per-CPU list manipulated with the push idiom (rseq_load_cbne_store on the head) and the pop idiom (rseq_load_cbeq_store_add_load_store) behaves as a stack: no node lost, duplicated or popped twice, immune to ABA.", "quantifier": "every number of threads, schedules and list contents", "why_tests_cant": "ABA needs a precise interleaving.", "anchors": ["tests/basic_percpu_ops_test.c: this_cpu_list_push, this_cpu_list_pop", "include/rseq/rseq.h"]}
{"id": "C40", "title": "Per-CPU locks give mutual exclusion", "statement": "The per-CPU lock idiom (rseq_load_cbne_store(&lock[cpu], 0, 1, cpu) until 0; release store 0) never lets two threads own the lock of the same CPU at once, even after the owner migrates.", "quantifier": "every number of threads and schedules", "why_tests_cant": "Schedules.", "anchors": ["tests/basic_percpu_ops_test.c: rseq_this_cpu_lock, rseq_percpu_unlock"]}
{"id": "C41", "title": "Unsupported memory orders and modes are refused without effect", "statement": "Each helper returns -1 without touching memory for every memory order/percpu mode pair it does not support (all but RELAXED, and RELEASE for the two-store and memcpy helpers), and otherwise runs the implementation for exactly that order and mode.", "quantifier": "every helper, enum value, arguments", "why_tests_cant": "Full dispatch table.", "anchors": ["include/rseq/rseq.h: rseq_load_*__ptr dispatch functions"]}
{"id": "C42", "title": "Release helpers publish the attempt stores before the final store", "statement": "With RSEQ_MO_RELEASE, an observer on another CPU that reads the new value of *v (and orders its following loads) also sees the stores to v2/dst performed by that call, on every architecture.", "quantifier": "every architecture memory order permitted by the model, every observer schedule", "why_tests_cant": "Weak-memory reorderings are rare and machine dependent.", "anchors": ["include/rseq/arch/*/bits.h: rseq_load_cbne_store_store, rseq_load_cbne_memcpy_store (RSEQ_TEMPLATE_MO_RELEASE)"]}
{"id": "C43", "title": "A stale critical-section descriptor is harmless", "statement": "After a helper has returned, a preemption, migration or signal at any later point never redirects the thread into an abort handler, even though the helper does not clear its descriptor; after rseq_prepare_unload() no reference to a descriptor remains.", "quantifier": "every helper, later instruction, schedule", "why_tests_cant": "All later interruption points.", "anchors": ["include/rseq/arch/*/bits.h: RSEQ_ASM_STORE_RSEQ_CS", "include/rseq/rseq.h: rseq_prepare_unload, rseq_clear_rseq_cs"]}
{"id": "C44", "title": "Library initialisation happens exactly once and is visible", "statement": "For any number of threads calling into the library concurrently, initialisation is performed exactly once, and every call proceeds only after the resulting ownership, offset, size and flags are visible to it.", "quantifier": "every number of threads and interleavings", "why_tests_cant": "Schedules.", "anchors": ["src/rseq.c: rseq_init"]}
{"id": "C45", "title": "Registration results tell the truth", "statement": "rseq_register_current_thread returns 0 only if the calling thread is registered afterwards (by librseq, or because the C library owns registration); returns -1 only if no thread of the process ever registered; unregister returns 0 only if the thread is no longer registered by librseq or libc owns registration.", "quantifier": "every history of register/unregister calls by any threads, every kernel answer", "why_tests_cant": "Histories and kernel answers.", "anchors": ["src/rseq.c: rseq_register_current_thread, rseq_unregister_current_thread"]}
{"id": "C46", "title": "A thread can unregister and register again", "statement": "After a thread successfully registered, rseq_unregister_current_thread succeeds, whatever feature size the kernel advertises and whichever thread registered first.", "quantifier": "every kernel feature size up to the allocated area, every registration order", "why_tests_cant": "Depends on kernel versions not available to the tests.", "anchors": ["src/rseq.c: get_rseq_min_alloc_size, rseq_register_current_thread, rseq_unregister_current_thread"]}
{"id": "C47", "title": "rseq_size never exceeds what is usable", "statement": "The public rseq_size is 0 before the first registration (owning mode), and otherwise never exceeds the feature size supported by the kernel nor the size of the registered/allocated area, so rseq_node_id_available and rseq_mm_cid_available are true only if the kernel maintains those fields.", "quantifier": "every libc-provided size, kernel feature size and history", "why_tests_cant": "Depends on libc and kernel versions.", "anchors": ["src/rseq.c: rseq_init, rseq_register_current_thread, get_rseq_kernel_feature_size", "include/rseq/rseq.h: rseq_node_id_available, rseq_mm_cid_available"]}
{"id": "C48", "title": "rseq_available answers match the owner", "statement": "rseq_available(KERNEL) is true exactly when the kernel implements the system call; rseq_available(LIBC) is true exactly when the C library owns the registration; unknown queries give false.", "quantifier": "every kernel answer, library phase and query value", "why_tests_cant": "Phases (before init, after exit) and kernel answers.", "anchors": ["src/rseq.c: rseq_available, rseq_exit"]}
{"id": "C49", "title": "rseq_current_cpu is always a CPU number", "statement": "rseq_current_cpu() returns the kernel-maintained CPU number on registered threads and the system-call answer otherwise, never a negative sentinel.", "quantifier": "every registration state and kernel answer", "why_tests_cant": "All states.", "anchors": ["include/rseq/rseq.h: rseq_current_cpu, rseq_current_cpu_raw", "src/rseq.c: rseq_fallback_current_cpu"]}
{"id": "C50", "title": "The CPU count exceeds every possible CPU id", "statement": "For every set of possible CPUs the kernel may print in its list format (ascending ranges), rseq_get_max_nr_cpus() is exactly the highest possible CPU id plus one, so per-CPU arrays of that length can be indexed by any CPU id.", "quantifier": "every well-formed CPU list that fits the read buffer", "why_tests_cant": "The test machine has one CPU list.", "anchors": ["src/smp.c: get_max_cpuid_from_mask, update_possible_cpus_array_len_cache"]}
{"id": "C51", "title": "CPU list reading tolerates short reads and interruptions", "statement": "The CPU list is read correctly for every way the kernel may split the file into short reads and interrupt them by signals; the buffer is never overrun and always NUL-terminated; any other read error selects the fallback.", "quantifier": "every sequence of read results", "why_tests_cant": "Short reads and EINTR are not reproducible.", "anchors": ["src/smp.c: get_cpu_mask_from_sysfs"]}
{"id": "C52", "title": "The detected CPU count is stable", "statement": "Once rseq_get_max_nr_cpus() has returned a positive value it returns the same value for the rest of the process, and while detection fails it returns 0 and retries; it never returns a negative number.", "quantifier": "every sequence of system answers", "why_tests_cant": "Sequences of failures.", "anchors": ["src/smp.c: get_possible_cpus_array_len, update_possible_cpus_array_len_cache"]}
{"id": "C53", "title": "The CPU count fallback covers every CPU directory", "statement": "When the CPU list is unusable, the detected value is the maximum of sysconf's answer and the highest cpuN directory number plus one, ignoring every other directory entry.", "quantifier": "every directory content and order, every sysconf answer", "why_tests_cant": "Directory contents.", "anchors": ["src/smp.c: _get_max_cpuid_from_sysfs, get_num_possible_cpus_fallback"]}
{"id": "C54", "title": "Range lists behave as sequences", "statement": "The intrusive list operations (add, add_tail, del, move, splice, replace, empty) implement the corresponding sequence operations on well-formed lists, keep both link directions consistent, and touch no other list.", "quantifier": "every list content and element", "why_tests_cant": "All list shapes.", "anchors": ["src/list.h"]}
{"id": "C55", "title": "Iteration tolerates removal of the current element", "statement": "Iterating with the safe iterator and removing (and even freeing/unmapping) each visited element visits every element exactly once and terminates with an empty list.", "quantifier": "every list and every subset of removed elements", "why_tests_cant": "All lists.", "anchors": ["src/list.h: list_for_each_entry_safe, list_for_each_safe", "src/rseq-mempool.c: rseq_mempool_destroy"]}
{"id": "C56", "title": "Destroying a set destroys its pools one by one", "statement": "rseq_mempool_set_destroy calls rseq_mempool_destroy on each pool of the set at most once, in order of item size, until the first failure; it returns that failure (0 if none), and exactly the pools destroyed without failure leave the set, so the call can be repeated.", "quantifier": "every set content and every pattern of destroy failures", "why_tests_cant": "Failure patterns.", "anchors": ["src/rseq-mempool.c: rseq_mempool_set_destroy"]}
{"id": "C57", "title": "Population count and page size", "statement": "The population count of an unsigned long is the sum of its binary digits, the page length is the system's answer or 4096 if there is none, and it is a positive power of two whenever the answer is.", "quantifier": "every value of either word size and every sysconf answer", "why_tests_cant": "2^64 inputs.", "anchors": ["src/rseq-utils.h: rseq_hweight_ulong, rseq_get_page_len"]}
{"id": "C58", "title": "Destroy's free-list check is exact for any memory content", "statement": "Whatever the memory contains (overwritten links, cycles, stray pointers), check_free_list terminates, passes exactly when the free list is NULL-terminated, stays inside the used part of the pool and has as many nodes as slots were ever handed out, and aborts otherwise; a robust pool is only unmapped if moreover every used slot shows poison on every CPU.", "quantifier": "every memory content and every pool with well-formed ranges", "why_tests_cant": "Corruptions cannot be enumerated; the cycle bound is an off-by-one trap.", "anchors": ["src/rseq-mempool.c: check_free_list, percpu_addr_in_pool, check_pool_poison, rseq_mempool_destroy"]}
{"id": "C59", "title": "The reported CPU count is the one in effect", "statement": "rseq_mempool_get_max_nr_cpus refuses NULL and global pools with EINVAL and otherwise returns the positive number of CPUs asked for at creation, or the detected number if none was asked for.", "quantifier": "every attribute set, item length, detected count", "why_tests_cant": "Attribute combinations.", "anchors": ["src/rseq-mempool.c: rseq_mempool_get_max_nr_cpus, rseq_mempool_create"]}
{"id": "C60", "title": "Helpers restore registers on every exit, including abort", "statement": "When a helper returns with any value - committed, comparison failed, or aborted by the kernel at any instruction of its section - every register outside its clobber list and every C local passed to it as memory operand has the value it had on entry, although the memory-copy helpers of several architectures modify their input registers; this holds for any register allocation and any interference.", "quantifier": "every helper, architecture, memory order, register allocation, operand values, interruption point, number of threads and signal nesting", "why_tests_cant": "Interruption points and register allocations cannot be enumerated by running.", "anchors": ["include/rseq/arch/x86/bits.h: rseq_load_cbne_memcpy_store__ptr", "include/rseq/arch/s390/bits.h", "include/rseq/arch/mips/bits.h", "include/rseq/arch/loongarch/bits.h", "include/rseq/arch/aarch64/bits.h", "include/rseq/arch/arm/bits.h", "include/rseq/arch/riscv/bits.h", "include/rseq/arch/ppc/bits.h"]}
{"id": "C61", "title": "Helpers write only where documented even when other code races on their data", "statement": "Whatever other threads write and when, a helper returns only 0, 1 or -1; its instructions modify only the documented attempt targets before the final store and only *v at the final store, each of them while the thread is registered, on the requested CPU and uninterrupted since it published its descriptor. 0 means exactly one final store, of exactly newv where the helper has that argument; -1 means none; 1 means no byte was modified. No hypothesis about the other threads is needed (the atomicity of C32 does need one).", "quantifier": "every helper, architecture, argument, schedule, number of threads, signal nesting and interference", "why_tests_cant": "Races on the data are exactly what a test avoids; addresses of stores depend on values loaded under the race.", "anchors": ["include/rseq/arch/generic/pseudocode.h", "include/rseq/arch/*/bits.h", "include/rseq/rseq.h: rseq_load_*"]}
{"id": "C62", "title": "A barrier makes an inactive structure stable", "statement": "After a thread has redirected the pointer that rseq_load_add_load_load_add_store__ptr dereferences and an expedited rseq membarrier for CPU c has returned, every section for CPU c that is still running began after the switch, uses the new pointer, and the per-CPU data of the structure that became inactive no longer changes; with concurrency ids the same holds for a barrier on all CPUs. Without the barrier the inactive structure can still change.", "quantifier": "every number of threads and CPUs, every schedule, migration, signal nesting, number of worker calls, placement of the lists", "why_tests_cant": "The assertion of the project's own membarrier test; a violation needs an interruption between two particular instructions.", "anchors": ["include/rseq/arch/x86/bits.h: rseq_load_add_load_load_add_store__ptr", "tests/param_test.c: test_membarrier, rseq_membarrier_expedited"]}
{"id": "C63", "title": "Per-CPU buffers are bounded stacks", "statement": "Used through the test's four functions (push and pop of a pointer, push and pop by copying an item), per-CPU buffers behave as bounded stacks: offset = number of items <= capacity, the array holds the items below the offset, an interrupted push or copy only dirties the element above the top, a pop returning 0 hands out the item on top, nothing is lost or duplicated, the final sums agree, and a push by someone who popped an item always finds room when each buffer can take all items. The offset may have changed and changed back since the caller read it.", "quantifier": "every number of threads and CPUs, schedule, migration, signal nesting, item size, capacity and content", "why_tests_cant": "The stray stores of interrupted attempts and ABA on the offset need particular interleavings; the tests only compare a sum.", "anchors": ["tests/param_test.c: this_cpu_buffer_push, this_cpu_buffer_pop, this_cpu_memcpy_buffer_push, this_cpu_memcpy_buffer_pop, test_percpu_buffer, test_percpu_memcpy_buffer", "include/rseq/arch/*/bits.h: rseq_load_cbne_store_store__ptr, rseq_load_cbne_load_cbne_store__ptr, rseq_load_cbne_memcpy_store__ptr"]}
{"id": "C64", "title": "The kernel finds exactly the critical section in the assembled descriptor", "statement": "For every helper of every architecture, byte order and pointer size: once the helper has stored its descriptor's address, the kernel's 64-bit read of rseq_cs gives that address, the descriptor is 32-byte aligned, passes every check the kernel makes (version, flags, address range, no wrap, abort address outside, signature), its abort address is the abort handler, and the instruction pointers the kernel restarts are exactly those within instructions from the start label up to the post-commit label. After rseq_clear_rseq_cs the kernel finds no section; a thread registered with another signature is killed. The debugger arrays point to a descriptor with the same content and to the exit labels. The instruction sequences that form the address yield it.", "quantifier": "every helper, 9 architectures (mips with its 3 instruction sets), both byte orders and pointer sizes where the headers support them, every instruction size, section address, memory content, number of exit points", "why_tests_cant": "A wrong half-word order, label or signature on an architecture shows only on that hardware, and only when the thread is interrupted inside the section.", "anchors": ["include/rseq/arch/generic/common.h: __RSEQ_ASM_DEFINE_TABLE, RSEQ_ASM_DEFINE_EXIT_POINT", "include/rseq/arch/*.h: RSEQ_SIG, RSEQ_ASM_U64_PTR, RSEQ_ASM_DEFINE_ABORT, RSEQ_ASM_DEFINE_TEARDOWN, RSEQ_ASM_STORE_RSEQ_CS", "include/rseq/abi.h: struct rseq_abi.rseq_cs", "include/rseq/rseq.h: rseq_clear_rseq_cs"]}
{"id": "C65", "title": "The barrier macros give release, acquire and full ordering on every architecture", "statement": "On each of the nine architectures: what happens before (program order, and hand-over from a store-release to a load-acquire or to a load, branch and rseq_smp_acquire__after_ctrl_dep, through any number of threads) never takes effect on memory after, so a load after a hand-over gets the handed-over value or a newer one; rseq_smp_wmb before a plain store publishes earlier stores to an acquiring or rseq_smp_rmb-separated reader; accesses separated by rseq_smp_mb behave sequentially; the test's per-CPU spinlock orders any two of its sections entirely, and a counter incremented under it loses no increment.", "quantifier": "every architecture, every run the architecture's memory model allows: any number of threads, operations, locations, values, lock sections", "why_tests_cant": "Tests run on one machine and cannot provoke the reorderings that its memory model permits; most targets are not available at all.", "anchors": ["include/rseq/arch/*.h: rseq_smp_mb, rseq_smp_rmb, rseq_smp_wmb, rseq_smp_load_acquire, rseq_smp_store_release, rseq_smp_acquire__after_ctrl_dep", "include/rseq/compiler.h: RSEQ_READ_ONCE, RSEQ_WRITE_ONCE", "src/rseq.c: rseq_init", "tests/basic_percpu_ops_test.c: rseq_this_cpu_lock, rseq_percpu_unlock, test_percpu_spinlock_thread", "tests/param_test.c: test_membarrier_manager_thread"]}
{"id": "C66", "title": "Creating a range leaves exactly the intended pages, or no trace", "statement": "rseq_mempool_range_create either yields a block of previously unused pages aligned on the stride with exactly the intended content (canary page, range structure, per-CPU private views, shared init values, free-list area) and fork flags, or NULL with address space, descriptors and heap as before, whichever of its steps failed; the memory object is closed again, no file page lies beyond its end, and no other page changes. It fails exactly when the limit on ranges is reached, the kernel refuses address space, the memory object, a mapping or a flag, the bitmap cannot be allocated or an init callback fails. The process dies only if the kernel refuses to unmap superfluous pages. The call agrees with the allocator's view of it.", "quantifier": "every valid configuration whose block fits the address space, word size, kernel answer (addresses, any failing call, holes left by failing fixed mappings), previous state of the process", "why_tests_cant": "Each error path needs a system call to fail at one particular step; leaks of descriptors or pages are invisible in the return value.", "anchors": ["src/rseq-mempool.c: rseq_mempool_range_create, rseq_memfd_create_init, rseq_memfd_close, aligned_mmap_anonymous, rseq_mempool_range_destroy"]}
{"id": "C67", "title": "Destroying a range, in the parent and in a forked child", "statement": "Destroying a range restores the address space, descriptors and heap to what they were before it was created. A forked child inherits of a COW_INIT range exactly the wiped canary page and the page with the range structure, and of a COW_ZERO range everything; the destroy it performs removes exactly what it inherited and no other page.", "quantifier": "every valid configuration, word size, kernel answer and previous state of the process", "why_tests_cant": "Unmapping a page that belongs to something else is invisible until that page is used.", "anchors": ["src/rseq-mempool.c: rseq_mempool_range_destroy, rseq_mempool_range_create, rseq_percpu_mempool_mappings_accessible"]}
{"id": "C68", "title": "All pools of a process together, down to pages, descriptors and heap", "statement": "In every history of creating, using and destroying any number of pools, interleaved with anything the rest of the program does outside pool memory: ranges never overlap (a consequence of the kernel returning unused addresses), every page of every range is exactly as intended with a memory object of its own per COW_INIT range, every other page and descriptor is as the rest of the program left it, one bitmap exists per range of a robust pool, and after the last pool is destroyed nothing of the pools remains. Create, allocate and destroy always return; an allocation returns NULL exactly when every slot is live and no range can be added.", "quantifier": "every number of pools, configurations, histories, kernel answers obeying the mmap contract", "why_tests_cant": "Histories and address-space layouts cannot be enumerated.", "anchors": ["src/rseq-mempool.c: rseq_mempool_create, rseq_mempool_destroy, rseq_mempool_range_create, rseq_mempool_range_destroy, __rseq_percpu_malloc, librseq_mempool_percpu_free"]}
{"id": "C69", "title": "Builds that compare twice behave like normal builds and never report a bug", "statement": "In builds with RSEQ_COMPARE_TWICE the repeated comparison of the CPU number and of the variables never fails, so no helper calls rseq_bug(), and every such execution is an execution of the normal build as far as memory and the threads' state are concerned: the helpers return 0, 1 or -1 with the same meaning, commit in a single step on the requested CPU or leave all but the attempt targets alone, and compute the pseudo-code when not interrupted. This holds if no other CPU stores into the words the section has read; a store between the two comparisons makes the helper abort the process.", "quantifier": "every helper of the nine architectures, plain and release, any number of threads, signals, migrations, sites, memory contents", "why_tests_cant": "The comparison block is in test builds only and its window is a few instructions; a misplaced label or clobbered register would show only on that architecture and interleaving.", "anchors": ["include/rseq/arch/*/bits.h: every helper, #ifdef RSEQ_COMPARE_TWICE", "include/rseq/utils.h: rseq_bug", "tests/Makefile.am: param_test_compare_twice, param_test_mm_cid_compare_twice"]}
{"id": "C70", "title": "Accessors read the calling thread's own area and return the current CPU, node and concurrency ID", "statement": "rseq_get_abi() is the area registered for the calling thread, whichever thread ran rseq_init and whether librseq or the C library owns the registration. On a registered thread rseq_cpu_start, rseq_current_cpu_raw and rseq_current_cpu give the CPU it runs on, rseq_current_node_id its node (aborting exactly if the node is reported unavailable) and rseq_current_mm_cid its concurrency ID if reported available. On a thread that is not registered cpu_id is -1 (-2 after a failed registration by the C library), cpu_id_start, node_id and mm_cid are 0, rseq_current_cpu falls back to sched_getcpu, and no comparison with a CPU number succeeds. rseq_cpu_start is a possible CPU on every thread. The assertion in rseq_register_current_thread holds. rseq_clear_rseq_cs stores NULL into the caller's rseq_cs pointer and changes nothing else.", "quantifier": "every number of threads, history of thread creation, exit, registration, unregistration and migration, thread pointers, area placement, byte order, address size; kernel structure fitting the area (feature size at most 32 when librseq owns it)", "why_tests_cant": "Depends on the history of all threads and on the kernel; byte order and address size vary between targets.", "anchors": ["include/rseq/rseq.h: rseq_get_abi, rseq_cpu_start, rseq_current_cpu_raw, rseq_current_cpu, rseq_current_node_id, rseq_current_mm_cid, rseq_clear_rseq_cs, rseq_prepare_unload", "src/rseq.c: __rseq_abi, rseq_init, rseq_register_current_thread, rseq_fallback_current_cpu, rseq_fallback_current_node", "include/rseq/abi.h: struct rseq_abi"]}
{"id": "C71", "title": "The kernel stores only into the threads' rseq areas", "statement": "Whatever feature size the kernel has (up to RSEQ_THREAD_AREA_ALLOC_SIZE), registering, running and unregistering threads makes the kernel change no byte outside the memory allocated for their rseq areas.", "quantifier": "every number of threads, history, kernel feature size up to 1024, area placement", "why_tests_cant": "Needs a kernel with a larger feature size than today's; the damage is to an unrelated thread-local variable.", "anchors": ["src/rseq.c: __rseq_abi, RSEQ_THREAD_AREA_ALLOC_SIZE, get_rseq_min_alloc_size, rseq_register_current_thread"]}
{"id": "C72", "title": "Items of a global pool used directly", "statement": "A pool created with rseq_mempool_attr_set_global has one instance of each item: live items are disjoint blocks of item size, aligned on it, inside mappings of the pool, in memory that is neither shared nor copied on write. A zeroed allocation reads zero, an initialised one reads the given bytes, at the pointer itself without indexing; allocating changes no live item; a direct store is read back and changes no other byte of any item; rseq_mempool_free finds the pool of the pointer when given the pool's stride, or nothing when the stride is the default, and changes no item of any other pool.", "quantifier": "every creation with the global attribute, history, word size, byte order, kernel answer, set of other pools", "why_tests_cant": "Histories and address-space layouts cannot be enumerated.", "anchors": ["include/rseq/mempool.h: rseq_mempool_malloc, rseq_mempool_zmalloc, rseq_mempool_malloc_init, rseq_mempool_free", "src/rseq-mempool.c: rseq_mempool_attr_set_global, rseq_mempool_create, librseq_mempool_percpu_free"]}
{"id": "C73", "title": "Destroy can be repeated after the kernel refused to unmap a range", "statement": "A destroy that kept the pool because munmap failed can be called again: the second call unmaps exactly the ranges left and frees the pool, so that both calls together unmap every range once.", "quantifier": "every configuration, history, kernel answer at each munmap, change of the rest of memory in between", "why_tests_cant": "munmap fails only under resource exhaustion, at one particular call.", "anchors": ["src/rseq-mempool.c: rseq_mempool_destroy, check_free_list, check_pool_poison, destroy_alloc_bitmap, rseq_mempool_range_destroy"]}
{"id": "C74", "title": "A robust pool reports the release of anything that is not a live item", "statement": "Freeing an address inside the memory of a robust pool aborts the process unless the address is the start of a live item.", "quantifier": "every robust configuration, history, address inside a range", "why_tests_cant": "Misuse at every address and in every state cannot be enumerated; the damage shows in another item.", "anchors": ["src/rseq-mempool.c: librseq_mempool_percpu_free, clear_alloc_slot"]}
{"id": "C75", "title": "The project's own pool tests pass on every configuration they may be given", "statement": "On the pools that make_test_pool creates, each of the six robust tests (double free, leak, poison corruption seen by malloc and by destroy, corrupted free list seen by destroy and by malloc) ends in an abort inside librseq, and destroying the pool in a forked child succeeds. The fill test, with any stride and any limit on the number of ranges, never aborts, makes exactly as many allocations as items fit in the ranges, finds value[0] zero on every CPU of every item, frees them all, reads back the initial values of an initialised item, and gets zero from rseq_mempool_destroy. Both populate policies.", "quantifier": "every page size, stride, limit on the ranges, placement of mappings, word size, byte order; every content of the list links; function address outside the pool; system that does not refuse memory while the pool may grow", "why_tests_cant": "The test program covers a handful of strides and limits on the machine it runs on.", "anchors": ["tests/mempool_test.c: test_mempool_fill, test_robust_double_free, test_robust_corrupt_after_free, test_robust_memory_leak, test_robust_free_list_corruption, test_robust_poison_corruption_malloc, test_robust_poison_corruption_destroy, make_test_pool, run_fork_destroy_pool_test", "src/rseq-mempool.c"]}
{"id": "C76", "title": "rseq(2) answers librseq as the registration model assumes, and rseq_available tells the truth without a filter", "statement": "For every kernel (before and after Linux 6.3, any feature size up to 1024), every recorded registration of the thread and every length that librseq passes: the registration call succeeds exactly if nothing is registered, the length is at least 32 and is 32 or covers the kernel's structure; the unregistration call succeeds exactly if the thread's own area is registered with this length and RSEQ_SIG; the query call fails with EINVAL or ENOSYS, so rseq_available(KERNEL) does not abort, is true exactly if the kernel implements the call, and changes no registration. Under a seccomp filter the answer is false for ENOSYS, true for EINVAL, and the process is aborted for any other error; registration returns -1 or, after an earlier success, aborts.", "quantifier": "all kernels, registrations, lengths, addresses and signatures; all filters", "why_tests_cant": "A test runs on one kernel with one feature size, and with one filter.", "anchors": ["src/rseq.c: sys_rseq, rseq_available, rseq_register_current_thread, rseq_unregister_current_thread, get_rseq_min_alloc_size", "include/rseq/rseq.h: rseq_available"]}
{"id": "C77", "title": "The registration tests of the project give the expected results on every system", "statement": "basic_test, unregistered_test, no_syscall_test, fork_test and syscall_errors_test, run as their scripts run them, end with all checks successful on every system with a correct kernel and tool chain, any set of CPUs and any initial content of memory, except: the last check of basic_test fails exactly if librseq owns the registration and the kernel's feature size exceeds 32; and no_syscall_test fails if the C library has registered the thread before the filter is installed. After fork the child is still registered: registering again there aborts it, unregistering has the same result as in the parent.", "quantifier": "all systems, CPU sets, feature sizes, memory contents", "why_tests_cant": "A test run covers one system.", "anchors": ["tests/basic_test.c", "tests/unregistered_test.c", "tests/no_syscall_test.c", "tests/run_no_syscall_test.tap", "tests/fork_test.c", "tests/syscall_errors_test.c", "src/rseq.c"]}
{"id": "C78", "title": "Pool sets are safe under any thread interleaving", "statement": "While any number of threads allocate from a pool set, add pools to it and free items, no thread crashes or aborts; items in use never share a byte; pools stay in the set and at most one per size is accepted; an allocation returns a fresh item of sufficient length or fails with ENOMEM; if it fails, or takes the item from a larger pool, then it has found every smaller pool with items of sufficient length that was in the set when it started without room at some moment during the call; it ends after at most one search and one allocation per pool size. Alone, a call computes what the sequential function computes.", "quantifier": "all numbers of threads, all interleavings of the critical sections, all histories, all answers of the system, 32 and 64 bits", "why_tests_cant": "A stress test sees few of the schedules between the search under the lock of the set and the allocation under the lock of the pool.", "anchors": ["src/rseq-mempool.c: __rseq_mempool_set_malloc, rseq_mempool_set_add_pool, librseq_mempool_percpu_free", "include/rseq/mempool.h: rseq_mempool_set_percpu_malloc"]}
{"id": "C79", "title": "A set allocation fails only at a moment without room", "statement": "rseq_mempool_set_percpu_malloc returns NULL with ENOMEM only if at some moment of the call no pool of the set with items of sufficient length has room.", "quantifier": "all interleavings", "why_tests_cant": "Needs a free and an allocation by another thread between two steps of the failing call.", "anchors": ["src/rseq-mempool.c: __rseq_mempool_set_malloc", "include/rseq/mempool.h: rseq_mempool_set_percpu_malloc (\"MT-safe\", \"ENOMEM if there is not enough space left\")"]}
{"id": "C80", "title": "Delay injection does not change what a helper does", "statement": "In a build with the injection macros of tests/param_test.c every helper of every architecture, for arbitrary contents of the loop counters: uninterrupted, it terminates with the effect and value of its pseudo-code or with -1 on another CPU; in any execution with preemption, migration, signals and other threads it has the guarantees of the normal build (0: one atomic update while on the CPU; -1: nothing but scratch stores; 1: the comparison failed while on the CPU), and leaves the registers outside its clobber list and the C locals as they were. Every such execution corresponds to one of the normal build with the same memory and kernel state.", "quantifier": "all architectures, helpers, arguments, register allocations, counter values, interleavings", "why_tests_cant": "The stress tests rely on it: they run the injected helpers and draw conclusions about the normal ones. A clobbered live register shows only for certain allocations by the compiler.", "anchors": ["tests/param_test.c: RSEQ_INJECT_ASM, RSEQ_INJECT_INPUT, RSEQ_INJECT_CLOBBER", "include/rseq/inject.h", "include/rseq/arch/*/bits.h", "include/rseq/arch/*.h: RSEQ_ASM_STORE_RSEQ_CS, RSEQ_ASM_CBNE_CPU_ID"]}
{"id": "C81", "title": "Delay injection and repeated comparisons together are harmless", "statement": "In a build with the injection macros and RSEQ_COMPARE_TWICE (param_test_compare_twice): the guarantees of the normal build hold, and no helper ever reaches rseq_bug(), however long the delays between the two comparisons, provided that no other thread stores into what a running section has read.", "quantifier": "all architectures, helpers, arguments, counter values, interleavings", "why_tests_cant": "The test passes if it has not failed so far; it cannot show that rseq_bug() is unreachable.", "anchors": ["tests/param_test.c: RSEQ_INJECT_ASM", "include/rseq/arch/*/bits.h: RSEQ_COMPARE_TWICE", "tests/Makefile.am"]}
{"id": "C82", "title": "Every helper call ends after a bounded number of instructions, whatever interrupts it", "statement": "A call of a critical-section helper executes at most as many of its own instructions as the helper has (at most 29, or 41 with RSEQ_COMPARE_TWICE) plus six for each byte to copy. This holds for any preemption, migration and signals at any points and for arbitrary stores by other threads into its data at any time. The kernel moves it to its abort handler at most once; a running call can always execute its next instruction or return; and from every state it can be in, left alone, it returns within the rest of the bound.", "quantifier": "all architectures, helpers, arguments, interleavings, stores by other threads; unbounded copy lengths", "why_tests_cant": "A loop that ends on every undisturbed run may still never end if another thread changes memory or if an abort leads back into the section; tests cannot show the absence of such schedules.", "anchors": ["include/rseq/arch/*/bits.h", "include/rseq/arch/*.h: RSEQ_ASM_DEFINE_TABLE, RSEQ_ASM_DEFINE_ABORT", "doc/man/rseq.2"]}
{"id": "C83", "title": "After rseq_prepare_unload a library with critical sections can be unloaded safely", "statement": "If a library (or JIT code) with critical sections is unloaded only when every thread that executed one of its sections has called rseq_prepare_unload() since its last one, and no thread is inside one, then the kernel never finds the address of an unmapped descriptor in the rseq_cs field of a thread, and no thread is in, or returns to, unmapped helper code; also if libraries are loaded again later.", "quantifier": "all programs, interleavings, signals, numbers of libraries and threads", "why_tests_cant": "Without the call the failure needs an interruption of a thread after the library has gone and before the thread executes another section.", "anchors": ["include/rseq/rseq.h: rseq_prepare_unload, rseq_clear_rseq_cs", "include/rseq/arch/*/bits.h"]}
{"id": "C84", "title": "Critical sections on pool items: pool and helpers keep their guarantees together, and counters from zmalloc count exactly", "statement": "Helpers called at rseq_percpu_ptr(p, cpu) for items p of a per-CPU pool, and allocations, frees and stores of other items of the same pool by all threads at the same time, do not disturb each other: the pool stays in a state its operations alone reach, no critical section is disturbed, and a helper changes only bytes of the item's instance for the CPU on which its thread is. A word of an item obtained from rseq_mempool_percpu_zmalloc, incremented with rseq_load_add_store on the current CPU's instance, sums over all CPUs to exactly the amounts of the calls that returned 0.", "quantifier": "all pool configurations, items, offsets, numbers of CPUs and threads, interleavings with preemption, migration, signals, aborts, pool operations; both word sizes and byte orders, all architectures", "why_tests_cant": "Needs the address computation of the pool, the zeroing of reused and copy-on-write memory, and the critical sections to be right together under every interleaving.", "anchors": ["src/rseq-mempool.c", "include/rseq/mempool.h: rseq_percpu_ptr", "include/rseq/arch/*/bits.h: rseq_load_add_store__ptr", "tests/basic_percpu_ops_test.c"]}
{"id": "C85", "title": "On weakly ordered architectures, per-CPU and handed-over data behave like one memory accessed step by step", "statement": "On each supported architecture, whatever reorderings it allows: if of any two conflicting accesses to a set of locations one happens before the other (same CPU, or the library's store-release and load-acquire or acquire-after-control-dependency, through any number of CPUs), then every order of all accesses that is compatible with happens-before explains the run on those locations: each load gets what a single memory holds at that point and the final values are those of that memory. In particular data accessed by each CPU alone needs no barrier, whatever races the CPUs have elsewhere, and neither does data accessed only inside lock sections need more than the lock's own barriers. Without the condition this is false on every architecture.", "quantifier": "all architectures, runs of any length on any number of CPUs, sets of locations, outcomes of races on other locations", "why_tests_cant": "Weak behaviours depend on the hardware and are rare; a test machine of one kind cannot show their absence on the others.", "anchors": ["include/rseq/arch/*.h: rseq_smp_load_acquire, rseq_smp_store_release, rseq_smp_acquire__after_ctrl_dep", "tests/basic_percpu_ops_test.c: rseq_this_cpu_lock, rseq_percpu_unlock"]}
{"id": "C86", "title": "A helper fails with -1 only for a cause, so that retry loops end", "statement": "A call of a critical-section helper (of the assembly function; the dispatch wrappers also return -1 for modes and orders without one) returns -1 exactly if the kernel moved it to its abort handler because its thread was scheduled or got a signal between the start of the section and the commit, or its comparison of the CPU number failed while the thread was not on the requested CPU. Hence, whatever other threads do: a registered thread that passes the CPU number on which it was when it read it gets -1 only if it has been scheduled or got a signal since, and k failed attempts of a retry loop need at least k of these events. From every reachable state a thread that then runs alone and uninterrupted completes its call with the effect and value of the pseudo-code, whatever the other threads were doing when they stopped.", "quantifier": "all architectures, helpers, arguments, interleavings with preemption, migration, signals; arbitrary stores by other threads", "why_tests_cant": "A spurious abort only makes a retry loop slower, and a loop that never ends needs an unbounded schedule: no test can tell either from bad luck.", "anchors": ["include/rseq/arch/*/bits.h", "include/rseq/arch/*.h: RSEQ_ASM_CBNE_CPU_ID, RSEQ_ASM_DEFINE_ABORT", "include/rseq/rseq.h: rseq_load_cbne_store__ptr and the others", "tests/basic_percpu_ops_test.c: retry loops"]}
{"id": "C87", "title": "Whatever races there are, a helper executes its pseudo-code access by access", "statement": "A call of a critical-section helper executes the accesses of its pseudo-code, in its order and each once, with addresses and values computed from what its own loads returned: completely if it returns 0 or 1, and only a part without the final store if it returns -1, all while its thread is on the requested CPU. This holds whatever other threads store between any two of its instructions. So a helper that returns 1 has seen, at one moment during the call, a value for which the pseudo-code returns 1, and one that returns 0 has compared successfully, stored exactly what it loaded plus the count, and copied every byte it stored. (The pop of aarch64, riscv and ppc loads the head once more than its pseudo-code.)", "quantifier": "all architectures, helpers, arguments, register assignments, interleavings with preemption, migration, signals; arbitrary stores by other threads; copies of any length", "why_tests_cant": "A wrong value that appears only if another thread stores between two particular instructions needs a schedule that tests do not control.", "anchors": ["include/rseq/pseudocode.h", "include/rseq/arch/*/bits.h"]}
{"id": "C88", "title": "A pop never hands out the value that means empty", "statement": "rseq_load_cbeq_store_add_load_store(v, expectnot, voffp, load) that returns 0 has stored into *load a value different from expectnot which *v had during the call, and has replaced *v by the word it loaded from that value plus voffp, also if other threads store into *v during the call. (False on aarch64, riscv and ppc.)", "quantifier": "all architectures, arguments, register assignments, interleavings; arbitrary stores by other threads", "why_tests_cant": "Only a store of another thread between two adjacent instructions of the section distinguishes the versions.", "anchors": ["include/rseq/pseudocode.h:62-77", "include/rseq/arch/aarch64/bits.h:93,99", "include/rseq/arch/riscv/bits.h:83,89", "include/rseq/arch/ppc/bits.h:103,112"]}
{"id": "C89", "title": "The spinlock test and the list test end with the sums they expect", "statement": "tests/basic_percpu_ops_test.c (and the spinlock test of param_test.c): when N threads have each run the loop lock, count++, unlock reps times, whatever the interleaving of the plain loads and stores of count++, of lock attempts, migrations and signals, the sum of all counters, added up as uint64_t, is reps * N, provided that the product fits an intptr_t; two threads are never between lock and unlock for the same CPU, and the assertion in rseq_percpu_unlock never fails. When every node popped by the threads of the list test has been pushed again, the final loops over all lists end, their sum is the sum of the data that were put on the lists, and all lists are empty.", "quantifier": "all numbers of threads, repetitions, CPUs and nodes, schedules with preemption, migration and signals, all architectures, both word sizes, both modes (cpu_id, mm_cid)", "why_tests_cant": "These are the tests: a run shows one schedule on one machine; a lost increment needs a particular interleaving.", "anchors": ["tests/basic_percpu_ops_test.c:81-171, 204-323", "tests/param_test.c:430-575", "include/rseq/rseq.h: rseq_load_cbne_store__ptr, rseq_load_cbeq_store_add_load_store__ptr"]}
{"id": "C90", "title": "param_test runs for every number of repetitions it accepts", "statement": "The loops of the spinlock test and of the increment test in tests/param_test.c have defined behaviour for every value of the option -r that the program accepts (all values not below 0). (False for 2 to 9.)", "quantifier": "all numbers of repetitions", "why_tests_cant": "The test scripts pass one fixed number.", "anchors": ["tests/param_test.c:484", "tests/param_test.c:598", "tests/param_test.c:1811-1820"]}
{"id": "C91", "title": "Every operation on a shared pool ends: bounded work, no deadlock, no retry", "statement": "Whatever any number of threads do with one pool at the same time: between the call and the return of an allocation (of any kind) or of a free, a thread takes at most (5 * max_nr_cpus + 4) * item_len + 3 * sizeof(void *) + 3 steps of its own (lock operations, byte accesses, page faults on private pages); other threads cannot make it repeat any. It can take its next step unless it waits for the pool lock while another thread is inside the locked part, and from every reachable state the operation of every thread can be completed by running at most two threads, the holder of the lock and then the thread itself, for at most twice that number of steps. So the lock is never left locked and threads never wait for each other in a circle.", "quantifier": "all configurations, numbers of threads, client programs that respect the interface, interleavings of byte accesses and page faults, loaded values", "why_tests_cant": "A lost unlock or a loop that another thread can prolong shows as a hang under a particular schedule, which a test cannot tell from slowness.", "anchors": ["src/rseq-mempool.c:269-403", "src/rseq-mempool.c:1052-1187"]}
{"id": "C92", "title": "tests/mempool_cow_race_test.c obeys the rules of the pool and reports exactly the lost init values", "statement": "In every execution of the test the writer stores only to an allocated item of an existing pool, both frees are of live items that nobody is storing to, the pool is destroyed empty and with nobody inside, and the threads never block each other: from every state both can be brought to their end. An iteration that passes its comparisons has shown that a copy-on-write of the page, running concurrently with malloc_init, did not make the item lose its init value; the test does not report \"Unexpected value\" if the library is right. (The last sentence is false: with the kernel's copy and page table switch as two steps the test can fail, and it can pass although the value is lost.)", "quantifier": "all interleavings of the two threads' accesses, of page faults in two phases and of the library's byte accesses; all pool configurations, init values and lengths", "why_tests_cant": "It is a test of a race: it samples schedules for ten seconds. Whether its own protocol is free of use after free, and whether passing means anything, is not tested by it.", "anchors": ["tests/mempool_cow_race_test.c:62-148", "src/rseq-mempool.c:302-327", "src/rseq-mempool.c:1052-1187"]}
{"id": "C93", "title": "The buffer tests of param_test never abort and end with the sums they expect", "statement": "tests/param_test.c, test_percpu_buffer and test_percpu_memcpy_buffer: N threads repeat: pop an item on the current CPU; if there was one, push it on the current CPU. While a thread has an item to push, no buffer is full, so that the abort after \"Should increase buffer size\" is never reached. What a thread has is what its last successful pop returned, also for items that are copied. When the threads have ended, the loops of the main thread, which pop with plain loads and stores, end for every CPU, their sum is the sum of the data put into the buffers at the start, modulo 2^64, and all buffers are empty.", "quantifier": "all numbers of threads, repetitions, CPUs and items, item sizes, schedules with preemption, migration and signals, all architectures, both word sizes and byte orders, both modes", "why_tests_cant": "These are the tests: a run shows one schedule on one machine; a lost or doubled item needs a particular interleaving.", "anchors": ["tests/param_test.c:887-1119", "tests/param_test.c:1121-1360", "include/rseq/rseq.h: rseq_load_cbne_store_store__ptr, rseq_load_cbne_load_cbne_store__ptr, rseq_load_cbne_memcpy_store__ptr"]}
{"id": "C94", "title": "Acquire loads and release stores transfer values of every integer type exactly", "statement": "For an object of 1, 2, 4 or 8 bytes, rseq_smp_load_acquire returns the value of the object, with the sign of its type, and rseq_smp_store_release leaves the object with the stored value converted to its type and changes no other byte, on every architecture and in both byte orders. (tests/unit/arch-mo.c checks this for one value per type.) On aarch64 an object of another size is not accessed at all: the load returns the uninitialised bytes of a local union and the store does nothing.", "quantifier": "all values, types, addresses, architectures and byte orders", "why_tests_cant": "The unit test checks one value per type on the machine it runs on; the aarch64 macros are the only ones with a case for each size, and big-endian aarch64 is rarely available. No test uses other sizes.", "anchors": ["include/rseq/arch/aarch64.h:45-106", "include/rseq/compiler.h:33-36", "include/rseq/compiler.h:70-93", "tests/unit/arch-mo.c"]}
{"id": "C95", "title": "The membarrier test never reports a failure and its lists count every increment", "statement": "tests/param_test.c, test_membarrier: while N workers increment, through the pointer percpu_list_ptr, the counter of their CPU in the active list, the manager repeatedly switches the pointer, calls the barrier for a CPU and remembers that CPU's counter in the list that is now inactive. Whenever it compares the counter with the remembered value (\"Membarrier test failed\"), also in the first iteration, they are equal. No increment is lost by the switches: at every moment the counters of both lists together are the increments of the calls that returned 0 and of those about to return, and at the end total_count is opt_threads * opt_reps.", "quantifier": "all numbers of threads, repetitions, CPUs and iterations, all choices of CPUs by rand(), all schedules with preemption, migration and signals; both modes (cpu_id, mm_cid); x86-64, the only architecture with the helper", "why_tests_cant": "It is the test: it samples schedules, and the window between a worker's load of the pointer and its final addition is a few instructions.", "anchors": ["tests/param_test.c:1407-1685", "include/rseq/arch/x86/bits.h:208-262"]}
{"id": "C96", "title": "The TAP driver accepts a test program exactly if its plan was met and every check came out as it should", "statement": "tests/utils/tap.c and tap-driver.sh: a program plans n tests (or none in advance), makes checks with ok, skip, todo_start and todo_end and ends with exit(exit_status()). The driver's verdict is PASS or SKIP exactly if as many checks were made as planned, every ordinary check passed and every check of a todo section failed, as expected. Applied to the test programs: each meets its plan unless a check fails, so unregistered_test, syscall_errors_test, no_syscall_test, basic_test, basic_percpu_ops_test and basic_percpu_benchmark are accepted exactly if their checks hold (or the system call is missing, where they skip), also when they end early. A second plan, a plan of zero tests and a missing plan are reported.", "quantifier": "all programs with fewer than 2^31 planned and made checks, all results of the checks", "why_tests_cant": "The tests rely on the library: if the counters or the numbering were wrong, failures would go unseen in every test at once. The tests do not test it, and runs on a healthy machine take only the paths without failures.", "anchors": ["tests/utils/tap.c", "tests/utils/tap-driver.sh:201-385", "tests/utils/tap-driver.sh:542-621", "tests/unregistered_test.c:31-55", "tests/syscall_errors_test.c:34-110", "tests/no_syscall_test.c:33-57", "tests/basic_percpu_ops_test.c:325-357", "tests/basic_percpu_benchmark.c:240-304", "tests/basic_test.c:78-110"]}
{"id": "C97", "title": "The exit status of a test program is 0 only if its checks passed", "statement": "The exit status a test program returns to its parent (run alone, without the TAP driver) is 0 exactly if the plan was met and no check failed; for fork_test also: only if the child ended by itself.", "quantifier": "all programs with fewer than 2^31 planned and made checks; all ways the child of fork_test can end", "why_tests_cant": "No test fails 256 times or has its child killed.", "anchors": ["tests/utils/tap.c:371-398", "tests/fork_test.c:49-96", "tests/utils/tap.sh:420-430", "tests/run_param_test.tap:92"]}
{"id": "C98", "title": "The benchmark's threads are all present during the measurement, each on its own CPU, and the benchmark ends", "statement": "tests/basic_percpu_benchmark.c: init_affinity fills the table with the allowed CPUs, each once; the shuffled order of the threads is a permutation; every thread takes an entry of the table that exists and no two take the same. While any thread is between the two meeting points, all nr_threads threads have arrived and none has passed the second one (the comment: number of threads >= number of possible CPUs for the entire test duration). If all threads could be created, none is stuck and the run ends after at most 11 nr_threads steps, spinning aside. If one pthread_create fails, which is not checked, no thread ever passes the first meeting point.", "quantifier": "all sets of allowed CPUs, all results of rand(), all numbers of threads below 2^31, all interleavings", "why_tests_cant": "The interleavings around the two counters cannot be enumerated by running the program, and a failing pthread_create does not occur in test runs.", "anchors": ["tests/basic_percpu_benchmark.c:81-128", "tests/basic_percpu_benchmark.c:141-238", "tests/basic_percpu_benchmark.c:261-273"]}
{"id": "C99", "title": "run_param_test.tap runs every program with every test in every configuration and reports every failure", "statement": "tests/run_param_test.tap (and _cxx): if param_test -c does not report the system call missing, the script runs each of its programs once with each of its tests in each of the 37 configurations (1184 runs; 518 for C++), in this order, whatever the runs do, and announces exactly that many tests. The TAP driver accepts the script exactly if every run ended with status 0, or with 2 (not available) if the program uses concurrency IDs. Without the system call it runs nothing and is skipped. Words given to the script after -- reach every command line; an option ends the script.", "quantifier": "all exit statuses of all runs, all numbers of threads and extra arguments", "why_tests_cant": "The script is what judges the test runs: a count or status handled wrongly there hides failures of the library, and a healthy machine never takes the failing paths.", "anchors": ["tests/run_param_test.tap:17-126", "tests/run_param_test_cxx.tap", "tests/utils/tap.sh:84-138", "tests/utils/tap.sh:164-224", "tests/utils/tap.sh:335-445", "tests/utils/utils.sh:12"]}
{"id": "C100", "title": "param_test reads its command line without leaving it and runs only with values in range", "statement": "tests/param_test.c, main: for every argument vector the option loop reads only words and bytes that exist. If the tests are run, then threads, modulo, sleep time and the -D divisor are at least 0 and below 2^31, repetitions at least 0 and below 2^63, and the test is one of the six. The command lines of run_param_test.tap set exactly the options of the intended configurations.", "quantifier": "all argument vectors; all numbers of threads below 2^31", "why_tests_cant": "The tests use a few dozen fixed command lines.", "anchors": ["tests/param_test.c:37-52", "tests/param_test.c:1730-1864", "tests/run_param_test.tap:24-126"]}
{"id": "C101", "title": "The delay options of param_test act at every N-th execution of their point, and every configuration tests something of its own", "statement": "RSEQ_INJECT_C(n): with -n -1 -m N, of the first k executions of the point in a thread floor(k/N) sleep, yield or raise the signal, and none without -m or with another value. The 37 configurations of run_param_test.tap differ in what the injected code does.", "quantifier": "all options and numbers of executions; all 37 configurations, helpers and architectures", "why_tests_cant": "Whether a delay took place is not visible in the result of a test.", "anchors": ["tests/param_test.c:284-304", "tests/run_param_test.tap:63-126", "include/rseq/inject.h", "include/rseq/arch/x86/bits.h:18"]}
{"id": "C102", "title": "Concurrent pool operations are linearizable to a last-in-first-out allocator", "statement": "With any number of threads allocating from and freeing to one pool, each call has exactly one effect, between its call and its return (the release of the pool lock), and the effects in the order in which they happen form a history of an atomic allocator: the last item given back is taken first; an item never used before is taken only if no item is free; a request is refused only if no item is free and every item of every range is in use; a return reports the effect of its own call. Hence an item is not taken twice without being given back in between, and the number of different items and ranges ever used is bounded by the number of items in use at one time.", "quantifier": "every number of threads, programs and schedules of single byte loads and stores, page faults of either kind", "why_tests_cant": "Schedules cannot be enumerated by tests; no test compares the order of results with a sequential allocator.", "anchors": ["src/rseq-mempool.c:1065-1110", "src/rseq-mempool.c:1163-1186"]}
{"id": "C103", "title": "Obedient programs never make a pool call perform an undefined signed subtraction", "statement": "rseq_cmp_item compares item words with the poison (or 0) by a subtraction of intptr_t values. For every pool and every history in which the program stores to live items only, no call of malloc, zmalloc, malloc_init, free or destroy computes a difference that does not fit an intptr_t.", "quantifier": "all configurations, word sizes and byte orders, histories of any length, all item contents", "why_tests_cant": "Compilers usually let the subtraction wrap, so a test sees no difference; tests store few of the 2^64 words.", "anchors": ["src/rseq-mempool.c:251-267", "src/rseq-mempool.c:269-300", "src/rseq-mempool.c:338-403", "src/rseq-mempool.c:1163-1187"]}
{"id": "C104", "title": "The spinlock and increment tests of param_test pass from pool creation to pool destruction", "statement": "If the pool and its zeroed item can be allocated, then however the threads of test_percpu_spinlock and test_percpu_inc are scheduled, preempted, migrated and interrupted, and whatever else the program does to the pool meanwhile: the assertion in the unlock function holds, no two threads are between lock and unlock of one CPU, the counters of all CPUs of the pool add up to opt_reps times the number of threads once every thread has finished, freeing the item succeeds and destroying the pool returns 0. Every step the threads can make on the memory of the pool is a step of this combined program.", "quantifier": "both word sizes and byte orders, every architecture, any number of threads, iterations (product below the range of intptr_t), CPUs and schedules, any concurrent use of other items", "why_tests_cant": "A run of the test shows one schedule; that it always ends with this sum, and that the pool and the critical sections do not disturb each other, is a statement about all of them.", "anchors": ["tests/param_test.c:431-575", "tests/param_test.c:577-683"]}
{"id": "C105", "title": "The list test of param_test passes from pool creation to pool destruction", "statement": "If the pool and its zeroed item can be allocated, and the nodes that malloc returns overlap neither each other nor local variables nor the pool: the loop that builds the lists computes expected_sum as the number of CPUs times 1 + ... + 100; however the threads of test_percpu_list are scheduled, preempted, migrated and interrupted, and whatever else the program does to the pool meanwhile, once every node is back in some list the loop that empties the lists terminates with sum == expected_sum; freeing the item succeeds and destroying the pool returns 0. Every step the helpers, the kernel and the plain stores to node->next can make on the memory is a step of this combined program.", "quantifier": "both word sizes and byte orders, every architecture, any number of threads, CPUs, nodes per CPU and schedules, any placement of nodes, any concurrent use of other items", "why_tests_cant": "A run of the test shows one schedule and one placement of the nodes; that no interleaving loses or duplicates a node while heads live in copy-on-write pool pages and nodes outside the pool is a statement about all of them.", "anchors": ["tests/param_test.c:684-885", "include/rseq/mempool.h:285-293"]}
{"id": "C106", "title": "The buffer tests of param_test pass from pool creation to pool destruction", "statement": "If the pool and its zeroed item can be allocated, and what malloc returns overlaps neither each other nor local variables nor the pool: the loops that fill the per-CPU buffers of test_percpu_buffer and test_percpu_memcpy_buffer store array, buflen and offset in the item and compute expected_sum as the number of CPUs times 1 + ... + 100, or times 3 + 5 + ... + 201; however the threads are scheduled, preempted, migrated and interrupted, and whatever else the program does to the pool meanwhile, no thread that has an item ever finds a full buffer (so none aborts), the fields array and buflen of every CPU stay as set, and once no thread has an item the loop that empties the buffers terminates with sum == expected_sum; freeing the item succeeds and destroying the pool returns 0. Every step the helpers, the kernel and stores to local variables can make on the memory is a step of this combined program.", "quantifier": "both word sizes and byte orders, every architecture, any number of threads, CPUs, items per CPU (product below 2^31) and schedules, any placement of arrays and nodes, any concurrent use of other items", "why_tests_cant": "A run shows one schedule; a full buffer or a lost item needs a particular migration, and tests cannot exclude that a critical section ever writes over the fields next to the offset it updates.", "anchors": ["tests/param_test.c:405-428", "tests/param_test.c:887-1119", "tests/param_test.c:1121-1360"]}
{"id": "C107", "title": "The spinlock, increment, list and buffer tests of param_test can end from every state they reach", "statement": "Whatever the threads of test_percpu_spinlock, test_percpu_inc, test_percpu_list, test_percpu_buffer or test_percpu_memcpy_buffer have done so far (preempted or interrupted anywhere inside helpers, migrated, with nested signal handlers, holding items, nodes or locks, with other items of the pool allocated and freed meanwhile): there is a way to schedule them, with steps of the helpers and the kernel only and no further signal, such that every thread leaves its helper and its handlers, gives back the lock, the nodes or the item it has, or has executed exactly its number of iterations; no lock stays taken; the main thread then computes the expected sum, and giving the item and the pool back succeeds. No execution gets stuck, so the asserts of the tests are not satisfied vacuously.", "quantifier": "both word sizes and byte orders, every architecture, any number of threads, CPUs, items and iterations (fitting an intptr_t), every reachable state", "why_tests_cant": "A test that hangs is only seen if a run happens to reach a state from which there is no way out; a finite number of runs does not visit all states.", "anchors": ["tests/param_test.c:469-575", "tests/param_test.c:594-685", "tests/param_test.c:685-885", "tests/param_test.c:887-1119", "tests/param_test.c:1121-1360"]}
{"id": "C108", "title": "Concurrent calls of the library never block each other for ever", "statement": "Whatever calls (allocate, free, create, destroy, pool-set add and allocate, register) any number of threads make on any pools and pool sets, with init callbacks that may themselves call the library: no group of threads ends up waiting for mutexes (pool locks, pool-set locks, the initialization lock) held within the group, and all calls can still return.", "quantifier": "all programs: any number of threads, pools, sets, callbacks and calls, every interleaving", "why_tests_cant": "A deadlock needs threads in particular places at the same time, and callbacks run with the lock held only when a pool grows; tests use no callback that calls the library.", "anchors": ["src/rseq-mempool.c:1053-1120", "src/rseq-mempool.c:1163-1187", "src/rseq-mempool.c:1220-1275", "src/rseq-mempool.c:740-862", "src/rseq.c:209-301", "include/rseq/mempool.h:434-450"]}
{"id": "C109", "title": "Library calls made in the child of a fork return", "statement": "In the child of a fork by any thread of a multi-threaded program, every library call (COW_ZERO pools are not among those that mempool.h says cannot be accessed from children; destroying is allowed for all) can return: no lock stays taken by a thread that does not exist in the child.", "quantifier": "all programs: any number of threads, pools and sets, a fork at any moment, any calls and new threads in the child", "why_tests_cant": "The fork must happen while another thread is between lock and unlock; the fork test of the project has one thread.", "anchors": ["src/rseq-mempool.c:1065-1110", "src/rseq-mempool.c:1172-1186", "src/rseq-mempool.c:890-924", "include/rseq/mempool.h:524-549", "tests/mempool_test.c:343-370"]}
{"id": "C110", "title": "Library calls made by signal handlers return", "statement": "If signal handlers call the library (allocate, free, create, destroy, pool-set add and allocate, register), then wherever they interrupt a thread, also inside another library call, all calls can still return.", "quantifier": "all programs: any number of threads, pools, sets, handlers, nested signals, every interleaving", "why_tests_cant": "The signal must arrive between lock and unlock of the same lock in the same thread, a window of a few instructions.", "anchors": ["src/rseq-mempool.c:1065-1110", "src/rseq-mempool.c:1172-1186", "src/rseq-mempool.c:1225-1233", "src/rseq-mempool.c:1249-1261", "src/rseq.c:217-300", "include/rseq/mempool.h:99-165"]}
{"id": "C111", "title": "A pool inherited by a forked child is consistent", "statement": "If a process with any number of threads forks while no thread holds the lock of a pool that is not COW_INIT, the child can go on using the pool: its threads never abort, an allocation never returns an item that was allocated, or was being allocated or freed by a thread the child does not have, allocated items keep the content they had in the parent, and new ones have their initial content. If the lock is held, no allocation of the child returns. Destroying the pool (of either policy) in the child succeeds exactly if it is not robust or nothing was allocated and no other thread was between allocation and return or in free; otherwise it aborts.", "quantifier": "all configurations, numbers of threads, schedules, moments of the fork, and everything the child does", "why_tests_cant": "The interesting moments (another thread between the unlock and the return of an allocation, or before the lock of a free) last a few instructions; the fork test has one thread.", "anchors": ["src/rseq-mempool.c:1065-1119", "src/rseq-mempool.c:1163-1188", "src/rseq-mempool.c:800-816", "src/rseq-mempool.c:890-924", "include/rseq/mempool.h:524-549", "tests/mempool_test.c:343-370"]}
{"id": "C112", "title": "The checks of mempool_test that run in a child pass exactly if the child behaves as intended", "statement": "A check of run_robust_tests passes exactly if the misuse it makes was reported by abort(); the fork check passes exactly if the child has destroyed the pool it inherited.", "quantifier": "both policies, all pools the test may get, all results of fork, waitpid, munmap and pool creation", "why_tests_cant": "These are the tests: whether they would notice a defect is not shown by running them on code without it.", "anchors": ["tests/mempool_test.c:279-310", "tests/mempool_test.c:312-332", "tests/mempool_test.c:334-370", "src/rseq-mempool.c:890-924"]}
{"id": "C113", "title": "mempool_test.c runs the tests its comments name, and passes exactly if all checks hold", "statement": "main of mempool_test.c runs the fill test once for each policy with 1, 2, 4, 8, 16 ranges and every power-of-two stride from the page size to below 64 kB, and with one range and every power-of-two stride from the larger of page size and 64 kB to below 4 MB. The library accepts the arguments of each of them. The test driver accepts the program exactly if every check (16 for a fill test, 6 robust checks for each policy, 2 fork checks) holds; a program that ends before its last check is never accepted, whatever its exit status.", "quantifier": "all page sizes that are powers of two, all results of the checks, all points where the program may end early", "why_tests_cant": "A run shows one page size (4 kB on most machines) and checks that hold.", "anchors": ["tests/mempool_test.c:372-404", "tests/mempool_test.c:39-137", "tests/mempool_test.c:312-332", "tests/utils/tap.c:172-180", "src/rseq-mempool.c:985-998"]}
{"id": "C114", "title": "mempool_test.c passes on this library", "statement": "On a system that grants what the program asks for (memory for its pools, processes), every fill test, robust check and fork check of mempool_test.c runs to its end with all checks true, in the order of main, and the test driver accepts the program: none of its aborts is reached and no check fails because of the library.", "quantifier": "all page sizes that are powers of two, both policies, all strides and numbers of ranges of main, all addresses the system may choose for the pools, 32 and 64 bits, both byte orders", "why_tests_cant": "A run has one page size, one word size and the addresses of one system.", "anchors": ["tests/mempool_test.c:39-137", "tests/mempool_test.c:279-332", "tests/mempool_test.c:343-370", "tests/mempool_test.c:372-404", "src/rseq-mempool.c:926-1026", "src/rseq-mempool.c:1053-1119"]}
{"id": "C115", "title": "The name of a pool never makes it fail, and its later ranges carry it", "statement": "For every name given to rseq_mempool_create, of any length, the name formatted for memfd_create stays inside its buffer, is terminated, and is never refused by the system call because of its length. The init memory of every range created after rseq_mempool_create has returned is named after the string given then (cut after 248 bytes, whole exactly up to 235 bytes of pool name), whatever the caller does to that string afterwards; the first range is always anonymous. Pools that are not COW_INIT ask for no name.", "quantifier": "all names, buffer contents, policies, numbers of ranges and failures of creation, all later changes of the caller's string", "why_tests_cant": "The tests use names of a few bytes and string constants, and never look at the names in /proc.", "anchors": ["src/rseq-mempool.c:701-728", "src/rseq-mempool.c:774-779", "src/rseq-mempool.c:1010-1019", "src/rseq-mempool.c:189-193", "include/rseq/mempool.h:85-86"]}
{"id": "C116", "title": "Any expression may be given as the stride of rseq_percpu_ptr", "statement": "rseq_percpu_ptr(ptr, cpu, stride) is ptr + cpu * stride, and rseq_mempool_free(ptr) frees what ptr points to, for every expression given as argument.", "quantifier": "all expressions of products, sums, shifts and conditionals over operands of any value, all CPUs, all word sizes", "why_tests_cant": "The tests give variables as arguments, for which the missing parentheses make no difference.", "anchors": ["include/rseq/mempool.h:259-260", "include/rseq/mempool.h:276-288", "include/rseq/compiler.h:96-104"]}
