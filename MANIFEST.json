{
 "claims": [
  {
   "property": "C01",
   "status": "partial",
   "theorems": [
    "Flame.C01_vector_history_partial",
    "Flame.C01_step",
    "Flame.C01_history_from",
    "Flame.C01_unit_capacity_diverges",
    "Flame.C01_eraseRange_nontrivial_ub",
    "Flame.C01_history_exact"
   ],
   "note": "Refinement to a mathematical sequence over all valid histories; the code violates the property when the capacity is 1 (append hangs) and for middle range erase of non-trivial elements (UB), both proved. Exact: a history inside the bounds completes with the right contents iff it never appends with capacity 1 and never erases a middle range of non-trivial elements (C01_history_exact)."
  },
  {
   "property": "C02",
   "status": "partial",
   "theorems": [
    "Flame.C02_append_completes_partial",
    "Flame.C02_append_to_copy_diverges",
    "Flame.C02_alloc_failure_diverges",
    "Flame.C02_append_to_moved_from_ub"
   ],
   "note": "Exact characterisation: append returns iff not (size = capacity = 1); violations proved."
  },
  {
   "property": "C03",
   "status": "partial",
   "theorems": [
    "Flame.C03_assign_empty_partial",
    "Flame.C03_assign_never_works",
    "Flame.C03_assign_diverges"
   ],
   "note": "The code violates the property for every non-empty source (proved); only empty sources are assigned correctly."
  },
  {
   "property": "C04",
   "status": "partial",
   "theorems": [
    "Flame.C04_sized_ctor_partial",
    "Flame.C04_resize_partial",
    "Flame.C04_resize_within_capacity",
    "Flame.C04_resize_to_capacity_violated",
    "Flame.C04_resize_unit_capacity_diverges",
    "Flame.C04_resize_exact"
   ],
   "note": "Vector(n) has size 3n/2; resize to exactly the capacity is a no-op; the remaining cases proved."
  },
  {
   "property": "C05",
   "status": "partial",
   "theorems": [
    "Flame.C05_static_vector_history_partial",
    "Flame.C05_static_vector_history_trivial",
    "Flame.C05_step",
    "Flame.C05_eraseRange_nontrivial_ub",
    "Flame.C05_history_exact"
   ],
   "note": "Complete for trivially assignable element types; for other types a middle range erase is UB in the code (proved), everything else proved. C05_history_exact gives the exact condition over whole histories."
  },
  {
   "property": "C06",
   "status": "proved",
   "theorems": [
    "Flame.C06_range_insert"
   ],
   "note": "Range insert all-or-nothing, range append adds the longest fitting prefix."
  },
  {
   "property": "C07",
   "status": "partial",
   "theorems": [
    "Flame.C07_static_array_eq",
    "Flame.C07_static_vector_eq_partial",
    "Flame.C07_static_vector_eq_violated"
   ],
   "note": "Pure array equality is exact; vector-mode operator== compares with the first element only (exact characterisation and counterexample proved)."
  },
  {
   "property": "C08",
   "status": "partial",
   "theorems": [
    "Flame.C08_copy_ctor_partial",
    "Flame.C08_assign_effect",
    "Flame.C08_assign_correct_iff",
    "Flame.C08_assign_violated",
    "Flame.C08_other_partial"
   ],
   "note": "Copy construction, construction from an initializer list and from another capacity proved; copy assignment and clone violate the property, exact effect proved. The move operations cannot be instantiated."
  },
  {
   "property": "C09",
   "status": "partial",
   "theorems": [
    "Flame.C09_circular_array_fifo_trivial",
    "Flame.C09_circular_array_fifo_partial",
    "Flame.C09_clean_nontrivial_ub",
    "Flame.C09_nontrivial_exact"
   ],
   "note": "Full refinement to a bounded queue for trivially destructible element types; for other types clean() of a non-empty array destroys a local copy twice (UB), everything else holds."
  },
  {
   "property": "C10",
   "status": "partial",
   "theorems": [
    "Flame.C10_const_view_partial",
    "Flame.C10_const_view_violated",
    "Flame.C10_move_assign_partial",
    "Flame.C10_assign_nonempty_ub"
   ],
   "note": "cbegin() starts at the storage, not at head: const iteration/copying is right iff the array is empty or head is at the start; both directions proved. operator= also lacks a return."
  },
  {
   "property": "C100",
   "status": "partial",
   "theorems": [
    "Flame.Alloc.C100_grow_partial",
    "Flame.Alloc.C100_no_memory_partial",
    "Flame.Alloc.C100_zero_violated",
    "Flame.Alloc.C100_overflow_violated",
    "Flame.Alloc.C100_null",
    "Flame.Alloc.C100_create_free",
    "Flame.Alloc.C100_exact"
   ],
   "note": "Proved for positive sizes that fit; size 0 returns null although the array is gone, sizes beyond 2^64 give a smaller block."
  },
  {
   "property": "C101",
   "status": "partial",
   "theorems": [
    "Flame.Alloc.C101_construct",
    "Flame.Alloc.C101_destroy",
    "Flame.Alloc.C101_pair_partial",
    "Flame.Alloc.C101_destroy_exact",
    "Flame.Alloc.C101_rvalue_violated"
   ],
   "note": "Pairing proved; destroy(null) is undefined, and an rvalue argument is copied instead of moved."
  },
  {
   "property": "C102",
   "status": "partial",
   "theorems": [
    "Flame.Life.C102_contents_partial",
    "Flame.Life.C102_writable",
    "Flame.Life.C102_destroy_twice",
    "Flame.Life.C102_destroy_violated"
   ],
   "note": "Contents proved; every list destroys the elements of its arguments twice."
  },
  {
   "property": "C103",
   "status": "partial",
   "theorems": [
    "Flame.Life.C103_once_partial",
    "Flame.Life.C103_never_ub",
    "Flame.Life.C103_copy_violated",
    "Flame.Life.C103_copies_exact"
   ],
   "note": "Exactly once for guards that are not copied; every copy runs the final call again."
  },
  {
   "property": "C104",
   "status": "partial",
   "theorems": [
    "Flame.Life.C104_never_destroyed",
    "Flame.Life.C104_leak_violated",
    "Flame.Life.C104_proper_partial",
    "Flame.Life.C104_copy_shares"
   ],
   "note": "Nothing constructed in aligned storage is ever destroyed by it; nothing is destroyed wrongly."
  },
  {
   "property": "C105",
   "status": "proved",
   "theorems": [
    "Flame.TypeList.C105_index",
    "Flame.TypeList.C105_index_pick",
    "Flame.TypeList.C105_in_pack"
   ],
   "note": "Index of first occurrence, round trip and membership for all packs."
  },
  {
   "property": "C106",
   "status": "partial",
   "theorems": [
    "Flame.TypeList.C106_distinct_partial",
    "Flame.TypeList.C106_rejected_partial",
    "Flame.TypeList.C106_two",
    "Flame.TypeList.C106_repeated_violated",
    "Flame.TypeList.C106_exact",
    "Flame.TypeList.C106_single_violated"
   ],
   "note": "Packs without repetition are accepted, but of those with repetition only the ones whose single repetition is the last two types are rejected (|| where && is needed); a pack of one type does not compile."
  },
  {
   "property": "C107",
   "status": "partial",
   "theorems": [
    "Flame.TypeList.C107_get_partial",
    "Flame.TypeList.C107_put",
    "Flame.TypeList.C107_move",
    "Flame.TypeList.C107_const_violated",
    "Flame.TypeList.C107_const_first"
   ],
   "note": "Non-const access, assignment and move are right; const access to a component other than the first fails."
  },
  {
   "property": "C108",
   "status": "partial",
   "theorems": [
    "Flame.Fifo.C108_end",
    "Flame.Fifo.C108_other_end_violated",
    "Flame.Fifo.C108_result",
    "Flame.Fifo.C108_progress",
    "Flame.Fifo.C108_returns_partial",
    "Flame.Fifo.C108_deadlock_violated",
    "Flame.Fifo.C108_ordinary_file_violated",
    "Flame.Fifo.C108_both_refused"
   ],
   "note": "The ends that are returned are right for all interleavings; the end not requested is reported as descriptor 0 with success; when the reader's end cannot be opened the function waits forever; an ordinary file counts as a pipe."
  },
  {
   "property": "C109",
   "status": "partial",
   "theorems": [
    "Flame.Fifo.C109_close_end",
    "Flame.Fifo.C109_reader_violated",
    "Flame.Fifo.C109_writer_partial",
    "Flame.Fifo.C109_foreign_violated"
   ],
   "note": "The writer's end is closed once; the reader's end is never closed; a pipe made for reading closes descriptor 0."
  },
  {
   "property": "C11",
   "status": "partial",
   "theorems": [
    "Flame.C11_circular_arithmetic_partial",
    "Flame.C11_postfix_violated",
    "Flame.C11_negative_violated",
    "Flame.C11_plus_exact",
    "Flame.C11_minus_exact"
   ],
   "note": "All arithmetic is modulo the ring for prefix forms and non-negative amounts; postfix ++/-- and negative amounts leave the ring."
  },
  {
   "property": "C110",
   "status": "partial",
   "theorems": [
    "Flame.TypeList.C110_pick_partial",
    "Flame.TypeList.C110_pick_end_violated",
    "Flame.TypeList.C110_pick_error"
   ],
   "note": "Right inside the pack; the index just behind the last type gives void instead of an error."
  },
  {
   "property": "C111",
   "status": "partial",
   "theorems": [
    "Flame.WinSpin.C111_exclusion_violated",
    "Flame.WinSpin.C111_try_violated",
    "Flame.WinSpin.C111_lock_returns_iff_taken",
    "Flame.WinSpin.C111_lock_never_waits",
    "Flame.WinSpin.C111_exclusion_partial",
    "Flame.WinSpin.C111_try_partial",
    "Flame.WinSpin.C111_unlock_partial",
    "Flame.WinSpin.C111_dead_violated"
   ],
   "note": "The lock does not exclude: lock returns exactly when the lock is taken, and tryLock is not atomic. Exclusion is proved only for tryLock and unlock calls that do not overlap."
  },
  {
   "property": "C112",
   "status": "partial",
   "theorems": [
    "Flame.WinMutex.C112_exclusion",
    "Flame.WinMutex.C112_lock_exact",
    "Flame.WinMutex.C112_try_exact",
    "Flame.WinMutex.C112_unlock_exact",
    "Flame.WinMutex.C112_unlock_free",
    "Flame.WinMutex.C112_success_means",
    "Flame.WinMutex.C112_relock_violated",
    "Flame.WinMutex.C112_foreign_unlock_violated",
    "Flame.WinMutex.C112_fail_exact"
   ],
   "note": "Proved for all schedules in which only holders unlock. Unlocking somebody else's mutex succeeds and breaks exclusion; locking twice waits for ever."
  },
  {
   "property": "C113",
   "status": "partial",
   "theorems": [
    "Flame.WinSema.C113_conservation",
    "Flame.WinSema.C113_no_overtake",
    "Flame.WinSema.C113_wait_exact",
    "Flame.WinSema.C113_init_violated",
    "Flame.WinSema.C113_post_violated",
    "Flame.WinSema.C113_value_partial",
    "Flame.WinSema.C113_query_alone",
    "Flame.WinSema.C113_value_violated",
    "Flame.WinSema.C113_failed_wait_violated",
    "Flame.WinSema.C113_finish_exact"
   ],
   "note": "Waits are counted right for all interleavings. Posts above the initial value and initial value 0 are refused; value() goes wrong after failed waits and when it overlaps with other calls."
  },
  {
   "property": "C114",
   "status": "partial",
   "theorems": [
    "Flame.WinThread.C114_handles_partial",
    "Flame.WinThread.C114_rerun_violated",
    "Flame.WinThread.C114_move_ctor_ub",
    "Flame.WinThread.C114_status",
    "Flame.WinThread.C114_failed_start",
    "Flame.WinThread.C114_outlives_partial",
    "Flame.WinThread.C114_move_violated",
    "Flame.WinThread.C114_detach_violated",
    "Flame.WinThread.C114_move_dangles",
    "Flame.WinThread.C114_detach_dangles",
    "Flame.C114_defined_exact",
    "Flame.C114_lost_exact"
   ],
   "note": "Proved without move construction (undefined), running twice (leaks) and, for the second half, moving or detaching running threads. C114_defined_exact and C114_lost_exact: over all histories, only move construction is undefined and only running an object that has a thread loses a handle."
  },
  {
   "property": "C115",
   "status": "partial",
   "theorems": [
    "Flame.WinEvents.C115_request_partial",
    "Flame.WinEvents.C115_connect_violated",
    "Flame.WinEvents.C115_close_violated",
    "Flame.WinEvents.C115_unknown_violated",
    "Flame.WinEvents.C115_status"
   ],
   "note": "CONNECT is never asked for (a function pointer is tested instead of its result); nobody is told about closed connections; unknown descriptors ask for everything."
  },
  {
   "property": "C116",
   "status": "partial",
   "theorems": [
    "Flame.WinEvents.C116_dispatch_data",
    "Flame.WinEvents.C116_dispatch_accept",
    "Flame.WinEvents.C116_error_violated",
    "Flame.WinEvents.C116_spurious_violated",
    "Flame.WinEvents.C116_connections",
    "Flame.WinEvents.C116_all_connections",
    "Flame.WinEvents.C116_all_data",
    "Flame.WinEvents.C116_no_starvation",
    "Flame.WinEvents.C116_loop_ends",
    "Flame.WinEvents.C116_shutdown",
    "Flame.WinEvents.C116_shutdown_violated",
    "Flame.WinEvents.C116_dispatched"
   ],
   "note": "Delivery is proved for all histories with each descriptor registered once. Messages with an error are dropped silently, and without a window the thread is never told to end."
  },
  {
   "property": "C117",
   "status": "partial",
   "theorems": [
    "Flame.WinPipe.C117_reader_destroy",
    "Flame.WinPipe.C117_writer_destroy",
    "Flame.WinPipe.C117_borrowed_violated",
    "Flame.WinPipe.C117_given_up_violated",
    "Flame.WinPipe.C117_owned_violated",
    "Flame.WinPipe.C117_default_ub",
    "Flame.WinPipe.C117_handles_partial",
    "Flame.WinPipe.C117_assign_violated",
    "Flame.WinPipe.C117_stream_destroy",
    "Flame.WinPipe.C117_stream_borrowed_violated",
    "Flame.WinPipe.C117_stream_open_violated",
    "Flame.WinPipe.C117_stream_reopen_violated",
    "Flame.WinPipe.C117_stream_open",
    "Flame.C117_replace"
   ],
   "note": "Proved for objects made from names, moved and reopened; borrowed handles are closed, assignment and half failed opening leak, default constructed objects cannot be used."
  },
  {
   "property": "C118",
   "status": "partial",
   "theorems": [
    "Flame.WinFifo.C118_both_iff",
    "Flame.WinFifo.C118_handles",
    "Flame.WinFifo.C118_race_violated",
    "Flame.WinFifo.C118_hang_violated",
    "Flame.WinFifo.C118_ctor_violated",
    "Flame.WinFifo.C118_foreign_violated",
    "Flame.WinFifo.C118_partial",
    "Flame.C118_failures"
   ],
   "note": "Both ends are returned exactly if the second thread connects while the first waits; if it is faster the call fails and leaks, or never returns."
  },
  {
   "property": "C119",
   "status": "partial",
   "theorems": [
    "Flame.WinPipe.C119_ctor_ub",
    "Flame.WinPipe.C119_status_violated",
    "Flame.WinPipe.C119_handles_partial",
    "Flame.WinPipe.C119_moved_status_ub",
    "Flame.WinPipe.C119_assign_violated",
    "Flame.C119_assign"
   ],
   "note": "Reads an unwritten flag; the status is inverted; the ends are closed once if the flag reads as something and nothing is assigned over."
  },
  {
   "property": "C12",
   "status": "partial",
   "theorems": [
    "Flame.C12_index_iff_partial",
    "Flame.C12_index_out_of_ring",
    "Flame.C12_index_wrong_slot"
   ],
   "note": "Exact characterisation of when it[k] is the right slot; wrong as soon as the move wraps (except one accidental case)."
  },
  {
   "property": "C120",
   "status": "partial",
   "theorems": [
    "Flame.WinSock.C120_create_exact",
    "Flame.WinSock.C120_bind_violated",
    "Flame.WinSock.C120_open_partial",
    "Flame.WinSock.C120_destroy",
    "Flame.WinSock.C120_startup",
    "Flame.WinSock.C120_startup_retried",
    "Flame.WinSock.C120_client_partial",
    "Flame.WinSock.C120_bad_address_violated",
    "Flame.WinSock.C120_reconnect_violated",
    "Flame.WinSock.C120_query_partial",
    "Flame.WinSock.C120_failed_flag",
    "Flame.WinSock.C120_failed_query_violated",
    "Flame.WinSock.C120_is_server",
    "Flame.C120_server",
    "Flame.WinSock.C120_destroy_stale",
    "Flame.WinSock.C120_asks",
    "Flame.WinSock.C120_reconnect_exact"
   ],
   "note": "A server whose address cannot be bound leaks its socket; clients for unacceptable addresses are made and address nothing; failed queries may read as success. The rest holds."
  },
  {
   "property": "C121",
   "status": "partial",
   "theorems": [
    "Flame.WinNet.C121_receive_exact",
    "Flame.WinNet.C121_long_lost_violated",
    "Flame.WinNet.C121_reply_after_failure_ub",
    "Flame.WinNet.C121_reply_to_lost_violated",
    "Flame.WinNet.C121_wait",
    "Flame.WinNet.C121_as_posix_partial",
    "Flame.WinNet.C121_reply_partial"
   ],
   "note": "Datagrams longer than the buffer are lost with an error, after which a reply is undefined or goes to the wrong peer; otherwise as on POSIX (refinement)."
  },
  {
   "property": "C122",
   "status": "partial",
   "theorems": [
    "Flame.WinNet.C122_alive_exact",
    "Flame.WinNet.C122_broken_violated",
    "Flame.WinNet.C122_transfer_partial",
    "Flame.WinNet.C122_large_violated",
    "Flame.WinNet.C122_multiple_violated",
    "Flame.WinNet.C122_transfer_exact"
   ],
   "note": "Probing an idle connection blocks, a broken one is alive; transfers are exact below 2^31 bytes, above they are refused or move nothing."
  },
  {
   "property": "C123",
   "status": "partial",
   "theorems": [
    "Flame.C123_streams_partial",
    "Flame.C123_refines_posix",
    "Flame.C123_default_ub",
    "Flame.C123_ub_iff",
    "Flame.C123_assign_leaks",
    "Flame.C123_transfers_like_posix",
    "Flame.C123_long_range_violated",
    "Flame.C123_long_range_exact"
   ],
   "note": "Default constructed streams read an unwritten flag when destroyed, assigned a handle or moved from; assignment over an owner leaks; lengths are taken modulo 2^32. Everything else refines the POSIX model."
  },
  {
   "property": "C124",
   "status": "partial",
   "theorems": [
    "Flame.C124_text_violated",
    "Flame.C124_null",
    "Flame.C124_text_iff",
    "Flame.C124_refused_violated",
    "Flame.C124_accepted_iff",
    "Flame.C124_unterminated_ub",
    "Flame.C124_getAddress_violated",
    "Flame.C124_v6_text_ub",
    "Flame.C124_copy_partial"
   ],
   "note": "Copying and assignment preserve the address. Every text gives 0.0.0.0; dotted texts are refused, texts with three colons are accepted; getAddress is always empty; an Ipv6 made from a text is uninitialised."
  },
  {
   "property": "C125",
   "status": "partial",
   "theorems": [
    "Flame.C125_blocks_partial",
    "Flame.C125_always_empty",
    "Flame.C125_range_violated",
    "Flame.C125_no_memory_violated",
    "Flame.C125_copy_violated",
    "Flame.C125_default_violated",
    "Flame.C125_move",
    "Flame.C125_ub_iff",
    "Flame.CVecIt.C125_iterator_forward",
    "Flame.CVecIt.C125_iterator_back",
    "Flame.CVecIt.C125_iterator_no_end_violated",
    "Flame.CVecIt.C125_iterator_ub_exact"
   ],
   "note": "Blocks are freed exactly once and moves hand over everything. No history puts an element into a circular vector; copies have no room; an empty one has capacity 2^64-1; assignments are undefined (no return). Its iterators step modulo the storage (the constructor that would make one does not compile), so the ring has no end to stop at."
  },
  {
   "property": "C126",
   "status": "partial",
   "theorems": [
    "Flame.C126_dispatch",
    "Flame.C126_distinct",
    "Flame.C126_lists",
    "Flame.C126_copied_list_ub"
   ],
   "note": "True of the exports and of both lists as constructed; in a copy of the 3.0 list C_MessageDecryptInit is an indeterminate pointer."
  },
  {
   "property": "C127",
   "status": "partial",
   "theorems": [
    "Flame.C127_nothing_violated",
    "Flame.C127_verdict_violated",
    "Flame.C127_result_violated",
    "Flame.C127_history_violated"
   ],
   "note": "False for 87 of the 92 functions: they answer OK and do nothing. The remaining five are C94. Stated exactly for all arguments, memories and histories."
  },
  {
   "property": "C128",
   "status": "partial",
   "theorems": [
    "Flame.C128_array_partial",
    "Flame.C128_vector_partial",
    "Flame.C128_string_partial",
    "Flame.C128_from",
    "Flame.C128_before_first_ub",
    "Flame.C128_until"
   ],
   "note": "Order proved with pointers taken as addresses; by the language's rules every backward traversal is undefined because rend() is the pointer before the first element."
  },
  {
   "property": "C129",
   "status": "partial",
   "theorems": [
    "Flame.PkEnum.C129_membership",
    "Flame.PkEnum.C129_injective",
    "Flame.PkEnum.C129_intersection",
    "Flame.PkEnum.C129_zero_violated",
    "Flame.PkEnum.C129_zero_which"
   ],
   "note": "Proved for all flags that are not zero and all their combinations; the three zero enumerators are refuted (always or never found, depending on the test)."
  },
  {
   "property": "C13",
   "status": "partial",
   "theorems": [
    "Flame.C13_reverse_partial",
    "Flame.C13_reverse_compare_violated",
    "Flame.C13_reverse_difference_violated"
   ],
   "note": "Movement and comparisons of different positions hold; comparisons of equal positions and differences are wrong."
  },
  {
   "property": "C130",
   "status": "partial",
   "theorems": [
    "Flame.PkEnum.C130_distinct_partial",
    "Flame.PkEnum.C130_shared_violated",
    "Flame.PkEnum.C130_fits"
   ],
   "note": "All enumerations but Version, SpecialValue and Attribute have distinct values; the three shared pairs are listed; ranges proved for all."
  },
  {
   "property": "C131",
   "status": "partial",
   "theorems": [
    "Flame.C131_copy_partial",
    "Flame.C131_clone",
    "Flame.C131_move_partial",
    "Flame.C131_assign_partial",
    "Flame.C131_self",
    "Flame.C131_from_container",
    "Flame.C131_capacity",
    "Flame.C131_independent_partial",
    "Flame.C131_assign_empty_violated",
    "Flame.C131_append_to_moved_from_ub",
    "Flame.C131_append_to_copy_diverges"
   ],
   "note": "Copies show the same sequence and develop independently. Assigning a container without storage leaves the target unchanged; appending to a copy of a one-element heap storage never ends; appending to a container moved from heap storage is undefined. The four operator= taking an Array or Vector have no return statement (undefined when used) and are not modelled."
  },
  {
   "property": "C132",
   "status": "partial",
   "theorems": [
    "Flame.C132_integers_partial",
    "Flame.C132_read_partial",
    "Flame.C132_forward_partial",
    "Flame.C132_backward_partial",
    "Flame.C132_unset_violated",
    "Flame.C132_stale",
    "Flame.C132_stale_after_append",
    "Flame.C132_insert",
    "Flame.C132_stale_insert"
   ],
   "note": "Holds for every container with storage; fails for one without (new, reset, last element erased): its iterators differ from themselves and traversal dereferences null. ConstIterator does not compile when made from an array iterator."
  },
  {
   "property": "C133",
   "status": "partial",
   "theorems": [
    "Flame.C133_tcp_exact",
    "Flame.C133_returns_partial",
    "Flame.C133_sticky_violated",
    "Flame.C133_udp_exact",
    "Flame.C133_accepted_exact",
    "Flame.C133_accept_exact",
    "Flame.C133_peer_exact",
    "Flame.C133_bool_exact",
    "Flame.C133_bool_violated",
    "Flame.C133_reconnect"
   ],
   "note": "Exact characterisation after every history. The status is sticky: transfers never clear it (only connecting or disconnecting does, and UDP clients never recover); a disconnected client and a client without a socket convert to true. UDP peers do report their last call."
  },
  {
   "property": "C134",
   "status": "partial",
   "theorems": [
    "Flame.Notify.C134_safe_partial",
    "Flame.Notify.C134_faithful_partial",
    "Flame.Notify.C134_notify_exact",
    "Flame.Notify.C134_unset_ub",
    "Flame.Notify.C134_late_violated",
    "Flame.Notify.C134_destroy_ub",
    "Flame.Notify.C134_forgotten_ub"
   ],
   "note": "Proved for every interleaving in which unsetting, destroying (and, for faithfulness, setting) wait until no thread is inside notify; the code offers no way to wait. Otherwise violated: unsetting between the test and the use of the pointer dereferences null, a notificator can be called after unsetNotificator returned, and destroying it then is undefined."
  },
  {
   "property": "C135",
   "status": "partial",
   "theorems": [
    "Flame.Mech.C135_default_exact",
    "Flame.Mech.C135_dispatch_exact",
    "Flame.Mech.C135_answers_partial",
    "Flame.Mech.C135_slice_ub",
    "Flame.Mech.C135_assign_ub"
   ],
   "note": "Default answers and dispatch are exact. Every query is answered as long as objects of derived classes are copied and assigned only within their class; the implicit public copy operations allow more, and then overridden queries call a derived class's callback for an object of another class."
  },
  {
   "property": "C136",
   "status": "partial",
   "theorems": [
    "Flame.Builder.C136_test_inverted",
    "Flame.Builder.C136_result_exact",
    "Flame.Builder.C136_fresh_ub",
    "Flame.Builder.C136_braces_exact",
    "Flame.Builder.C136_args_ub"
   ],
   "note": "The test is the negation of success for every step; an unexecuted step has an indeterminate error; the constructor with arguments calls into a derived object that does not exist yet. getResult is exact."
  },
  {
   "property": "C137",
   "status": "partial",
   "theorems": [
    "Flame.SVec.C137_append_own",
    "Flame.SVec.C137_insert_own",
    "Flame.SVec.C137_insert_own_violated",
    "Flame.SVec.C137_insertRange_own",
    "Flame.SVec.C137_full_own"
   ],
   "note": "True for appending and for sources before the position (and at it, for types whose moved-from value stays); behind the position the element one place earlier is inserted, and ranges are repeated, unspecified or taken too early (exact contents proved for every case)."
  },
  {
   "property": "C138",
   "status": "partial",
   "theorems": [
    "Flame.C138_append_partial",
    "Flame.C138_assign_exact",
    "Flame.C138_insert_exact",
    "Flame.C138_insert_violated",
    "Flame.C138_range_exact"
   ],
   "note": "True for appending a character, for appending own text with room to spare, for sources up to the insert position and for assigning a proper suffix; s = s.data() and s = move(s) empty the string, sources behind the position are taken after the shift, calls without room read freed storage or never return. Every case exact."
  },
  {
   "property": "C139",
   "status": "partial",
   "theorems": [
    "Flame.C139_range_partial",
    "Flame.C139_element",
    "Flame.C139_empty_violated",
    "Flame.C139_exact"
   ],
   "note": "True for every nonempty list: ranges and elements of the list itself or another one, any position. Missing: the range of an empty list, whose begin() is null: counting it is undefined (C139_empty_violated)."
  },
  {
   "property": "C14",
   "status": "partial",
   "theorems": [
    "Flame.C14_step",
    "Flame.C14_observe",
    "Flame.C14_history_partial",
    "Flame.C14_independent",
    "Flame.C14_empty_violated",
    "Flame.C14_insert_empty_violated",
    "Flame.C14_popBack_last_violated",
    "Flame.C14_popFront_last_violated",
    "Flame.C14_erase_last_violated",
    "Flame.C14_erase_empty_range_diverges",
    "Flame.C14_history_violated",
    "Flame.C14_append_range_partial",
    "Flame.C14_append_range_violated",
    "Flame.C14_step_exact",
    "Flame.C14_history_exact"
   ],
   "note": "Refinement to plain lists for every history inside ListSpec.safe; the excluded calls (empty list size/iteration/insert, popping the only element, erase of the last element by iterator, empty range at end) are proved undefined or divergent."
  },
  {
   "property": "C140",
   "status": "partial",
   "theorems": [
    "Flame.C140_push_exact",
    "Flame.C140_insert_exact",
    "Flame.C140_range_exact",
    "Flame.C140_violated"
   ],
   "note": "Exact result of every such call: correct with a slot left and the element or range before the position; a full inline array (or a range that exactly fills it) is destroyed before the argument is read; elements behind the position arrive as their predecessor; ranges around the position repeat a part."
  },
  {
   "property": "C141",
   "status": "partial",
   "theorems": [
    "Flame.C141_array",
    "Flame.C141_vector",
    "Flame.C141_hybrid_exact",
    "Flame.C141_hybrid_violated",
    "Flame.C141_circular_push",
    "Flame.C141_circular_emplace_exact",
    "Flame.C141_circular_lost_violated",
    "Flame.C141_variant_exact",
    "Flame.C141_variant_violated",
    "Flame.C141_variant_reach",
    "Flame.C141_variant_constRvalue",
    "Flame.C141_object_exact",
    "Flame.C141_object_violated"
   ],
   "note": "True of Array and Vector (pushBack, emplaceBack, emplace) and CircularArray::pushBack in every state. False of HybridVector and CircularArray emplacing, Variant::set, Variant(x) and Object(x): they move from a named variable (exact theorems say when); a full CircularArray loses an emplaced value. A const rvalue given to Variant::set leaves the variant unset."
  },
  {
   "property": "C142",
   "status": "partial",
   "theorems": [
    "Flame.C142_const_shares",
    "Flame.C142_named_violated",
    "Flame.C142_named_null_ub",
    "Flame.C142_unique_violated"
   ],
   "note": "True when the copied SharedPointer is const. False for an ordinary variable: the variadic constructor is chosen and, for arithmetic element types, makes a new object of value 1; UniquePointer can be 'copied' the same way. For other element types such a copy does not compile."
  },
  {
   "property": "C143",
   "status": "partial",
   "theorems": [
    "Flame.TypeMod.C143_removeAll_exact",
    "Flame.TypeMod.C143_removeAll_violated",
    "Flame.TypeMod.C143_remove_one",
    "Flame.TypeMod.C143_pointer_exact",
    "Flame.TypeMod.C143_pointer_only",
    "Flame.TypeMod.C143_pointer_violated",
    "Flame.TypeMod.C143_add_exact",
    "Flame.TypeMod.C143_addVolatile_violated",
    "Flame.TypeMod.C143_add_violated",
    "Flame.TypeMod.C143_integral_exact",
    "Flame.TypeMod.C143_integral_violated",
    "Flame.TypeMod.C143_sign_exact",
    "Flame.TypeMod.C143_sign_violated",
    "Flame.TypeMod.C143_limits_exact",
    "Flame.TypeMod.C143_limits_violated",
    "Flame.TypeMod.C143_variant_exact",
    "Flame.TypeMod.C143_variant_const_exact",
    "Flame.TypeMod.C143_variant_violated",
    "Flame.TypeMod.C143_initlist_exact",
    "Flame.TypeMod.C143_initlist_violated"
   ],
   "note": "RemoveAllTrait is exact for every type without a level that is both const and volatile and does not compile otherwise; single removals are exact; a const or volatile pointer is not seen as a pointer; AddVolatileTrait yields a volatile pointer; the Add traits do not accept references; a qualified integer type (and char) is neither signed nor unsigned and MakeSigned/MakeUnsigned return it unchanged; const integers have no limits; a pointer kept in a Variant cannot be read by type and an InitializerList of pointers accepts nothing."
  },
  {
   "property": "C144",
   "status": "partial",
   "theorems": [
    "Flame.C144_shared_exact",
    "Flame.C144_shared_guards_nothing",
    "Flame.C144_shared_empty_ub",
    "Flame.C144_shared_null_true",
    "Flame.C144_shared_flat_exact",
    "Flame.C144_unique_exact",
    "Flame.C144_unique_guards",
    "Flame.C144_optional_exact",
    "Flame.C144_object_exact"
   ],
   "note": "True for UniquePointer and Optional in all reachable states. False for SharedPointer: operator bool computes &members->object, so it never answers false; it is undefined exactly when dereferencing is (null, dangling, indeterminate), and on a machine that just adds the offset a null pointer tests true."
  },
  {
   "property": "C145",
   "status": "partial",
   "theorems": [
    "Flame.C145_optional_exact",
    "Flame.C145_optional_right_iff",
    "Flame.C145_optional_number",
    "Flame.C145_shared_exact",
    "Flame.C145_unique_violated",
    "Flame.C145_unique_right_iff",
    "Flame.C145_ipv4_exact",
    "Flame.C145_ipv4_violated",
    "Flame.C145_accepted_eq",
    "Flame.C145_accepted_neither",
    "Flame.C145_accepted_ne_iff"
   ],
   "note": "Only == of AcceptedConnection is a real comparison. Everything else converts both operands to bool and compares the results: exact characterisations of the answers and of when they happen to be right."
  },
  {
   "property": "C146",
   "status": "partial",
   "theorems": [
    "Flame.C146_common_exact",
    "Flame.C146_common_lost",
    "Flame.C146_common_argument",
    "Flame.C146_common_drop_ub",
    "Flame.C146_templates_kept",
    "Flame.C146_templates_new_value",
    "Flame.C146_templates_both_called",
    "Flame.C146_templates_argument",
    "Flame.C146_common_empty",
    "Flame.C146_templates_other"
   ],
   "note": "True for templates::Expected (for arbitrary handlers; the argument itself is gone after the assignment). False for flame_ide::Expected: the state is set to UNKNOWN after the handler whatever it did, so the new value is lost and never destroyed."
  },
  {
   "property": "C147",
   "status": "partial",
   "theorems": [
    "Flame.C147_conserved_partial",
    "Flame.C147_bound_partial",
    "Flame.C147_admission_partial",
    "Flame.C147_account",
    "Flame.C147_signal_violated",
    "Flame.C147_permits_grow",
    "Flame.C147_restored_iff",
    "Flame.C147_relock"
   ],
   "note": "Proved while no wait is interrupted by a signal and UniqueLocker is not unlocked without holding, locked twice or constructed with UNLOCK. With signals it is false: an interrupted sem_wait lets the thread in without a permit, any number of threads can be inside at once, and each of them adds a permit when it leaves. The account of permits is proved for all runs."
  },
  {
   "property": "C148",
   "status": "partial",
   "theorems": [
    "Flame.C148_early_data_never_reported",
    "Flame.C148_wrong_descriptor",
    "Flame.C148_registered_partial",
    "Flame.C148_only_registered_partial"
   ],
   "note": "False for data that arrives before the third fcntl call: it is never reported (or reported as an event of descriptor 0), for every history. Proved for data after registration and, except for descriptor 0, that only registered descriptors are reported."
  },
  {
   "property": "C149",
   "status": "partial",
   "theorems": [
    "Flame.C149_handed_over_partial",
    "Flame.C149_full_queue_leaks",
    "Flame.C149_clear_leaks",
    "Flame.C149_lost_exact"
   ],
   "note": "Proved while no connection is accepted with the queue full. A connection accepted with the queue full stays open for ever and its descriptor is never given to anybody, for every history before and after. C149_lost_exact says which connections of any history are given to nobody: exactly those accepted while the queue was full and those waiting at a clear."
  },
  {
   "property": "C15",
   "status": "partial",
   "theorems": [
    "Flame.C15_copy_partial",
    "Flame.C15_move_partial",
    "Flame.C15_moveAssign_partial",
    "Flame.C15_empty_violated",
    "Flame.C15_moveAssign_violated",
    "Flame.C15_init_partial",
    "Flame.C15_init_empty_violated",
    "Flame.C15_clone_partial",
    "Flame.C15_exact"
   ],
   "note": "True for nonempty sources; from an empty list (or self move) the code is undefined. Copy assignment does not compile and is not modelled. C15_exact: for two different objects each of copy construction, move construction and move assignment is right exactly if the source is not empty, construction from an initializer list exactly if it is not empty."
  },
  {
   "property": "C150",
   "status": "partial",
   "theorems": [
    "Flame.C150_in_order",
    "Flame.C150_end_of_data",
    "Flame.C150_full_sends_partial",
    "Flame.C150_short_send_violated",
    "Flame.C150_empty_range_says_end",
    "Flame.C150_counted",
    "Flame.C150_failure_exact",
    "Flame.C150_survives_iff",
    "Flame.C150_status"
   ],
   "note": "Order and completeness hold for the bytes send says it took; a sender who only checks the status can leave gaps; an empty range gives the end-of-data answer; EPIPE raises SIGPIPE (no MSG_NOSIGNAL), which ends a process that left it at its default."
  },
  {
   "property": "C151",
   "status": "partial",
   "theorems": [
    "Flame.C151_safe_iff",
    "Flame.C151_waited_partial",
    "Flame.C151_library_calls_violated",
    "Flame.C151_destroyed_under_thread",
    "Flame.C151_poll_never_ends"
   ],
   "note": "Safe exactly if the owner waits for the end of the body by its own means and never calls join(): ~ThreadBase joins only after the derived parts are destroyed, and joins again after join(). The library's own calls offer no safe use."
  },
  {
   "property": "C152",
   "status": "partial",
   "theorems": [
    "Flame.C152_exact",
    "Flame.C152_undisturbed_partial",
    "Flame.C152_violated"
   ],
   "note": "The code reported is that of the last call that failed in the thread before errno is read; the handler does not save errno, so a failing call inside it replaces the code."
  },
  {
   "property": "C153",
   "status": "partial",
   "theorems": [
    "Flame.C153_happened",
    "Flame.C153_partial",
    "Flame.C153_drained_partial",
    "Flame.C153_removed_violated",
    "Flame.C153_waiting_violated",
    "Flame.C153_reused_violated",
    "Flame.C153_misfiled_violated"
   ],
   "note": "Neither the queues nor the waiting signal are touched by remove and close, and events carry only the number: removed sockets are still delivered, events of a closed socket are attributed to the next one with its number, and filed under its kind, through a null pointer if that kind was never added. Everything holds if sockets are removed and closed only when none of their events is on its way."
  },
  {
   "property": "C154",
   "status": "partial",
   "theorems": [
    "Flame.C154_intact",
    "Flame.C154_ready",
    "Flame.C154_partial",
    "Flame.C154_no_thread_violated",
    "Flame.C154_no_window_violated",
    "Flame.C154_no_room_violated",
    "Flame.C154_fail_ends"
   ],
   "note": "The constructor polls a flag only the thread sets: without a thread it never returns. Without a window the destructor posts nothing and ~ThreadBase waits forever; the same if FINISH finds no room. Otherwise both end under every schedule and the thread's object is intact."
  },
  {
   "property": "C155",
   "status": "partial",
   "theorems": [
    "Flame.C155_partial",
    "Flame.C155_restored_partial",
    "Flame.C155_exit_violated",
    "Flame.C155_overwritten_violated",
    "Flame.C155_taken_violated",
    "Flame.C155_unset_violated",
    "Flame.C155_reset_violated",
    "Flame.C155_answers"
   ],
   "note": "Holds if the signal set can be built, the program leaves the signal alone while registrars are used and every socket is removed before the end. Otherwise: a socket left registered at the end kills the process at the next data; a handler the program installs meanwhile silences the library and is overwritten by the destructor; a failure to build the signal set is not recorded, so registering reports success without a handler and the destructor resets the disposition."
  },
  {
   "property": "C156",
   "status": "partial",
   "theorems": [
    "Flame.C156_functor_partial",
    "Flame.C156_ready_violated",
    "Flame.C156_unwait_none_violated",
    "Flame.C156_unwait_one_violated",
    "Flame.C156_destroy_partial",
    "Flame.C156_destroy_alone",
    "Flame.C156_destroy_ub",
    "Flame.C156_destroy_hangs"
   ],
   "note": "wait(functor) returns only with the condition true, but blocks for a notification even if it is true already. unwait without waiters wraps the counter to 255, with a waiter it makes notify ignore that waiter. Destruction is fine with at most one waiter; with two it hangs or leaves a waiter that writes to the destroyed object."
  },
  {
   "property": "C157",
   "status": "partial",
   "theorems": [
    "Flame.C157_partial",
    "Flame.C157_holder",
    "Flame.C157_notify_violated",
    "Flame.C157_tryWait_violated",
    "Flame.C157_again_violated"
   ],
   "note": "Holds for one wait answered by the thread that holds the mutex. A notify or tryWait by any other thread unlocks a mutex it does not hold; so does a later notify of the holder after a woken thread has waited again."
  },
  {
   "property": "C158",
   "status": "partial",
   "theorems": [
    "Flame.C158_partial",
    "Flame.C158_unmade",
    "Flame.C158_circular_violated",
    "Flame.C158_end_violated",
    "Flame.C158_empty_violated",
    "Flame.C158_descriptors_violated",
    "Flame.C158_move_ub",
    "Flame.C158_assign_violated",
    "Flame.C158_moved_from",
    "Flame.C158_circular_partial",
    "Flame.C158_second_violated"
   ],
   "note": "Order and status hold for a stream that is not moved and is given linear ranges that are not empty. They fail for circular ranges, empty ranges, invalid descriptors and moved streams."
  },
  {
   "property": "C159",
   "status": "partial",
   "theorems": [
    "Flame.C159_prohibited",
    "Flame.C159_nondefault",
    "Flame.C159_untouched",
    "Flame.C159_same_violated",
    "Flame.C159_braces_violated",
    "Flame.C159_noncreational",
    "Flame.C159_user_violated",
    "Flame.C159_owners_partial",
    "Flame.C159_owners_violated",
    "Flame.C159_guard_move",
    "Flame.C159_threads_violated",
    "Flame.C159_table"
   ],
   "note": "Prohibitions and most owners proved. NonCopy, NonMove and NonAssignable are one prohibition; NonDefault{} is allowed; UniqueLocker, RaiiCaller, InitializerList and AlignedObject can be copied; threads made with ThreadCrtp cannot be moved."
  },
  {
   "property": "C16",
   "status": "proved",
   "theorems": [
    "Flame.C16_history",
    "Flame.C16_history_default",
    "Flame.C16_assign_null_ub",
    "Flame.C16_assign_capacity",
    "Flame.C16_history_exact",
    "Flame.C16_history_exact_default"
   ],
   "note": "All histories of C-string construction/append/assign, popBack, erase, range erase, character insert, clean and copy refine the text; within three nested calls. Assigning a null pointer is undefined (proved separately). Every history of eighteen kinds of calls is characterised exactly (text, capacity, undefined or never returning) by text and capacity alone; assigning another String is left to C18."
  },
  {
   "property": "C160",
   "status": "partial",
   "theorems": [
    "Flame.C160_started",
    "Flame.C160_serial_partial",
    "Flame.C160_race_violated",
    "Flame.C160_end_exact",
    "Flame.C160_end_partial",
    "Flame.C160_end_violated"
   ],
   "note": "Ready stays ready, and never ended more often than started: any interleaving. Paired when the first calls do not overlap; n overlapping first calls start Winsock n times and end it once. Closing at the end is in time exactly for holders constructed after the library's object; an object constructed earlier and given a socket later closes it after Winsock has ended."
  },
  {
   "property": "C161",
   "status": "partial",
   "theorems": [
    "Flame.C161_loaded_partial",
    "Flame.C161_mapped_iff",
    "Flame.C161_unloaded_violated",
    "Flame.C161_assign_violated"
   ],
   "note": "A loaded object finds exactly its library's symbols, and the library is in memory exactly while an object holds it, if moved-from objects are not destroyed and nothing is assigned over a loaded object. An object without a library finds the symbols of the program itself; a library whose object was assigned over is never unloaded."
  },
  {
   "property": "C162",
   "status": "partial",
   "theorems": [
    "Flame.C162_markers_partial",
    "Flame.C162_signs",
    "Flame.C162_payload_exact",
    "Flame.C162_payload_violated",
    "Flame.C162_getType",
    "Flame.C162_count_violated",
    "Flame.C162_holder_partial",
    "Flame.C162_assign_violated",
    "Flame.C162_no_type"
   ],
   "note": "Markers, closing markers, widths and signs are the format's and getType names the alternative. False: T and F are said to carry a payload, the type count is one too many, and assigning a plain value to a BaseValue is undefined (no return). BaseValue with allocation: C175."
  },
  {
   "property": "C163",
   "status": "partial",
   "theorems": [
    "Flame.C163_writers_partial",
    "Flame.C163_move_violated",
    "Flame.C163_assign_violated",
    "Flame.C163_open_violated",
    "Flame.C163_default_violated",
    "Flame.C163_failed_violated",
    "Flame.C163_self_violated",
    "Flame.C163_names_violated",
    "Flame.C163_stream_violated",
    "Flame.C163_status_violated"
   ],
   "note": "Careful histories of writers remove exactly the pipes to be deleted. False: moving loses the name (remove(nullptr)), assigning or opening removes the former name, a failed writer removes the file all the same, setName and streams know only the directory /tmp/, and a stream's open always reports success."
  },
  {
   "property": "C164",
   "status": "partial",
   "theorems": [
    "Flame.C164_string_partial",
    "Flame.C164_fits_partial",
    "Flame.C164_resize_violated",
    "Flame.C164_afterwards_violated",
    "Flame.C164_grow_violated",
    "Flame.C164_ctor_violated",
    "Flame.C164_list_partial",
    "Flame.C164_list_violated",
    "Flame.C164_vector_partial",
    "Flame.C164_vector_violated",
    "Flame.C164_blocks_partial",
    "Flame.C164_ctor_partial"
   ],
   "note": "With memory available everything is as in the other models, and operations that fit ask for none. Without memory a string's resize silently loses characters and block and the string cannot even be destroyed, growing operations, constructors and list insertions write through null, Vector(n) claims elements it has not; Vector::reserve alone copes (C02)."
  },
  {
   "property": "C165",
   "status": "partial",
   "theorems": [
    "Flame.C165_finalised_while_referred",
    "Flame.C165_never_finalised",
    "Flame.C165_refs_meaning",
    "Flame.C165_look_violated",
    "Flame.C165_slot_dropped",
    "Flame.C165_alive_partial",
    "Flame.C165_use_exact"
   ],
   "note": "False in the code, because the counter of a SharedPointer starts at 0: in every execution a module is finalised only while exactly one pointer or slot still refers to it, and never once nothing does; copying slot->getLibrary() and dropping the copy finalises the module under a slot that was its only owner, after which calls on the slot are undefined; slots whose only pointer is dropped are never destroyed. Proved part: a library with two references and a slot with two pointers exist and can be used; calls on a slot are defined exactly while both exist."
  },
  {
   "property": "C166",
   "status": "partial",
   "theorems": [
    "Flame.C166_event_violated",
    "Flame.C166_retry_partial",
    "Flame.C166_later_adds",
    "Flame.C166_init"
   ],
   "note": "False in the code: add ignores the result of init and answers what enable answers; after any history in which memory for the kind was never there, the socket's first event (in the signal handler) or a push for it is undefined. Proved part: an attempt without memory changes nothing, so histories behave as without the failed attempts (C37) and repeating works; adding to a kind whose queue exists allocates nothing."
  },
  {
   "property": "C167",
   "status": "partial",
   "theorems": [
    "Flame.C167_anywhere_partial",
    "Flame.C167_still_partial",
    "Flame.C167_static_violated",
    "Flame.C167_ninth_violated",
    "Flame.C167_hybrid_exact",
    "Flame.C167_circular_violated",
    "Flame.C167_circular_inside",
    "Flame.C167_list_violated",
    "Flame.C167_list_empty",
    "Flame.C167_clean_in_place",
    "Flame.C167_circular_in_place"
   ],
   "note": "True for classes whose members contain no address inside the object, and for all classes as long as realloc carries no element elsewhere. False otherwise: realloc copies bytes, so fixed-capacity vectors, hybrid vectors in their first storage, circular arrays and non-empty lists are broken by growth."
  },
  {
   "property": "C168",
   "status": "partial",
   "theorems": [
    "Flame.C168_list_step",
    "Flame.C168_list_history",
    "Flame.C168_vector_room",
    "Flame.C168_vector_full",
    "Flame.C168_string_room",
    "Flame.C168_string_empty_violated",
    "Flame.C168_string_append_exact",
    "Flame.C168_string_append_violated"
   ],
   "note": "True for lists (in the region where C14 holds), vectors, and single characters added to a string that has storage. False for strings without storage (the terminator is written behind the reserved block) and for appending a C string of the reserved size (two more characters are demanded, so memory is asked for again)."
  },
  {
   "property": "C169",
   "status": "partial",
   "theorems": [
    "Flame.Thr.C169_insert_range_violated",
    "Flame.Thr.C169_insert_exact",
    "Flame.Thr.C169_insert_violated",
    "Flame.Thr.C169_insert_grows",
    "Flame.Thr.C169_append_exact",
    "Flame.Thr.C169_emplace_exact",
    "Flame.Thr.C169_erase",
    "Flame.Thr.C169_erase_violated",
    "Flame.Thr.C169_array_insert_violated",
    "Flame.LL.C169_list_range_violated",
    "Flame.LL.C169_list_range_leaks",
    "Flame.Thr.C169_end_exact",
    "Flame.Thr.C169_range_end_exact",
    "Flame.Thr.C169_erase_end_exact"
   ],
   "note": "False for insertion: constructions are noexcept, so a throwing constructor ends the program; an exception in a move or assignment leaves as many objects as were to be inserted undestroyed, a valueless place inside and the last element out of reach (exact state proved). Erasing keeps every place alive and loses no object but is not undone. A list's range insertion leaves the list as it was and leaks the nodes built so far. Proved for every failing operation."
  },
  {
   "property": "C17",
   "status": "partial",
   "theorems": [
    "Flame.C17_violated",
    "Flame.C17_pushBack_iff",
    "Flame.C17_after_append_partial",
    "Flame.C17_pushBackMove_partial",
    "Flame.C17_reserve_exact",
    "Flame.C16_history_exact"
   ],
   "note": "False: pushBack(const&) needs two free characters but tests for one; exact domain proved. After reserve(n) exactly n characters can be appended one by one."
  },
  {
   "property": "C170",
   "status": "partial",
   "theorems": [
    "Flame.Cost.C170_vector_amortised",
    "Flame.Cost.C170_vector_fill",
    "Flame.Cost.C170_capacity_one_violated",
    "Flame.LL.C170_list_insert_violated",
    "Flame.C170_string_amortised",
    "Flame.C170_string_space",
    "Flame.C170_string_first"
   ],
   "note": "Vectors: at most 4n elements carried for n appends from empty, capacity within 3/2, requests multiply the capacity by at least 4/3; except a capacity of 1, where appending never returns. False for lists: insert and emplace ask size(), which walks every node, so each insertion takes n+1 rounds wherever the place is. Strings: carried characters at most three times the growth of the capacity, capacity within 3/2 of text plus two, at most two requests per append; over any history the storage is at most 5/2 of the longest text plus three."
  },
  {
   "property": "C171",
   "status": "partial",
   "theorems": [
    "Flame.VecBytes.C171_reserve_partial",
    "Flame.VecBytes.C171_reserve_violated",
    "Flame.VecBytes.C171_append_ub",
    "Flame.VecBytes.C171_zero_ub",
    "Flame.VecBytes.C171_elements_lost",
    "Flame.VecBytes.C171_ctor_exact",
    "Flame.VecBytes.C171_ctor_violated",
    "Flame.VecBytes.C171_ctor_ub",
    "Flame.VecBytes.C171_second_ub"
   ],
   "note": "True while sizeof(T)*n fits 64 bits. Beyond that reserve reports n but obtains less (appending writes behind the block, elements may be cut off), a product of exactly 0 releases the block twice, and Vector(n) makes fewer elements than asked for or constructs behind the block. Proved for all counts and element sizes."
  },
  {
   "property": "C172",
   "status": "partial",
   "theorems": [
    "Flame.C172_one_datagram",
    "Flame.C172_wait_whole",
    "Flame.C172_reply_partial",
    "Flame.C172_status",
    "Flame.C172_truncation_violated",
    "Flame.C172_stranger_violated",
    "Flame.C172_two_readers_violated"
   ],
   "note": "Proved over every execution with a losing, reordering, duplicating network: one datagram per receive, wait's size suffices, without strangers everything comes from the server in answer to the client, error reporting. False and proved so: a datagram longer than the range is cut without any sign; a client takes datagrams of anybody, indistinguishable from its server's (the socket is never connected and the source is dropped); with two readers wait's size may belong to another datagram."
  },
  {
   "property": "C173",
   "status": "partial",
   "theorems": [
    "Flame.C173_overlap_violated",
    "Flame.C173_counter_violated",
    "Flame.C173_queue_violated",
    "Flame.C173_one_at_a_time"
   ],
   "note": "False and proved so: for every class any number of threads can be inside its methods at once; n increments of a fresh counter may leave 1; two pushes may both report success while one value is lost and the count exceeds the capacity. Proved: calls that do not overlap do what the method bodies do (any class) and release the lock."
  },
  {
   "property": "C174",
   "status": "partial",
   "theorems": [
    "Flame.C174_discipline",
    "Flame.C174_locked_partial",
    "Flame.C174_waiters_partial",
    "Flame.C174_condition_violated",
    "Flame.C174_notificator_exact",
    "Flame.C174_winsock_exact",
    "Flame.C174_trace_faithful",
    "Flame.C174_trace_reads"
   ],
   "note": "True for every class whose methods run under a Locker (counter, event queues) and for the count of waiters of a condition variable. False for the flag locked inside a condition variable (written after unlocking by every waiter and notifier), for the notificator pointer (raced for exactly if it is set or unset and another thread takes events) and for the Winsock flag (exactly if one thread sets it and another calls). Synchronisation by the program itself is not modelled."
  },
  {
   "property": "C175",
   "status": "partial",
   "theorems": [
    "Flame.C175_lone_partial",
    "Flame.C175_lone_leaks_violated",
    "Flame.C175_leak_violated",
    "Flame.C175_read_exact",
    "Flame.C175_write_exact",
    "Flame.C175_copy_shares_violated",
    "Flame.C175_drop_copy_violated",
    "Flame.C175_default_ub"
   ],
   "note": "Without copies every holder has exactly the value a variable would have, after any history of making, moving, assigning, writing and destroying. Copies share one object (a write through one is read through the other), destroying a copy destroys the value of the only other holder, the value of a holder never copied is never given back, and a default constructed holder cannot even be destroyed. Assigning a plain value is undefined (no return), as in C162."
  },
  {
   "property": "C176",
   "status": "partial",
   "theorems": [
    "Flame.C176_real_partial",
    "Flame.C176_stub_violated",
    "Flame.C176_failed_lock_violated",
    "Flame.C176_failed_unlock_violated",
    "Flame.C176_stub_no_mutex"
   ],
   "note": "True with the real callbacks while native calls succeed. False when a native lock fails (the thread joins whoever is inside), when a native unlock fails (nobody enters again), and in programs linked with the stubs of Crypto.Pkcs11.NoThread, where any threads can be inside together although the arguments carry OS_LOCKING_OK."
  },
  {
   "property": "C177",
   "status": "partial",
   "theorems": [
    "Flame.C177_exact",
    "Flame.C177_array_exact",
    "Flame.C177_balanced_partial",
    "Flame.C177_erase_violated"
   ],
   "note": "Exact count of constructor and destructor calls: switching the storage loses nothing; every erase of an inner element loses one object in both containers, and every inner emplace of a HybridVector in allocated memory loses one (the inline array destroys it first)."
  },
  {
   "property": "C178",
   "status": "partial",
   "theorems": [
    "Flame.C178_within_partial",
    "Flame.C178_exact",
    "Flame.C178_history_partial",
    "Flame.C178_fill_violated"
   ],
   "note": "Calls within what is there (inline capacity, or the room on the heap) do what they do with memory at hand, whatever the allocator answers, over all histories. Not so for a range that fills the object exactly: it leaves for the heap although it fits. A call that is refused the memory it needs never returns; exact for every call and state."
  },
  {
   "property": "C179",
   "status": "partial",
   "theorems": [
    "Flame.C179_optional_partial",
    "Flame.C179_variant_partial",
    "Flame.C179_shared_exact",
    "Flame.C179_shared_move_violated",
    "Flame.C179_unique_violated",
    "Flame.C179_object_violated",
    "Flame.C179_mutex_violated",
    "Flame.C179_semaphore_violated",
    "Flame.C179_library_violated",
    "Flame.C179_thread_violated",
    "Flame.C179_socket_violated",
    "Flame.C179_circular_violated",
    "Flame.C33_self_move_ub",
    "Flame.C33_copy_assign_ub",
    "Flame.C40_self_move",
    "Flame.C138_assign_exact",
    "Flame.C18_self_violated",
    "Flame.C15_moveAssign_violated",
    "Flame.C69_self_move"
   ],
   "note": "Holds for Variant and HybridVector, for copying an Optional, and for copying a SharedPointer unless there are exactly two owners (then undefined). All other classes lose what they hold: the object is destroyed (UniquePointer, Object, Mutex, Spin), forgotten for ever (Semaphore, Library, thread, socket, file streams, locker), the contents are gone (String, CircularArray) or the call is undefined (List, common Expected). Moving an Optional onto itself is left to its value's class."
  },
  {
   "property": "C18",
   "status": "partial",
   "theorems": [
    "Flame.C18_violated",
    "Flame.C18_terminator_ub",
    "Flame.C18_self_violated",
    "Flame.C18_cstring_partial",
    "Flame.C18_copy_partial",
    "Flame.C18_move_partial",
    "Flame.C18_default_target_ub",
    "Flame.C18_grow_violated",
    "Flame.C18_assign_exact"
   ],
   "note": "False: operator=(const Me&) leaves length 0, overflows by one when the source length equals capacity, self-assignment empties. C18_assign_exact: copy assignment gives the source text exactly if the source is empty and the target has storage; self-assignment keeps the text exactly if it is empty and has storage."
  },
  {
   "property": "C180",
   "status": "partial",
   "theorems": [
    "Flame.C180_vector_exact",
    "Flame.C180_string_partial",
    "Flame.C180_list_partial",
    "Flame.C180_hybrid_violated",
    "Flame.C02_append_to_moved_from_ub",
    "Flame.C131_append_to_moved_from_ub"
   ],
   "note": "Vector: exact. The source keeps its old capacity c with a null pointer, so a history works precisely if a call demanding room for more than c elements comes before any call that adds elements; otherwise the first addition writes through null. String: holds for histories without insert (C16). List: holds inside the supported region of C14, and the list that took over keeps its elements. HybridVector: heap storage as Vector; inline elements stay in the source, moved from."
  },
  {
   "property": "C181",
   "status": "partial",
   "theorems": [
    "Flame.C181_ends_exact",
    "Flame.C181_front_stack",
    "Flame.C181_back_stack_exact",
    "Flame.C181_queue_violated",
    "Flame.C181_queue_exact"
   ],
   "note": "Decided exactly for all histories of end calls. Holds for a stack at the front; a stack at the back works but cannot be destroyed once it ran empty; a queue breaks at the first push after it ran empty. Addresses of destroyed nodes are never reused in the model."
  },
  {
   "property": "C182",
   "status": "partial",
   "theorems": [
    "Flame.Utils.Align.C182_block_exact",
    "Flame.Utils.Align.C182_block_all_or_none",
    "Flame.Utils.Align.C182_block_violated",
    "Flame.Utils.Align.C182_node_exact",
    "Flame.Utils.Align.C182_alignedObject_exact",
    "Flame.Utils.Align.C182_alignObject_exact",
    "Flame.Utils.Align.C182_array",
    "Flame.Utils.Align.C182_optional",
    "Flame.Utils.Align.C182_object",
    "Flame.Utils.Align.C182_object_exact",
    "Flame.Utils.Align.C182_object_check_exact"
   ],
   "note": "Holds for Array, Optional and Object, and for elements in allocated memory exactly when the type's alignment is at most 16 (what malloc promises). For stricter types malloc may return an address at which no element is suitably aligned. AlignedObject accepts explicit alignments weaker than the type's, which do not suit it. Object's check is sufficient and refuses some types that would always fit."
  },
  {
   "property": "C183",
   "status": "partial",
   "theorems": [
    "Flame.Pkcs11.Several.C183_module",
    "Flame.Pkcs11.Several.C183_mapped",
    "Flame.Pkcs11.Several.C183_not_loaded_violated",
    "Flame.Pkcs11.Several.C183_step_exact",
    "Flame.Pkcs11.Several.C183_undisturbed_partial",
    "Flame.Pkcs11.Several.C183_second_refused",
    "Flame.Pkcs11.Several.C183_finalize_violated",
    "Flame.Pkcs11.Several.C183_orphan_made",
    "Flame.Pkcs11.Several.C183_orphan_forever"
   ],
   "note": "Proved for all histories: the module in use is the loaded one or, if none could be loaded, the program's (C183_module), and it is in memory (C183_mapped); a call on another object ends the initialisation exactly if it finalises or destroys an object that says it uses the same module and the module agrees (C183_step_exact). Without finalize() by hand an object is never disturbed and is the only one using its module (C183_undisturbed_partial); a second one is refused (C183_second_refused). False: an object whose module could not be loaded initialises the program's (C183_not_loaded_violated); finalize() keeps the status, so the destructor finalises the module under another object (C183_finalize_violated); after a failing C_GetInfo the module stays initialised and no object can use it until it is unmapped (C183_orphan_made, C183_orphan_forever)."
  },
  {
   "property": "C184",
   "status": "partial",
   "theorems": [
    "Flame.Own.Statics.C184_exact",
    "Flame.Own.Statics.C184_partial",
    "Flame.Own.Statics.C184_callbacks",
    "Flame.Own.Statics.C184_violated",
    "Flame.Own.Statics.C184_two_violated"
   ],
   "note": "Exact: the program ends well iff for each of the library's objects with a destructor the first static object that uses it in its constructor precedes all that use it in their destructors, or no constructor uses it and no destructor does (one may if main does not) (C184_exact). So it holds if every static object uses in its constructor what it uses in its destructor (C184_partial) and for the tables of functions (C184_callbacks). False otherwise: a static registry or Pkcs11Library that is first used in main uses the destroyed catcher or token context in its destructor (C184_violated, C184_two_violated)."
  },
  {
   "property": "C185",
   "status": "partial",
   "theorems": [
    "Flame.StrBytes.C185_resize_partial",
    "Flame.StrBytes.C185_byte_characters",
    "Flame.StrBytes.C185_resize_violated",
    "Flame.StrBytes.C185_characters_lost",
    "Flame.StrBytes.C185_append_ub",
    "Flame.StrBytes.C185_zero_violated",
    "Flame.StrBytes.C185_first_ub",
    "Flame.StrBytes.C185_reserve_ignored",
    "Flame.StrBytes.C185_reserve_partial"
   ],
   "note": "True as long as the capacity times sizeof(character) fits a machine word. Violated beyond: a wide string then reports a capacity its block does not have (and loses characters), or loses its block altogether, after which even its destructor is undefined; reserve silently does nothing when capacity() + n wraps."
  },
  {
   "property": "C186",
   "status": "partial",
   "theorems": [
    "Flame.NoMemory.C186_open_partial",
    "Flame.NoMemory.C186_open_ub",
    "Flame.NoMemory.C186_slots_violated",
    "Flame.NoMemory.C186_interfaces_violated",
    "Flame.NoMemory.C186_interfaces_partial",
    "Flame.NoMemory.C186_write_exact"
   ],
   "note": "Without memory: constructing a Library is undefined, getSlotIdList and a RamStream write that does not fit never return, and the interface list is reported as OK and empty. With the memory named in the theorems each does what it should. (The mutex callback createMutex reports HOST_MEMORY, C93; smart pointers are null, C29 and C30.)"
  },
  {
   "property": "C187",
   "status": "partial",
   "theorems": [
    "Flame.IterStack.C187_moves",
    "Flame.IterStack.C187_equality_exact",
    "Flame.IterStack.C187_const_violated",
    "Flame.IterStack.C187_const_greater",
    "Flame.IterStack.C187_order_partial",
    "Flame.IterStack.C187_order_exact",
    "Flame.IterStack.C187_difference_exact",
    "Flame.IterStack.C187_bidirectional_violated",
    "Flame.IterStack.C187_mixed_violated",
    "Flame.IterStack.C187_containers_violated",
    "Flame.IterStack.C187_wrapped",
    "Flame.IterStack.C187_shared_base",
    "Flame.IterStack.C187_direction",
    "Flame.IterStack.C187_wrapped_order",
    "Flame.IterStack.C187_uninstantiable"
   ],
   "note": "Moving holds for every stack; equality and order hold for a non-const left operand of the same type (order only with an even number of reverse adaptors). Otherwise the comparison silently goes through operator bool: any two iterators are equal if the left one is const, or if their types differ (begin() and cend()), or, by order, if they are list iterators; the distance of list iterators is always 0."
  },
  {
   "property": "C188",
   "status": "partial",
   "theorems": [
    "Flame.IterStack.C188_const_kept",
    "Flame.IterStack.C188_deref_exact",
    "Flame.IterStack.C188_buried_violated",
    "Flame.IterStack.C188_const_object",
    "Flame.IterStack.C188_pointer_to_const",
    "Flame.IterStack.C188_index",
    "Flame.IterStack.C188_index_violated",
    "Flame.IterStack.C188_index_const_violated",
    "Flame.IterStack.C188_index_constIter"
   ],
   "note": "*it never loses const and it[n] reads the right element wherever they compile. Iterator::operator[] is ambiguous and never compiles, Iterator over a pointer to const is ill-formed, a non-const adaptor of a const iterator cannot be read, and ConstReverseIterator::operator[] gives write access or does not compile."
  },
  {
   "property": "C189",
   "status": "partial",
   "theorems": [
    "Flame.C189_shared_partial",
    "Flame.C189_tidy_partial",
    "Flame.C189_undisturbed",
    "Flame.C189_takeover",
    "Flame.C189_finalize_violated",
    "Flame.C189_info_violated",
    "Flame.C189_refused_violated"
   ],
   "note": "Holds for programs that leave finalisation to the destructors (and, for unloading, a module whose C_GetInfo and C_Finalize succeed). A finalize() by hand leaves the object usable; its destructor later finalises the module under another object. A failing C_GetInfo locks every object out and the module is unloaded initialised. A refused object answers 'no slots' as a success."
  },
  {
   "property": "C19",
   "status": "partial",
   "theorems": [
    "Flame.C19_insertRange_diverges",
    "Flame.C19_fresh_diverges",
    "Flame.C19_insert_empty_ub",
    "Flame.C19_insertRange_partial",
    "Flame.C19_char_erase_partial",
    "Flame.C19_insertText_exact",
    "Flame.C16_history_exact"
   ],
   "note": "False: range insert that does not fit recurses for ever; single insert and erases are right for strings with storage. Exact: insertion of a text into a string just made returns after reserve(n) exactly if the text is not longer than n; whole histories exactly in C16_history_exact."
  },
  {
   "property": "C190",
   "status": "partial",
   "theorems": [
    "Flame.HCost.C190_same",
    "Flame.HCost.C190_step_exact",
    "Flame.HCost.C190_stack_partial",
    "Flame.HCost.C190_erase_violated",
    "Flame.HCost.C190_pop_rounds"
   ],
   "note": "True for pushBack and popBack: at most seven elements carried per element pushed, none up to N pushes. False when the last element is taken out with erase: erase goes back to the array as soon as fewer than N elements are left, and the next push but one leaves it again, so every round of four calls around the capacity asks for a block and carries 2N-1 elements. The exact work of every call is stated (C190_step_exact)."
  },
  {
   "property": "C191",
   "status": "partial",
   "theorems": [
    "Flame.C191_partial",
    "Flame.C191_same_description_violated",
    "Flame.C191_two_writers_violated"
   ],
   "note": "Holds for every history if all writers share one open file description and readers use others. Fails otherwise: a reader on the writer's description never receives a byte, and writers that opened the file separately overwrite each other (both transfers survive exactly if one is empty). O_APPEND, truncation and the circular overloads (C68) are not in this model."
  },
  {
   "property": "C192",
   "status": "partial",
   "theorems": [
    "Flame.Transport.C192_encoded",
    "Flame.Transport.C192_delivered",
    "Flame.Transport.C192_incomplete_ub",
    "Flame.Transport.C192_tcp_partial",
    "Flame.Transport.C192_ram",
    "Flame.Transport.C192_file",
    "Flame.Transport.C192_short_send_violated",
    "Flame.Transport.C192_order_exact",
    "Flame.Transport.C192_pipe",
    "Flame.Transport.C192_udp"
   ],
   "note": "Every message that has arrived entirely is deserialised to the values sent, over any carrier that delivers a beginning of what was handed over; instances for TCP, UDP datagrams, RamStream, pipes and files. Fails if the receiver deserialises before the message is complete (no bounds check: undefined behaviour) and if a send takes less than it was given and the sender looks at the status only. Read with the other wire order a message gives the byte-reversed numbers. Memory beyond the bytes received is arbitrary in the positive theorems."
  },
  {
   "property": "C193",
   "status": "partial",
   "theorems": [
    "Flame.RangeM.C193_each",
    "Flame.RangeM.C193_nothing_else",
    "Flame.RangeM.C193_each_exact",
    "Flame.RangeM.C193_two_arrays_ub",
    "Flame.RangeM.C193_array",
    "Flame.RangeM.C193_pointer_exact",
    "Flame.RangeM.C193_null_exact",
    "Flame.RangeM.C193_container",
    "Flame.RangeM.C193_copy",
    "Flame.RangeM.C193_view",
    "Flame.RangeM.C193_default_ub",
    "Flame.RangeM.C193_bytes",
    "Flame.RangeM.C193_bytes_store",
    "Flame.RangeM.C193_iterators",
    "Flame.RangeM.C193_forward",
    "Flame.RangeM.C193_reverse_violated",
    "Flame.RangeM.C193_const_container"
   ],
   "note": "Everything but two points: a range made without arguments holds indeterminate pointers (a loop over it is undefined), and makeReverseRange / makeConstReverseRange compile for no container of the library, because they return a Range<ConstIterator> for a Range<ReverseIterator>."
  },
  {
   "property": "C194",
   "status": "partial",
   "theorems": [
    "Flame.PkAttr.C194_no_wrapper_violated",
    "Flame.PkAttr.C194_table",
    "Flame.PkAttr.C194_every_enumerator",
    "Flame.PkAttr.C194_meant_exact",
    "Flame.PkAttr.C194_untyped_violated"
   ],
   "note": "The table of value types is consistent and complete, but the wrapper compiles for no attribute: its assertion is the wrong way round (it demands void), and void attributes need a member of type void. With the assertion meant, exactly the 22 attributes with a named type compile."
  },
  {
   "property": "C195",
   "status": "partial",
   "theorems": [
    "Flame.ElemVec.C195_append",
    "Flame.ElemVec.C195_insert_ub",
    "Flame.ElemVec.C195_insert_exact",
    "Flame.ElemVec.C195_insert_move_exact",
    "Flame.ElemVec.C195_emplace",
    "Flame.ElemVec.C195_erase",
    "Flame.ElemVec.C195_eraseRange_exact",
    "Flame.ElemVec.C195_insertRange_ub",
    "Flame.ElemVec.C195_history_partial",
    "Flame.ElemVec.C195_insertRange_end",
    "Flame.ElemVec.C195_insert_generic",
    "Flame.ElemVec.C195_erase_generic",
    "Flame.ElemVec.C195_eraseRange_generic",
    "Flame.ElemVec.C195_reserve_generic",
    "Flame.ElemVec.C195_copy",
    "Flame.ElemVec.C195_insertRange_generic",
    "Flame.ElemVec.C195_growth",
    "Flame.ElemVec.C195_end_exact",
    "Flame.ElemVec.C195_eraseRange_empty",
    "Flame.ElemVec.C195_resize_generic",
    "Flame.ElemVec.C195_sized",
    "Flame.ElemVec.C195_assignOther_exact",
    "Flame.ElemVec.C195_resize_exact",
    "Flame.ElemVec.C195_resize_violated",
    "Flame.ElemVec.C195_assignOther_grow"
   ],
   "note": "False for insert in front of an element and for erasing an inner range. insert(it, const String &) and range insertion there are always undefined, whatever vector, position and string: they copy-assign to a string without storage. insert(it, move(s)) is right with a free cell and undefined when the vector is full (the retry passes s as an lvalue). erase(b, e) is right if nothing follows the range and otherwise move-assigns to destroyed strings. Appending by copy or move, emplace, erase(it), popBack and clean are right, one by one and in every history from an empty vector. For every element class: an insertion in front of an element has the outcome of one copy assignment to a default-constructed object (insert) or one copy construction (emplace), growing keeps every element, and erasing an inner range is undefined even if all the class's operations are right. Copying a vector of strings keeps the texts. resize(n) of a vector of strings appends empty strings, or does nothing if the capacities grow through n itself (resize(8) of an empty vector leaves it empty); assigning a non-empty vector of another type to one that holds elements assigns to destroyed objects. insert(it, &&) as written compiles for no element type (Vector.hpp 785 calls placementNew with one argument); the theorems about it read that line as emplaceNew, as in insert(it, const &)."
  },
  {
   "property": "C196",
   "status": "partial",
   "theorems": [
    "Flame.ElemArr.C196_full",
    "Flame.ElemArr.C196_append",
    "Flame.ElemArr.C196_insert_ub",
    "Flame.ElemArr.C196_place",
    "Flame.ElemArr.C196_remove",
    "Flame.ElemArr.C196_copy",
    "Flame.ElemArr.C196_move",
    "Flame.ElemArr.C196_eraseRange_empty"
   ],
   "note": "False for copy insertion in front of an element, of one string or of a range that fits (always undefined: copy assignment to a string without storage), and for erasing an inner range (move assignment to destroyed strings). Appending, insert by move, emplace, erase(it), popBack, erasing up to the end, copy and move construction and assignment are right; a full array ignores insertions; a moved-from array keeps its size and holds empty strings."
  },
  {
   "property": "C197",
   "status": "partial",
   "theorems": [
    "Flame.C197_make_exact",
    "Flame.C197_atom_exact",
    "Flame.C197_given_back",
    "Flame.C197_exclusive",
    "Flame.C197_second_violated",
    "Flame.C197_foreign_violated",
    "Flame.C197_end_exact",
    "Flame.C197_stale_violated",
    "Flame.C197_program_keeps"
   ],
   "note": "A thread that gets no window leaves nothing behind and stores an error that cannot be mistaken for an atom; a thread that has ended has left neither window nor class. But the class name is fixed and registered for the whole process: while one copy of the library has its window, or the program a class of the name, every other copy gets none and refuses every socket. A refused thread that is ended from outside unregisters the class by name, whoever owns it. After the end the member keeps the handle of the destroyed window, so sockets are not refused but passed on with it."
  },
  {
   "property": "C198",
   "status": "partial",
   "theorems": [
    "Flame.ElemHyb.C198_useVector",
    "Flame.ElemHyb.C198_useArray",
    "Flame.ElemHyb.C198_append",
    "Flame.ElemHyb.C198_insert_ub",
    "Flame.ElemHyb.C198_insert_move_exact",
    "Flame.ElemHyb.C198_insert_end",
    "Flame.ElemHyb.C198_emplace",
    "Flame.ElemHyb.C198_remove",
    "Flame.ElemHyb.C198_storage",
    "Flame.ElemHyb.C198_history_partial"
   ],
   "note": "Proved: both changes of storage keep every text in order; appending by copy or move, emplace, erase(it), popBack and erasing a range at the end do what they do to a list, in either storage and across the change; which storage is used after each call; every history of these calls from a default constructed container. Violated: insert(it, const String&) in front of a string is undefined in every storage; insert by move is undefined in a full vector and in a full array except at its beginning (at its end too); erasing an inner range is undefined. Not modelled: arguments that are elements of the container, allocation failure. insert(it, &&) as written compiles for no element type, because Vector's does not (Vector.hpp 785); the theorems about it read that line as emplaceNew."
  },
  {
   "property": "C199",
   "status": "partial",
   "theorems": [
    "Flame.ElemHold.C199_optional_first",
    "Flame.ElemHold.C199_optional_copies",
    "Flame.ElemHold.C199_optional_move",
    "Flame.ElemHold.C199_optional_copy_exact",
    "Flame.ElemHold.C199_optional_copy_violated",
    "Flame.ElemHold.C199_optional_none_violated",
    "Flame.ElemHold.C199_optional_sound",
    "Flame.ElemHold.C199_array_copy_ub",
    "Flame.ElemHold.C199_array_assign_violated",
    "Flame.ElemHold.C199_array_sound",
    "Flame.ElemHold.C199_array_assign_exact",
    "Flame.ElemHold.C199_list_exact",
    "Flame.ElemHold.C199_list_sound"
   ],
   "note": "Setting an empty Optional (copy or move), copy and move construction, and moving into a filled one are right. Copying a string into a filled Optional is right exactly if the text is empty and the held string has storage; otherwise the text is lost or the write is out of bounds. Assigning an empty Optional keeps the old text. Copying a StaticArray of at least one String, or making one from an initializer list, is undefined: copy assignment onto default constructed strings; copy assignment of a StaticArray never changes a place after the first, whatever the elements. An InitializerList of Strings is defined exactly if no argument is a named string. For element classes whose assignments work the exact results are proved for all holders. Move operations of a StaticArray cannot be instantiated and are not modelled."
  },
  {
   "property": "C20",
   "status": "partial",
   "theorems": [
    "Flame.C20_violated",
    "Flame.C20_concatRaw_partial",
    "Flame.C20_unimplemented_violated",
    "Flame.C20_subAt_partial",
    "Flame.C20_mutable_violated",
    "Flame.C20_concat_exact"
   ],
   "note": "False: operator+=(string) is empty, so string+string drops the right operand; string + C string is right. C20_concat_exact: string+string, C string+string and += of a string are right exactly if the right operand is empty."
  },
  {
   "property": "C200",
   "status": "partial",
   "theorems": [
    "Flame.ElemList.C200_read",
    "Flame.ElemList.C200_step_partial",
    "Flame.ElemList.C200_history_partial",
    "Flame.ElemList.C200_move_copies",
    "Flame.ElemList.C200_copy_partial",
    "Flame.ElemList.C200_init_partial",
    "Flame.ElemList.C200_step_exact",
    "Flame.ElemList.C200_history_exact",
    "Flame.ElemList.C200_copy_exact",
    "Flame.ElemList.C200_move_exact"
   ],
   "note": "True for every call C14 supports: the list only copy-constructs strings, which is right for every string, so no text is ever lost; the calls excluded are those that fail for every element class (C14: positional calls on an empty list, removing the last element one by one). False for rvalue arguments: every function taking one copies it and the argument keeps its text and storage (C200_move_copies). Copies and initializer lists: not empty ones (C15). step_exact, history_exact, copy_exact and move_exact state exactly which calls, copies and moves of lists of strings work."
  },
  {
   "property": "C201",
   "status": "partial",
   "theorems": [
    "Flame.ElemRing.C201_read",
    "Flame.ElemRing.C201_push",
    "Flame.ElemRing.C201_push_move",
    "Flame.ElemRing.C201_step_partial",
    "Flame.ElemRing.C201_clean_ub",
    "Flame.ElemRing.C201_history_exact",
    "Flame.ElemRing.C201_copy_exact",
    "Flame.ElemRing.C201_move_source",
    "Flame.ElemRing.C201_made_destroyed_twice",
    "Flame.ElemRing.C201_destroyed_once"
   ],
   "note": "True for histories of pushes, pops and clean on an empty array (history_exact states exactly which histories are defined), for handing strings over with and without room, and for the destruction of arrays not made from another. False: clean of an array holding a string is undefined; copying works exactly while the oldest string is at the start of the storage; a moved-from array keeps its size, holding empty strings; destroying a non-empty array made by copying or moving destroys its strings twice."
  },
  {
   "property": "C202",
   "status": "partial",
   "theorems": [
    "Flame.C202_history_exact",
    "Flame.C202_sequences_partial",
    "Flame.C202_append_to_stored_copy",
    "Flame.C202_given_away"
   ],
   "note": "Exact for all histories of eleven kinds of calls given that memory can be had. The outer vector keeps its inner sequences; appending to a stored copy of a one-element vector never returns, pushing an own element when full is undefined, and a vector moved in cannot be appended to afterwards. insert and erase do not link for vectors of vectors (same-type assignment is declared but not defined)."
  },
  {
   "property": "C203",
   "status": "partial",
   "theorems": [
    "Flame.C203_history_exact",
    "Flame.C203_destroyed_once_partial",
    "Flame.C203_erase_range_ub"
   ],
   "note": "Exact for all histories given that memory can be had: every object is destroyed once, in the order of removal. Erasing a range that is not the end is undefined, and appending after reserve(1) is used up never returns. insert does not compile for unique pointers (insert(it, &&) calls insert(it, const &))."
  },
  {
   "property": "C204",
   "status": "partial",
   "theorems": [
    "Flame.C204_history_exact",
    "Flame.C204_destroyed_once_partial",
    "Flame.C204_extra_object"
   ],
   "note": "Exact for all histories: every object is destroyed once, in the order of removal, and a full array leaves the object with the pointer it refused. Violated: insert and emplace in front of an element make and destroy one extra default constructed object (C204_extra_object); erasing a range that is not the end is undefined."
  },
  {
   "property": "C205",
   "status": "partial",
   "theorems": [
    "Flame.C205_history_exact",
    "Flame.C205_destroyed_once",
    "Flame.C205_moved_ub"
   ],
   "note": "Proved for every history on an array that was not made from another one, destructor included. Violated for an array made by moving from one in which something waits: its destructor and that of its inner vector both destroy the pointers (C205_moved_ub). clean does not compile for pointers that cannot be copied."
  },
  {
   "property": "C206",
   "status": "partial",
   "theorems": [
    "Flame.C206_history_exact",
    "Flame.C206_destroyed_once_partial"
   ],
   "note": "Exact for all histories, destructor included: places, pointers, objects made and destroyed in order. Violated only in that erasing a range that is neither empty nor the end is undefined, in either storage. Not modelled: built-in capacity 0, allocation failure; insert (does not compile, Vector.hpp 785) and emplaceBack with arguments (forward without its template argument does not compile)."
  },
  {
   "property": "C207",
   "status": "partial",
   "theorems": [
    "Flame.C207_history_exact",
    "Flame.C207_copied_in_dangles",
    "Flame.C207_moved_in_leaks",
    "Flame.C207_alive_partial",
    "Flame.C207_by_value_destroys",
    "Flame.C207_nothing_destroyed"
   ],
   "note": "The property is false of the code, both ways: the counter of a new object is 0, so an object whose pointer was put in by copy is destroyed as soon as the original goes (C207_copied_in_dangles: using or removing the element is then undefined), and one whose pointer was moved in is never destroyed when removed (C207_moved_in_leaks). Passing the vector by value destroys every object in it (C207_by_value_destroys). C207_history_exact states what every such history does, including which calls are undefined; C207_alive_partial proves what remains: with moves, uses and removals only, every element's object is alive. clean() (all the destructor does besides freeing) destroys nothing either (C207_nothing_destroyed). Not modelled: the other calls of Vector."
  },
  {
   "property": "C21",
   "status": "partial",
   "theorems": [
    "Flame.C21_history_partial",
    "Flame.C21_insert_when_full_violated",
    "Flame.C21_insertRange_violated",
    "Flame.C21_empty_violated",
    "Flame.C21_erase_to_empty",
    "Flame.C21_unit_capacity_diverges",
    "Flame.C21_erase_storage",
    "Flame.C21_step_exact",
    "Flame.C21_history_exact"
   ],
   "note": "Refines the sequence for every history of supported calls, all inline capacities; insert into a full inline array away from the front, and insert/iterate on an empty container are refuted; capacity-1 divergence proved."
  },
  {
   "property": "C22",
   "status": "proved",
   "theorems": [
    "Flame.C22_byte_order",
    "Flame.C22_signed"
   ],
   "note": "All sizes, values, host and wire orders."
  },
  {
   "property": "C23",
   "status": "proved",
   "theorems": [
    "Flame.C23_round_trip",
    "Flame.C23_full_part",
    "Flame.C23_overflow_ub"
   ],
   "note": "All hosts, orders, field sequences, parts; exact layout, framing and round trip; no-room case is an overflow."
  },
  {
   "property": "C24",
   "status": "proved",
   "theorems": [
    "Flame.C24_partial_width",
    "Flame.C24_partial_width_write"
   ],
   "note": "Exact bytes in both orders and both directions, reading and writing; outside parts are ub."
  },
  {
   "property": "C25",
   "status": "partial",
   "theorems": [
    "Flame.C25_buffer_size",
    "Flame.C25_to_string_partial",
    "Flame.C25_one_digit_violated",
    "Flame.C25_least_violated",
    "Flame.C25_least_narrow_violated",
    "Flame.C25_exact"
   ],
   "note": "Canonical decimal text for every value of every integer type up to 64 bits except 0..9 and the least signed values; those are shown undefined (heap overflow, signed overflow) or wrong."
  },
  {
   "property": "C26",
   "status": "proved",
   "theorems": [
    "Flame.C26_assign_value",
    "Flame.C26_round_trip",
    "Flame.C26_convert_value",
    "Flame.C26_complement"
   ],
   "note": "All widths, both host byte orders, all four integer sizes; also when the wide integer is narrower than the primitive."
  },
  {
   "property": "C27",
   "status": "partial",
   "theorems": [
    "Flame.C27_format_in_bounds",
    "Flame.C27_round_trip_partial",
    "Flame.C27_middle_zero_violated",
    "Flame.C27_exact"
   ],
   "note": "Round trip and dotted decimal for all addresses without octets 100..109 / 200..209; for those the middle zero is dropped (proved). Formatting never leaves the buffer for any 16-bit contents."
  },
  {
   "property": "C28",
   "status": "partial",
   "theorems": [
    "Flame.C28_accepted_iff",
    "Flame.C28_parts",
    "Flame.C28_undefined_iff",
    "Flame.C28_well_formed_partial",
    "Flame.C28_rejected",
    "Flame.C28_terminates",
    "Flame.C28_large_octet_violated",
    "Flame.C28_empty_component_violated",
    "Flame.C28_few_components_violated",
    "Flame.C28_valid_iff",
    "Flame.C28_localhost",
    "Flame.C28_default_address",
    "Flame.C28_ctor"
   ],
   "note": "Exact characterisation of acceptance and of undefined behaviour for all strings; well-formed addresses are accepted with the right octets; the converse fails (fewer components, octets modulo 65536, empty components read through null)."
  },
  {
   "property": "C29",
   "status": "proved",
   "theorems": [
    "Flame.C29_unique_owner",
    "Flame.C29_destroyed_once",
    "Flame.C29_never_after",
    "Flame.C29_move_transfers"
   ],
   "note": "Invariant over all histories of creation, moves, clean, use and destruction, any number of variables."
  },
  {
   "property": "C30",
   "status": "partial",
   "theorems": [
    "Flame.C30_destroyed_while_owned",
    "Flame.C30_unowned_never_destroyed",
    "Flame.C30_drop_second_owner",
    "Flame.C30_dangling_ub",
    "Flame.C30_sole_owner_leaks",
    "Flame.C30_shared_alive_partial",
    "Flame.C30_default_ctor_ub",
    "Flame.C30_clean_counts_twice",
    "Flame.C30_self_assign_ub",
    "Flame.C30_copy_null_ub",
    "Flame.C30_default_useless",
    "Flame.C30_deref_iff"
   ],
   "note": "The code violates the property in every execution: the counter starts at 0, so the object is destroyed when the second-to-last owner goes and never when the last one goes; proved for all histories. Holds: an object with two or more owners is alive."
  },
  {
   "property": "C31",
   "status": "partial",
   "theorems": [
    "Flame.C31_holds_last_partial",
    "Flame.C31_history_partial",
    "Flame.C31_destroyed_once_partial",
    "Flame.C31_get_exact",
    "Flame.C31_current_index",
    "Flame.C31_equal_exact",
    "Flame.C31_copy_nonconst_moves",
    "Flame.C31_copy_nonconst_violated",
    "Flame.C31_assign_unset_ignored",
    "Flame.C31_assign_unset_violated",
    "Flame.C31_set_own_value_ub",
    "Flame.C31_get_by_index_ub",
    "Flame.C31_get_by_index_unset_ub"
   ],
   "note": "Holds over every history that avoids three operations; each of those is proved wrong: copying a non-const variant moves it, assigning an unset variant is ignored, setting a variant to its own value uses a destroyed object. get<INDEX>() is unchecked."
  },
  {
   "property": "C32",
   "status": "partial",
   "theorems": [
    "Flame.C32_holds_partial",
    "Flame.C32_bool_exact",
    "Flame.C32_get",
    "Flame.C32_no_double_destroy",
    "Flame.C32_destroyed_once_partial",
    "Flame.C32_assign_empty_ignored",
    "Flame.C32_init_leaks",
    "Flame.C32_init_filled_leaks"
   ],
   "note": "Holds unless an empty optional is assigned to a filled one (proved: ignored) or init() is used (proved: never sets the filled flag, value leaks)."
  },
  {
   "property": "C33",
   "status": "partial",
   "theorems": [
    "Flame.C33_holds_last_partial",
    "Flame.C33_one_handler",
    "Flame.C33_exactly_one",
    "Flame.C33_no_double_destroy_partial",
    "Flame.C33_no_leak_partial",
    "Flame.C33_copy_assign_ub",
    "Flame.C33_assign_unknown_ub",
    "Flame.C33_self_move_ub",
    "Flame.C33_move_leaks",
    "Flame.C33_handler_leaks"
   ],
   "note": "Handlers: exactly one is called. Lifetimes: copy assignment to a set object destroys twice, moves and non-const handlers leak (both proved in general); the rest holds."
  },
  {
   "property": "C34",
   "status": "partial",
   "theorems": [
    "Flame.C34_exactly_matching_handlers",
    "Flame.C34_calls_kind",
    "Flame.C34_stores_last_partial",
    "Flame.C34_lifetimes",
    "Flame.C34_assign_error_lost",
    "Flame.C34_copy_moves_source",
    "Flame.C34_assign_empty_ignored",
    "Flame.C34_done_clears"
   ],
   "note": "Exactly the matching handlers run, in order, for every chain. Assigning a const error loses it, copying moves out of the source (both proved)."
  },
  {
   "property": "C35",
   "status": "partial",
   "theorems": [
    "Flame.C35_holds_ordinary",
    "Flame.C35_destroyed_once_ordinary",
    "Flame.C35_holds_partial",
    "Flame.C35_destroyed_once_partial",
    "Flame.C35_overaligned_move_ub",
    "Flame.C35_get_exact",
    "Flame.C35_fits_in_array",
    "Flame.C35_check_exact",
    "Flame.C35_check_refuses_fitting"
   ],
   "note": "Full property for all types no more strictly aligned than AlignedAsType; for stricter types it holds exactly when moves keep the offset, otherwise destructor and access are proved undefined. move<T>() does not compile and is not modelled."
  },
  {
   "property": "C36",
   "status": "proved",
   "theorems": [
    "Flame.C36_linearizable",
    "Flame.C36_no_fault",
    "Flame.C36_no_deadlock",
    "Flame.C36_exactly_once",
    "Flame.C36_push_before_init_ub"
   ],
   "note": "For a queue after its first init and capacity > 0, any number of threads, any interleaving of single accesses: linearizable to a bounded FIFO, no fault, every call can complete, each pushed value popped at most once and in order. Pushing before init is undefined behaviour (C36_push_before_init_ub)."
  },
  {
   "property": "C37",
   "status": "partial",
   "theorems": [
    "Flame.C37_lists_partial",
    "Flame.C37_clear_empties_partial",
    "Flame.C37_exactly_once_partial",
    "Flame.C37_clear_stops_at_invalid",
    "Flame.C37_push_before_add_ub",
    "Flame.C37_concurrent_add_loses_event",
    "Flame.C37_valid_meaning",
    "Flame.C37_late_init_loses"
   ],
   "note": "Proved for registered kinds and valid values. Refuted in general: clear stops at a queued invalid value, a push before add is undefined behaviour, and two concurrent adds can lose a queued event."
  },
  {
   "property": "C38",
   "status": "partial",
   "theorems": [
    "Flame.C38_deadlock",
    "Flame.C38_completes_partial",
    "Flame.C38_queue_intact"
   ],
   "note": "Refuted: a signal arriving while its thread is inside a queue method deadlocks that queue for ever (C38_deadlock, at every such point). Proved: otherwise delivery completes, and the queue itself stays a correct FIFO."
  },
  {
   "property": "C39",
   "status": "proved",
   "theorems": [
    "Flame.C39_linearizable",
    "Flame.C39_exact",
    "Flame.C39_reads",
    "Flame.C39_no_deadlock"
   ],
   "note": "For an unsigned value of any width w and any number of threads: linearizable modulo 2^w, exact final value, reads between, no deadlock."
  },
  {
   "property": "C40",
   "status": "partial",
   "theorems": [
    "Flame.C40_locker_scope",
    "Flame.C40_locker_exclusive",
    "Flame.C40_unique_locker_partial",
    "Flame.C40_destroy_exact_partial",
    "Flame.C40_no_ub_partial",
    "Flame.C40_move_of_holder",
    "Flame.C40_move_onto_holder",
    "Flame.C40_self_move",
    "Flame.C40_copy_double_release",
    "Flame.C40_unlock_foreign",
    "Flame.C40_unlock_construction",
    "Flame.C40_relock_blocks",
    "Flame.C40_step_exact",
    "Flame.C40_reach_good"
   ],
   "note": "Locker: proved. UniqueLocker: proved while it is moved/copied only when not holding; refuted for moves of a holder, moves onto a holder, self-moves, copies, unlock of a non-holder and UNLOCK construction. C40_step_exact says for every call exactly when it goes wrong."
  },
  {
   "property": "C41",
   "status": "partial",
   "theorems": [
    "Flame.C41_blocked_partial",
    "Flame.C41_notify_wakes_partial",
    "Flame.C41_no_early_return_partial",
    "Flame.C41_notify_without_waiters",
    "Flame.C41_one_waiter_partial",
    "Flame.C41_notify_hangs",
    "Flame.C41_lock_lost",
    "Flame.C41_tryWait_frees",
    "Flame.C41_counter_overflow",
    "Flame.C41_tryWait_exact",
    "Flame.C41_tryWait_excludes",
    "Flame.C41_notify_retries",
    "Flame.C41_again_violated",
    "Flame.C41_free_violated",
    "Flame.C41_lock_not_retaken"
   ],
   "note": "Proved for at most 255 threads without tryWait (blocking, wake-up) and for one waiter and one notifier (completion). Refuted: with two or more waiters notify may never return; one notify may free the lock for good; tryWait on a fresh variable frees the lock; the 256th waiter is not blocked."
  },
  {
   "property": "C42",
   "status": "partial",
   "theorems": [
    "Flame.C42_base_partial",
    "Flame.C42_client_partial",
    "Flame.C42_base_once_partial",
    "Flame.C42_move_closes_stdin",
    "Flame.C42_assign_leaks",
    "Flame.C42_failed_socket_reported_valid",
    "Flame.C42_accepted_valid_iff",
    "Flame.C42_reconnect_partial",
    "Flame.C42_reconnect_closes_stdin",
    "Flame.C42_history_exact"
   ],
   "note": "Exactly-once holds on histories that avoid assignment over a held socket and destruction of a moved-from NetworkBase; both excluded cases are proved to violate the property from every state (moved-from destructor closes descriptor 0; assignment leaks). C42_history_exact covers every history: when something foreign is closed, which sockets are lost, when each is closed exactly once."
  },
  {
   "property": "C43",
   "status": "partial",
   "theorems": [
    "Flame.C43_library_partial",
    "Flame.C43_moved_from_ub",
    "Flame.C43_assign_leaks",
    "Flame.C43_cell_leaks",
    "Flame.C43_cells_exact",
    "Flame.C43_step_exact",
    "Flame.C43_defined_exact",
    "Flame.C43_lost_exact"
   ],
   "note": "Exactly-once holds on histories that do not touch moved-from objects or assign over loaded ones; destroying a moved-from Library dereferences null, assignment leaks, proved generally. C43_step_exact: these are the only failing calls. C43_lost_exact: over all histories exactly the libraries assigned over are lost."
  },
  {
   "property": "C44",
   "status": "partial",
   "theorems": [
    "Flame.C44_native_partial",
    "Flame.C44_move_ctor_ub",
    "Flame.C44_semaphore_assign_leaks",
    "Flame.C44_semaphore_move_destroys_nothing",
    "Flame.C44_looks_like_initializer",
    "Flame.C44_step_exact",
    "Flame.C44_defined_exact",
    "Flame.C44_lost_exact"
   ],
   "note": "Exactly-once holds for Mutex/Spin without move construction and Semaphore without assignment over a held one, given the initialised bytes differ from the initializer constant; each excluded case is proved to violate it. C44_step_exact: these are the only failing calls. C44_lost_exact: the exact loss over all histories for every C library (any initial bytes)."
  },
  {
   "property": "C45",
   "status": "proved",
   "theorems": [
    "Flame.C45_ram_stream",
    "Flame.C45_read_is_written",
    "Flame.C45_alloc_failure_diverges"
   ],
   "note": "For every history of reads and writes over linear and circular ranges, provided allocation succeeds; when it fails the vector under the stream diverges (third theorem)."
  },
  {
   "property": "C46",
   "status": "partial",
   "theorems": [
    "Flame.C46_split",
    "Flame.C46_covers_iff",
    "Flame.C46_not_wrapping_violated"
   ],
   "note": "The split is right exactly for ranges that wrap (e < b); for every other range the pieces cover the whole buffer in addition."
  },
  {
   "property": "C47",
   "status": "proved",
   "theorems": [
    "Flame.C47_putData",
    "Flame.C47_history",
    "Flame.C47_full_refuses"
   ],
   "note": "putData stores exactly the longest prefix that fits and returns its length, in every history; flush leaves the buffer alone."
  },
  {
   "property": "C48",
   "status": "partial",
   "theorems": [
    "Flame.C48_ranges_exact",
    "Flame.C48_ranges_partial",
    "Flame.C48_prefix_violated",
    "Flame.C48_bytes"
   ],
   "note": "Object comparison fully proved; range comparison decides equality only for ranges of the same length (a prefix counts as equal)."
  },
  {
   "property": "C49",
   "status": "partial",
   "theorems": [
    "Flame.C49_least_partial",
    "Flame.C49_null",
    "Flame.C49_middle_ub",
    "Flame.C49_end_null",
    "Flame.C49_exact"
   ],
   "note": "Least aligned address for all alignments whenever it lies in the same half of the address space; at the two ends the signed addition overflows or wraps to null."
  },
  {
   "property": "C50",
   "status": "partial",
   "theorems": [
    "Flame.C50_upperedBit",
    "Flame.C50_constants_partial",
    "Flame.C50_swapped",
    "Flame.C50_masks",
    "Flame.C50_minimalType",
    "Flame.C50_upperedBit_beyond",
    "Flame.C50_types"
   ],
   "note": "BIT64_61 and BIT64_63 are exchanged; everything else proved."
  },
  {
   "property": "C51",
   "status": "partial",
   "theorems": [
    "Flame.C51_narrow",
    "Flame.C51_wide_partial",
    "Flame.C51_multiple_ub",
    "Flame.C51_argument_width_violated",
    "Flame.C51_signed_negative_ub",
    "Flame.C51_inverse",
    "Flame.C51_binary",
    "Flame.C51_signed_exact",
    "Flame.C51_signed_narrow",
    "Flame.C51_int_argument_violated"
   ],
   "note": "Rotation for 8/16-bit types, and for 32/64-bit types unless the shift is a multiple of the width (undefined) or the argument type is narrower (wrong result); an int count for 8/16-bit types does not rotate (0 or undefined to the right, plain shift to the left). Signed types: undefined for negative values, right for other 8/16-bit values, for wider ones exactly if the left shift stays below 2^width. The header itself does not compile (IsIntegralType is declared nowhere, all members are private); the theorems are about the operators' bodies as written."
  },
  {
   "property": "C52",
   "status": "partial",
   "theorems": [
    "Flame.C52_contexts_partial",
    "Flame.C52_unlock_never_called",
    "Flame.C52_unlock_locks",
    "Flame.C52_missing_reported",
    "Flame.C52_missing_destroy_ub",
    "Flame.C52_assign_leaks",
    "Flame.C52_moved_from_destroys_null",
    "Flame.C52_construct_exact",
    "Flame.C52_destroy_exact"
   ],
   "note": "unlock() calls the lock callback (proved: no execution ever calls the unlock callback); contexts are destroyed exactly once when all callbacks are given and nothing is assigned over."
  },
  {
   "property": "C53",
   "status": "partial",
   "theorems": [
    "Flame.C53_copy_partial",
    "Flame.C53_copy_overlap",
    "Flame.C53_copy_short_ub",
    "Flame.C53_count",
    "Flame.C53_foreach"
   ],
   "note": "copy has no output length: too short a destination is overrun; overlapping forward copies repeat elements."
  },
  {
   "property": "C54",
   "status": "proved",
   "theorems": [
    "Flame.C54_path"
   ],
   "note": "For every directory, name, prefix, suffix and buffer size."
  },
  {
   "property": "C55",
   "status": "partial",
   "theorems": [
    "Flame.C55_push_own_partial",
    "Flame.C55_push_own_full_ub",
    "Flame.Vec.C55_insert_own",
    "Flame.Vec.C55_insert_own_violated",
    "Flame.Vec.C55_insertRange_own",
    "Flame.Vec.C55_insertRange_own_full_ub"
   ],
   "note": "Own-element arguments work without reallocation for append, for sources before the insert position and, for types whose moved-from value stays, at it; otherwise violated. Own ranges are settled case by case (exact contents); every reallocating call reads freed storage (all proved)."
  },
  {
   "property": "C56",
   "status": "partial",
   "theorems": [
    "Flame.C56_no_leak_partial",
    "Flame.C56_erase_leaks",
    "Flame.C56_exact",
    "Flame.C56_balanced_partial",
    "Flame.C56_emplace_violated",
    "Flame.C56_reserve_calls"
   ],
   "note": "Exact: objects constructed = objects destroyed + one per erase(it) of an inner element + one per emplace before an existing element (constructed over without destruction). Holds for histories with neither. erase(it) of an inner element leaves the object in the freed storage (proved)."
  },
  {
   "property": "C57",
   "status": "proved",
   "theorems": [
    "Flame.C57_static_vector_copies"
   ],
   "note": ""
  },
  {
   "property": "C58",
   "status": "proved",
   "theorems": [
    "Flame.C58_erase_reverse"
   ],
   "note": "Range erase stated for trivially assignable elements (see C05 for the others)."
  },
  {
   "property": "C59",
   "status": "proved",
   "theorems": [
    "Flame.C59_move_ctor"
   ],
   "note": "For every represented state (Rep), which every history reaches (C09)."
  },
  {
   "property": "C60",
   "status": "partial",
   "theorems": [
    "Flame.C60_destruction_partial",
    "Flame.C60_copied_destroyed_twice",
    "Flame.C60_clean_leaks",
    "Flame.C60_exact"
   ],
   "note": "Holds for every array used from its construction on; an array that was copied or moved from a non-empty one can never be destroyed (exact, whatever is pushed, popped or cleaned afterwards); clean leaks."
  },
  {
   "property": "C61",
   "status": "proved",
   "theorems": [
    "Flame.C61_reverse_iteration"
   ],
   "note": ""
  },
  {
   "property": "C62",
   "status": "partial",
   "theorems": [
    "Flame.C62_no_leak_partial",
    "Flame.C62_violated",
    "Flame.C62_exact"
   ],
   "note": "For every history inside ListSpec.safe destruction releases all nodes; a list emptied by popBack cannot be destroyed. C62_exact: after any history of calls that leave a working list and one more valid call, destruction releases every node exactly if that call is not one of popBack of the only element, inserting into an empty list, erasing [end, end) of a list with elements."
  },
  {
   "property": "C63",
   "status": "partial",
   "theorems": [
    "Flame.C63_compile_time_partial",
    "Flame.C63_compile_time_signed_violated"
   ],
   "note": "Unsigned variants proved; the signed variants call themselves for ever (refuted)."
  },
  {
   "property": "C64",
   "status": "partial",
   "theorems": [
    "Flame.C64_signed_value_partial",
    "Flame.C64_negative_violated",
    "Flame.C64_exact"
   ],
   "note": "Holds for non-negative values; every negative value read through a wider signed type changes by 256^sizeof (zero extension)."
  },
  {
   "property": "C65",
   "status": "partial",
   "theorems": [
    "Flame.C65_constructed_value_partial",
    "Flame.C65_constructed_violated",
    "Flame.C65_exact"
   ],
   "note": "Low bytes are right for any memory; upper bytes stay indeterminate, so the number differs for some memory whenever the wide integer is wider."
  },
  {
   "property": "C66",
   "status": "partial",
   "theorems": [
    "Flame.C66_complement_operand_violated"
   ],
   "note": "Violated for every non-empty wide integer: operator~ flips in place."
  },
  {
   "property": "C67",
   "status": "partial",
   "theorems": [
    "Flame.C67_compound_violated"
   ],
   "note": "Violated: every compound operator is a stub that leaves the left operand unchanged."
  },
  {
   "property": "C68",
   "status": "partial",
   "theorems": [
    "Flame.C68_read_partial",
    "Flame.C68_read_end_violated",
    "Flame.C68_short_read_violated",
    "Flame.C68_read_outside",
    "Flame.C68_write_partial",
    "Flame.C68_write_end_violated",
    "Flame.C68_read_linear_exact",
    "Flame.C68_read_failed_violated",
    "Flame.C68_read_second_violated",
    "Flame.C68_write_linear_exact",
    "Flame.C68_write_failed_violated",
    "Flame.C68_write_second_violated",
    "Flame.C68_short_write_violated",
    "Flame.C68_read_report_exact",
    "Flame.C68_write_report_exact"
   ],
   "note": "Correct for wrapping ranges whose second piece is non-empty and full transfers; otherwise the theorems give the exact wrong results."
  },
  {
   "property": "C69",
   "status": "partial",
   "theorems": [
    "Flame.C69_streams_partial",
    "Flame.C69_borrowed",
    "Flame.C69_assign_leaks",
    "Flame.C69_self_move",
    "Flame.C69_continue_owning_closes",
    "Flame.C69_named_pipe_ub",
    "Flame.C69_named_pipe_leaks",
    "Flame.C69_named_writer_default_ub",
    "Flame.C69_named_writer_moved",
    "Flame.C69_lost_exact"
   ],
   "note": "Proved when owning streams are not assigned to and non-owners are not told to continue owning; otherwise leaks and foreign closes are proved. NamedPipeStream never closes its descriptors. C69_lost_exact allows assignments over owning streams and to themselves and says exactly which files stay open."
  },
  {
   "property": "C70",
   "status": "proved",
   "theorems": [
    "Flame.C70_copyBytes",
    "Flame.C70_length",
    "Flame.C70_extrema"
   ],
   "note": "Exact results for all inputs."
  },
  {
   "property": "C71",
   "status": "partial",
   "theorems": [
    "Flame.C71_thread_partial",
    "Flame.C71_object_outlives_thread_partial",
    "Flame.C71_join_then_drop_ub",
    "Flame.C71_detach_ub",
    "Flame.C71_move_ctor_ub",
    "Flame.C71_failed_run_drop_ub",
    "Flame.C71_failed_run_never_retried",
    "Flame.C71_run_twice_leaks",
    "Flame.C71_assign_leaks",
    "Flame.C71_moved_thread_dangles",
    "Flame.C71_defined_exact",
    "Flame.C71_lost_exact"
   ],
   "note": "Holds when idle objects are run, never joined or detached by hand and moved only onto idle ones. join() then destruction, detach(), move construction and destruction after a failed start are undefined; running twice and assigning over lose a thread (all proved). C71_defined_exact and C71_lost_exact give the exact set of defined calls and of lost threads over all histories."
  },
  {
   "property": "C72",
   "status": "partial",
   "theorems": [
    "Flame.C72_semaphore_status",
    "Flame.C72_try_lock",
    "Flame.C72_try_wait_partial",
    "Flame.C72_try_wait_violated",
    "Flame.C72_semaphore_value",
    "Flame.C72_pthread_exact",
    "Flame.C72_pthread_failure_hidden",
    "Flame.C72_pthread_partial",
    "Flame.C72_mutex_init_exact",
    "Flame.C72_mutex_init_violated",
    "Flame.C72_mutex_init_partial",
    "Flame.C72_mutex_destroy_violated",
    "Flame.C72_detach_exact"
   ],
   "note": "Semaphores and try-locks report truthfully; pthread-based functions report the old errno instead of the returned code, so a failure with errno 0 is reported as success."
  },
  {
   "property": "C73",
   "status": "partial",
   "theorems": [
    "Flame.C73_client_exact",
    "Flame.C73_client_partial",
    "Flame.C73_other_host",
    "Flame.C73_server",
    "Flame.C73_port_wraps",
    "Flame.C73_get_port",
    "Flame.C73_get_exact",
    "Flame.C73_get_violated",
    "Flame.C73_reconnect_localhost",
    "Flame.C73_failed_reconnect_forgets"
   ],
   "note": "Exact for every address: right unless an octet is 100..109 or 200..209 (another host). Reading back is wrong for every address with a non-zero octet after the first, so reconnect goes elsewhere. inet_addr is a parameter with its documented behaviour."
  },
  {
   "property": "C74",
   "status": "partial",
   "theorems": [
    "Flame.C74_wait_exact",
    "Flame.C74_wait_partial",
    "Flame.C74_overshoot_diverges",
    "Flame.C74_closed_diverges"
   ],
   "note": "The loop compares for equality: a result is right, but it never returns when more bytes than asked for arrive at once or the peer closes early."
  },
  {
   "property": "C75",
   "status": "partial",
   "theorems": [
    "Flame.C75_alive_exact",
    "Flame.C75_broken_is_alive",
    "Flame.C75_nonblock_lost",
    "Flame.C75_alive_partial",
    "Flame.C75_stays_nonblocking"
   ],
   "note": "Orderly ends are recognised; any socket error counts as alive; a non-blocking descriptor is left blocking."
  },
  {
   "property": "C76",
   "status": "proved",
   "theorems": [
    "Flame.C76_transfer",
    "Flame.C76_status_sticks"
   ],
   "note": "Exact for all native outcomes."
  },
  {
   "property": "C77",
   "status": "partial",
   "theorems": [
    "Flame.C77_reply_partial",
    "Flame.C77_receive_exact",
    "Flame.C77_send_after_wait_ub",
    "Flame.C77_moved_server_wrong_descriptor",
    "Flame.C77_dropped_server_ub"
   ],
   "note": "Holds while servers stay in place and send follows receive; send directly after wait() dereferences null; after moving the server replies go through descriptor 0; after destroying it they are undefined."
  },
  {
   "property": "C78",
   "status": "partial",
   "theorems": [
    "Flame.C78_dispatch",
    "Flame.C78_unknown",
    "Flame.C78_delivery_partial",
    "Flame.C78_data_lost",
    "Flame.C78_connections_starve",
    "Flame.C78_no_invented"
   ],
   "note": "Dispatch is exact and nothing is invented; a data notification can be lost and connections can starve, as proved."
  },
  {
   "property": "C79",
   "status": "partial",
   "theorems": [
    "Flame.C79_restore_exact",
    "Flame.C79_nonblock_lost",
    "Flame.C79_failed_enable_not_undone",
    "Flame.C79_status",
    "Flame.C79_enable",
    "Flame.C79_status_exact"
   ],
   "note": "Exact description of the flags after disable; O_NONBLOCK set beforehand is lost and a failed enable is not undone."
  },
  {
   "property": "C80",
   "status": "partial",
   "theorems": [
    "Flame.C80_uninitialized_violated",
    "Flame.C80_never_an_error",
    "Flame.C80_initialized_partial",
    "Flame.C80_initialize_result",
    "Flame.C80_failed_initialize"
   ],
   "note": "An uninitialised library answers 'nothing' or 0 slots instead of an error: errors are lost in Expected (C34). Values of an initialised library and the code returned by initialize are right."
  },
  {
   "property": "C81",
   "status": "partial",
   "theorems": [
    "Flame.C81_slot_list_empty",
    "Flame.C81_slot_list_violated",
    "Flame.C81_slot_list_partial"
   ],
   "note": "The list is always empty (resize to the capacity does nothing, C04); the identifiers lie behind its end."
  },
  {
   "property": "C82",
   "status": "partial",
   "theorems": [
    "Flame.C82_pairing_partial",
    "Flame.C82_finalize_twice",
    "Flame.C82_info_failure_leaks",
    "Flame.C82_refused_finalize",
    "Flame.C82_second_initialize",
    "Flame.C82_history_exact"
   ],
   "note": "Holds for careful histories; finalize() by hand leads to a second C_Finalize, and a failing C_GetInfo leaves the module initialised for ever. C82_history_exact: for every history and all answers, the module is called uninitialised exactly if, after an initialisation answered OK, a call uses it when its last change was a C_Finalize; destruction leaves it initialised exactly if it was and either no initialisation answered OK or C_Finalize refuses."
  },
  {
   "property": "C83",
   "status": "partial",
   "theorems": [
    "Flame.C83_interface_list_violated",
    "Flame.C83_interface_list_empty",
    "Flame.C83_no_list"
   ],
   "note": "The call destroys the list it points to; the list was empty anyway."
  },
  {
   "property": "C84",
   "status": "partial",
   "theorems": [
    "Flame.C84_same_class_partial",
    "Flame.C84_ge_le_violated",
    "Flame.C84_mixed_partial",
    "Flame.C84_mixed_exact",
    "Flame.C84_eq_and_ne",
    "Flame.C84_order_violated",
    "Flame.C84_ge_le_mixed_violated",
    "Flame.C84_bool"
   ],
   "note": ">= and <= are > and <; with a wider operand == and != can both be true and the order is wrong. Exact characterisation for all values."
  },
  {
   "property": "C85",
   "status": "partial",
   "theorems": [
    "Flame.C85_arith_exact",
    "Flame.C85_arith_partial",
    "Flame.C85_wraps",
    "Flame.C85_u16_mul_ub",
    "Flame.C85_div_partial",
    "Flame.C85_div_reduced_ub",
    "Flame.C85_shift_partial",
    "Flame.C85_shift_reduced",
    "Flame.C85_or",
    "Flame.C85_shift_exact"
   ],
   "note": "Exact results are right; undefined: large products of uint16, division by multiples of 2^n of a wider type; shift counts are reduced modulo 2^n."
  },
  {
   "property": "C86",
   "status": "proved",
   "theorems": [
    "Flame.C86_bitwise",
    "Flame.C86_round_trip"
   ],
   "note": "For all operand types and values."
  },
  {
   "property": "C87",
   "status": "partial",
   "theorems": [
    "Flame.C87_shl_exact",
    "Flame.C87_shift_partial",
    "Flame.C87_shift_ub"
   ],
   "note": "Right up to 24 (left) and 31 (right); beyond that undefined, exactly characterised."
  },
  {
   "property": "C88",
   "status": "proved",
   "theorems": [
    "Flame.C88_range",
    "Flame.C88_each_once",
    "Flame.C88_reversed"
   ],
   "note": "Also proved what happens with reversed ends."
  },
  {
   "property": "C89",
   "status": "partial",
   "theorems": [
    "Flame.C89_moves_partial",
    "Flame.C89_u32_difference",
    "Flame.C89_signed_difference_ub",
    "Flame.C89_difference_exact"
   ],
   "note": "Moves are exact; differences of uint32 iterators are unsigned and far-apart int32/int64 iterators overflow."
  },
  {
   "property": "C90",
   "status": "partial",
   "theorems": [
    "Flame.C90_identity_exact",
    "Flame.C90_identity_violated",
    "Flame.C90_identity_partial"
   ],
   "note": "waitForSlotEvent lets the module write the event's slot into the object's own identifier; exact identifier after every history."
  },
  {
   "property": "C91",
   "status": "partial",
   "theorems": [
    "Flame.C91_uninitialized_violated",
    "Flame.C91_info_never_an_error",
    "Flame.C91_initialized_partial"
   ],
   "note": "On an uninitialised library waiting returns OK; the information never reports an error. On an initialised one the module's codes are returned."
  },
  {
   "property": "C92",
   "status": "partial",
   "theorems": [
    "Flame.C92_acceptable",
    "Flame.C92_values_partial",
    "Flame.C92_self_assign",
    "Flame.C92_self_move_violated",
    "Flame.C92_moved_from",
    "Flame.C92_default"
   ],
   "note": "Holds for different objects and every history; a self-move loses everything but the flags, and the two moves leave different sources."
  },
  {
   "property": "C93",
   "status": "partial",
   "theorems": [
    "Flame.C93_handles_partial",
    "Flame.C93_refused",
    "Flame.C93_lock_exact",
    "Flame.C93_lock_failure_hidden",
    "Flame.C93_dead_handle_ub"
   ],
   "note": "Handles are managed correctly over all careful histories; native failures of lock and unlock are reported as OK."
  },
  {
   "property": "C94",
   "status": "partial",
   "theorems": [
    "Flame.C94_codes_exact",
    "Flame.C94_protocol_partial",
    "Flame.C94_protocol_violated",
    "Flame.C94_null_ub",
    "Flame.C94_info_not_padded",
    "Flame.C94_with_library",
    "Flame.C94_values",
    "Flame.C94_info_exact"
   ],
   "note": "The token has no state: polite histories get the right codes, double or missing initialisation is not noticed, null function list pointers are dereferenced, named interfaces refused."
  },
  {
   "property": "C95",
   "status": "partial",
   "theorems": [
    "Flame.C95_two_calls_partial",
    "Flame.C95_small_buffer_ub",
    "Flame.C95_count_not_written",
    "Flame.C95_slots_not_written",
    "Flame.C95_interfaces_exact"
   ],
   "note": "The usual two calls work; an empty array is overrun, and the count is never written when an array is given."
  },
  {
   "property": "C96",
   "status": "partial",
   "theorems": [
    "Flame.C96_copy_partial",
    "Flame.C96_kdf_violated",
    "Flame.C96_list3_violated"
   ],
   "note": "Holds for 84 wrappers; NistSp800Hyphen108KdfParams forgets prfType and FunctionList3 forgets C_MessageDecryptInit."
  },
  {
   "property": "C97",
   "status": "partial",
   "theorems": [
    "Flame.C97_constructor",
    "Flame.C97_all_set_partial",
    "Flame.C97_kdf_violated",
    "Flame.C97_default_exact",
    "Flame.C97_default_violated"
   ],
   "note": "Value constructors are right (one cannot set prfType); 67 of the 86 default constructors leave every member indeterminate."
  },
  {
   "property": "C98",
   "status": "partial",
   "theorems": [
    "Flame.C98_function_lists",
    "Flame.C98_copied_list_violated"
   ],
   "note": "Right as constructed; copying the version 3 list makes C_MessageDecryptInit indeterminate."
  },
  {
   "property": "C99",
   "status": "partial",
   "theorems": [
    "Flame.Alloc.C99_call",
    "Flame.Alloc.C99_history_partial",
    "Flame.Alloc.C99_no_leak_partial",
    "Flame.Alloc.C99_lvalue_args",
    "Flame.Alloc.C99_rvalue_args_violated",
    "Flame.Alloc.C99_overflow_ub",
    "Flame.Alloc.C99_no_memory",
    "Flame.Alloc.C99_result",
    "Flame.Alloc.C99_destroy_null",
    "Flame.Alloc.C99_destroy_too_many_ub",
    "Flame.Alloc.C99_destroy_too_few",
    "Flame.Alloc.C99_request_bound",
    "Flame.Alloc.C99_history_exact"
   ],
   "note": "Proved for all careful histories with count*sizeof(T) < 2^64. For greater counts the block is too small and construct is undefined; rvalue arguments are moved from by the first element only."
  }
 ]
}