# Formal model of OpenDevicePartnership/patina in Lean 4

## Layout

* `properties.jsonl` – the English properties.
* `lean/Verif/<Area>/Model.lean` (or `…Model.lean`) – the model, function by function. Every definition cites the
  file and lines of `/repo` it models and lists its simplifications.
* `lean/Verif/<Area>/Spec.lean` – the small independent specification. Where there is no such file the vocabulary is at
  the top of the file with the theorems, under "Specification".
* `lean/Verif/<Area>/Lemmas.lean` and others – helper lemmas.
* `lean/Verif/<Area>/Props.lean` and others – the property theorems. `Witness.lean` (or the end of the file) has concrete
  cases that meet the hypotheses, and the findings.
* `MANIFEST.json` – property → theorem names.
* `AXIOMS.txt` – the output of `#print axioms` for every theorem named in the manifest.
* `seeded/LOG.jsonl` – seeded bugs and the theorems that caught them.

## Conventions of the model

* Rust machine integers are `Nat` with explicit range conditions, or `BitVec`/`UInt` where bit operations matter. An
  arithmetic overflow is an explicit `panic` outcome where the code uses plain `+`/`-` and the property is about panics;
  otherwise a hypothesis bounds the inputs. `/repo` builds release without overflow checks and debug assertions and
  dev/test with both; models have a parameter `dbg : Bool` where it matters.
* A panic path (`unwrap`, `expect`, slice index, `assert!`) is an explicit error value.
* `&mut self` methods return the new state. Pointers to database objects become keys or addresses.
* Interrupts, other CPUs and calls into foreign code (notify functions, driver entry points, component code) are modelled
  by quantifying over arbitrary interleavings or arbitrary functions on the model state.
* A loop that may run forever has fuel; `none` stands for a call that has not returned yet. "Returns" and "never
  returns" are then theorems about all amounts of fuel.
* When the code violates a property, the negation is proved with a concrete witness, and what is true is proved beside it:
  with a condition that excludes the case, or with the suffix `_partial`.

## Trusted base

* Lean's kernel, and the axioms `propext`, `Classical.choice`, `Quot.sound`; `AXIOMS.txt` says which of them each theorem
  depends on. No axioms are added, there is no `sorry`, and neither `native_decide` nor `bv_decide` is used.
* The faithfulness of the hand-written models to the Rust source, as cited definition by definition. The code was read,
  not run.
* Behaviour of external crates and of the Rust standard library is assumed, see the table below.
* Not modelled anywhere: CPU and interrupt assembly, logging output, the debugger, memory ordering weaker
  than sequential consistency, undefined behaviour of `unsafe` code other than what the models make explicit (bounds,
  aliasing of allocations), performance.

| outside the repository | how it is treated | where |
|---|---|---|
| `linked_list_allocator::Heap` | a parameter with its contract as hypothesis (`HeapOk`); `Bump.lean` shows the contract can be met | Alloc |
| `patina_paging` | a map from pages to attributes which changes a whole range or fails | Paging, ImageMem |
| `goblin` | the parsed headers are arbitrary values | Pecoff, ImageMem |
| `scroll` (`gwrite`/`gread`) | little-endian codec with its bounds check | Perf |
| `crc32fast` | CRC-32/ISO-HDLC, computed bit by bit | MemMap, Tables |
| `r_efi` | constants and layouts copied from the UEFI specification | all |
| `uuid` | the composition of its calls is the identity on 16 bytes | Depex |
| `corosensei` coroutines | a started image runs until it exits or returns | Images |
| `BTreeMap`, `BTreeSet`, `Vec`, `LinkedList`, `spin` | finite maps, lists, a lock; for the event queue the consequences of an inconsistent `Ord` are left open | all |

## What is modelled and how it is proved

| properties | directory | code | method | not modelled / assumed |
|---|---|---|---|---|
| C01 | Base | `sdk/patina/src/base.rs` | bit masks against smallest/largest multiples | signed instances |
| C02–C04 | Depex | `core/patina_internal_depex` | structural induction over expressions, byte strings, histories of evaluations | |
| C05–C10, C46 | Events | `event_db.rs`, `events.rs` | invariant over histories; execution relation with arbitrary notify functions and interrupts at every point | time as given ticks |
| C11 | Mutex | `tpl_lock.rs`, `sdk/…/tpl_mutex.rs` | transition system with nested interrupts, invariant | |
| C12–C16 | Protocol | `protocol_db.rs` | invariant; exact effect of each call on what can be asked | hash function arbitrary; counters do not overflow |
| C76–C80 | Services | `protocols.rs` | drivers and event functions are arbitrary functions; rollback by induction | pointers that are not null can be read and written |
| C44–C45 | Connect | `driver_services.rs` | recorded calls; decreasing candidate list | Security2 interface not null |
| C17–C21 | Gcd | `gcd/*.rs` (memory and IO space) | refinement to a function address → state; the block tree as its sorted list (C22) | |
| C52 | Resources | `gcd.rs`, start-up | HOB list folded into the address map | |
| C22–C26, C47 | Collections | `core/patina_internal_collections` | pointer-level heap with ownership predicate, refinement to sorted lists | |
| C27–C28, C53–C55, C59 | Alloc | `fixed_size_block_allocator.rs`, `uefi_allocator.rs`, `allocator.rs` | memory as bytes, free lists in memory, disjointness invariant over any number of allocators; any call may come in between | users leave the pool header alone; `EnvOk` for setting attributes; creating an allocator while HOBs are read allocates nothing |
| C56–C58 | MemMap | `allocator.rs`, `memory_attributes…`, `GetMemoryMap`, `ExitBootServices` | list transformations; callbacks arbitrary | allocations made while building are a parameter |
| C63, C65–C66 | Paging, Walk | `spin_locked_gcd.rs` with the page table, memory attribute protocol, memory manager | invariant over histories of proper calls | see crate table |
| C60–C62 | Pecoff | `pecoff.rs`, `pecoff/relocation.rs` | byte lists; round trip and exactness | `img.length + rvaOffset ≤ 2^64`; resource section |
| C64 | ImageMem | `image.rs`: memory, protection, stack | on top of Paging | section headers as parsed |
| C72 | Images | `image.rs`: load, start, exit, unload | nesting by induction on executions | |
| C67–C69 | Tables | `config_tables*`, debug image table, memory attributes table | state machine, instruction-level for the debug table | only the status is volatile, other writes in program order |
| C70 | Misc | `misc_boot_services.rs` | arithmetic | |
| C71 | Runtime | `runtime.rs` | doubly linked lists in memory | |
| C73–C74 | Perf | `sdk/…/performance`, `patina_performance` | codec round trip, invariant of the published table | float timestamps |
| C75 | Guid | `sdk/patina/src/base/guid.rs` | codec round trip | |
| C29–C30 | AdvLog | `patina_adv_logger` | interleaved writers at the granularity of memory actions; framing | sequential consistency |
| C31 | DevicePath | `device_path_support.rs` | induction over node lists | |
| C32–C33, C49–C50 | Component | `sdk/patina/src/component`, `lib.rs` | arbitrary component code; invariant over dispatch histories | |
| C34–C36, C51 | Dispatcher | `dispatcher.rs` | arbitrary machine; invariants over passes | |
| C37–C41, C48 | Ffs | `sdk/patina_ffs` | byte-level codecs, round trip; characterisation of panics and hangs | compression algorithms |
| C81–C84 | Fv | `fv.rs` | on top of Ffs, DevicePath and Services; iterators followed as far as needed; refinement to lists of files and trees of sections | volumes do not change; addresses the allocator returns are fresh |
| C85–C86 | Variable | `sdk/patina/src/runtime_services.rs` | the firmware as a parameter with the UEFI contract; a reference firmware as witness | mutual exclusion of calls |
| C87–C89 | Stack | `core/patina_stacktrace` | prologues as lists of operations with their effect on the stack pointer, encoded to unwind codes; induction over prologues and over chains of calls | unmapped memory, alignment checks, reading the registers, log output |
| C90–C91 | Pages | `component/service/memory.rs`, `memory_manager.rs` | the manager as a parameter with its contract; invariant over all histories of a component: every allocated range has one owner | destructors of values, writes through raw pointers |
| C92–C93 | Interrupt | `exception_handling.rs`, `cpu_arch_protocol.rs`, `hw_interrupt_protocol.rs`, `gic_manager.rs`, the table of `x64/interrupt_manager.rs` | state machine with the handlers, the exceptions in progress and the calls made; induction over histories. The crate `arm_gic` by what the registers mean | initialisation of the controller, an exception inside a registration |
| C94–C95 | Entry | `x64/interrupt_handler.asm`, `aarch64/exception_handler.asm` | an interpreter of the instructions used; the code as a list of them, run on an arbitrary processor state by reduction in pieces | the processor by its manuals; a handler keeps the registers its calling convention says and the memory above the context; lower exception levels, levels 1 and 3 |
| C96–C101 | Debugger | `core/patina_debugger` (`memory.rs`, `dbg_target/`, `arch/x64.rs`, `arch/aarch64.rs`, `system.rs`, `transport.rs`, `debugger.rs`) | memory with page tables, histories of breakpoints and watchpoints over all lengths, the registers against the XML descriptions, debug registers against the manuals | the packets of the protocol (`gdbstub`) are not modelled: what the other side does is an arbitrary function; the processor by its manuals |
| C102–C103 | SdkPath | `sdk/patina/src/uefi_protocol/device_path.rs`, `device_path/device_path_node.rs`, `device_path/nodes.rs` | paths as lists of instances of nodes; every operation on the encoding is proved to be the operation on these lists, by induction over them; typed nodes against the tables of the UEFI specification. Not modelled: failing allocations in `append`, `Display`/`Debug` text, `BootServicesBox` copies. |
| C104–C107 | SdkBoot | `sdk/patina/src/boot_services.rs` (the functions that own memory), `boot_services/boxed.rs`, `c_ptr.rs`, `global_allocator.rs` | histories over a pool with any allocator: boxes against a list of values, interface objects against a count of owners; buffers against the contracts of `GetMemoryMap` and `LocateHandle` of the UEFI specification; the global allocator for all sizes, alignments and pool addresses. Not modelled: the wrappers that only pass arguments on and turn a status into a `Result`. |
| C108 | Paging (Init) | `spin_locked_gcd.rs` `init_paging` | the list of calls that set attributes, run on the model of C63; invariants over the calls for what holds even if some fail, and the exact page table (last call covering a page) if none does | the crate `patina_paging` as for C63, parsing of the image of the core (a parameter), installing the table |
| C109 | Cache | `cpu/aarch64/cpu.rs` `flush_data_cache`, `cpu/x64/cpu.rs` `flush_data_cache`, `get_timer_value` | the loop over addresses on a model of a cache (absent, clean or dirty lines over memory); induction over the loop gives the lines touched, arithmetic gives which those are for any start, length and line size | the cache itself and the three instructions are hardware and modelled by their architecture; no evictions or loads in between |
| C110 | Log (Format) | `log.rs` `Format::write` | the text of a line; a reader of JSON objects written apart (JsonSpec) reads it back | how `core::fmt` splits a line (open in C111) |
| C111 | Log (Logger) | `serial_logger.rs`, `patina_adv_logger/logger.rs`, `adv_log_write` | the buffered writer over any pieces; invariant: texts written so far and bytes waiting make the pieces so far | formatting itself; concurrent writers (C29, C30) |
| C112 | Log (Parser) | `patina_adv_logger/parser.rs`, `open_log` | the loop over entries with the carried entry; the text is a map over entries with their predecessors | `write_header`, the command line, alignment of the bytes |
| C113 | Ffs (Extractors) | `patina_ffs_extractors` | the three extractors and their composition on the section model of C37, from the bytes in the flash; the theorem about the CRC of `MemMap/Crc` gives detection | the decompressors (arbitrary functions), the memory they use |
| C114 | SdkBoot (Binding) | `driver_binding.rs` | memory, firmware and program as one state; an invariant over every history | the firmware is the UEFI specification; calls from inside `uninstall` |
| C115 | Mm (Trigger) | `sw_mmi_manager.rs` | ports and MMIs of a chipset; induction over triggers; joined with the communicator of C42 | the chipset is a model of its data sheet |
| C116 | Paging (Compat) | `spin_locked_gcd.rs` 2569-2623, `image.rs` 673-726 | on the page table and memory space of C63 and C108; induction over the loop with what was covered so far | installing the page table |
| C118 | Perf (Logging) | `performance/logging.rs`, the mask of `globals.rs` | each function as the call it makes; on the table of C73, induction over the calls | the clock and the boot services (an arbitrary environment) |
| C119 | Perf (Static) | `performance/globals.rs` `StaticState` | every access a step, any number of threads, any schedule; invariant over steps | memory orderings weaker than sequential consistency |
| C120 | Perf (Exchange) | `performance/_smm.rs`, `fetch_and_add_mm_performance_records` | messages as bytes in the shared buffer, the management mode an arbitrary state machine; induction over the pieces | the communicate protocol's own checks |
| C121 | Perf (Component) | `performance.rs` of the component, `report_fbpt_record_buffer` | the boot as the sequence of entry point, calls, end of DXE, calls, ready to boot, on the models of C73, C118, C119 and C120 | the event and protocol databases (C05, C12), the dispatch of components (C33) |
| C122 | Pecoff (Resource) | `load_resource_section`, `resource_directory.rs`, the installing in `core_load_pe_image` | sections as lists of bytes, the format as a separate specification of directories, entries and data; both build profiles | the allocation of the pages (C68), goblin's parsing of the section table |
| C123 | Images (Interfaces) | the protocols of `core_load_image` and `core_unload_image` | on the models of the protocol database and services; the effect of the loops as a filter on usages, composed over handles, protocols and usages | memory, debugger, runtime images (other rows) |
| C124 | Status | `EfiError` and its conversions to and from status codes | by cases on the codes | nothing |
| C125 | Images (Source, SourceSpec) | `get_buffer_by_file_path` and its sources, `SimpleFile`, `authenticate_image`, `core_load_image` (bytes, authentication, kept path), `load_image` | drivers and loader are arbitrary functions of an arbitrary state, every call is kept; a file system by specification (`Serves`) for the content; what is called by induction | the search for the device (C31), the loader (C10, C122, C123), freeing the buffers of the drivers |
| C126 | TestRunner | `TestRunner::entry_point`, `TestCase::should_run` and `run`, `FunctionTest::run` | tests are arbitrary functions of the storage and the log level; induction over the list of tests | what is logged, how tests are collected |
| C127 | Uart | `UartPl011`: `write_byte`, `write`, `read`, `try_read`; `UartNull` | the registers are an arbitrary state machine, every access is kept; a device with two queues and an arbitrary schedule for what is on the line; induction over the bytes and the fuel of the loops | the 16550 driver, `init`, what the macro for registers does |
| C128 | Ffs (CoreExtractor) | `CoreExtractor::extract`, the decompress protocol's `get_info` and `decompress` | sections by their bytes, parsed by the section model of the FFS library, decompressor and additional extractor arbitrary; case analysis | the decompressor's code, the installer component |
| C129 | SdkProtocol (StatusCode) | `report_status_code`, `report_status_code_with_data`, `StatusCodeData` | the firmware is an arbitrary function of the call; bytes by their layout | alignment of the data |
| C130 | SdkBoot (Guard) | `raise_tpl_guarded`, `TplGuard`, on the core's `raise_tpl` and `restore_tpl` | programs of nested guards run on the TPL model of the core; induction over the program, with the invariants of that model | panics while unwinding |
| C131 | Cpu (PagingX64) | `EfiCpuPagingX64`: map, unmap, query; `apply_caching_attributes`; the error tables | the page table and the MTRRs are parameters; what they should do is a hypothesis of the theorems that need it | the crates `patina_paging` and `patina_mtrr`; other processors |
| C132 | SdkBoot (MemType) | `EfiMemoryType::from_efi` and back; `align_down`, `align_up` of `patina_pi` | decision logic, by cases; rounding by the arithmetic of C01 | |
| C133 | Alloc (Buckets) | the second half of `init_memory_support`: the memory type information HOB, the loop over its entries, on `reserve_memory_pages` of C55 | induction over the entries with the ranges reserved so far as invariant, on the states of the GCD and the allocators that can come about | the alignment assertion; failing to create a handle |
| C134 | Gcd (Services) | the services of `dxe_services.rs` for both spaces on the models of C18 to C21: kinds of requests, pointers, the two buffers of a map and what they cost | case analysis on the theorems of C18 to C21; `seek` beyond the last block | the memory the buffers of the I/O map take; a panic for want of the first buffer |
| C135 | Cpu (FaultReport) | `interpret_page_fault_exception_data`, `interpret_gp_fault_exception_data` and the page of `get_fault_attributes` | the bits of the error code as the manual of the processor has them, for every code | the page table walk; printing |
| C136 | Paging (RuntimeFixup) | `runtime_image_protection_fixup_ebs` | induction over the images on the memory space with its page table, with the theorems of C63 for each call | closing the event; the order of a map is the order of a list |
| C137 | Fv (Process) | `process_firmware_volume` | on the model of C84; the length in the header read through the bytes given and through memory | the memory does not change during the call |
| C138 | Debugger (Session) | `enter_debugger`, the loop of `handle_interrupt` | the decoder as a parameter; induction on the rounds of the loop and on the number of errors | the decoder's look ahead is in Debugger/Stop.lean; failures of the serial line have no error in the code |
| C139 | AdvLog (Adopt) | `init_advanced_logger`, the entry point, `set_log_info_address`, `adopt_memory_log`, `add_log_entry` on a header in memory | which bytes a write changes; induction on the HOBs before the one taken, and on the messages | one writer at a time; addresses do not wrap; alignment of the header |
| C140 | Misc (Arch) | `metronome_arch_available`, `watchdog_arch_available`, `timer_available_callback` | invariant over histories of installs and priority changes | one protocol at a time, the database as the list of its interfaces; which one is located is a parameter |
| C141 | Image headers | `Pecoff/Info.lean`: the fields goblin finds are a parameter; `parse`, `from_te`, `from_pe`, `read_filename` and the checks of `core_load_pe_image`. Accepted iff, by cases; file names by list lemmas. |
| C142 | Image memory | `Pecoff/Load.lean`: `core_load_pe_image` over the answers of the page allocator, with the pages that stay allocated as part of the result; built on the models of loading, relocating and resources. |
| C143 | Perf (Setup) | `performance_config_provider.rs`, the derived HOB parsing, the building calls and dispatching as far as they decide one configuration | total functions over every build sequence and HOB list; the dispatch loop by the length of the list of components | other components and drivers, which do not touch this configuration |
| C144 | Misc (Handoff) | `lib.rs` 560-622: naming missing architectural protocols, the handoff report, entering BDS | decision logic over every reachable protocol database (the model of C13), with `locate_protocol_exact`; the drivers are parameters | log output other than the names; what BDS does |
| C145 | Misc (MemAttr) | `memory_attributes_protocol.rs` 204-253: installing the protocol, removing it in compatibility mode | every history over the protocol database (the model of C13), by induction over the calls of others | what the protocol does (C65), the rest of compatibility mode (C116) |
| C146 | Gcd (Listing), Paging (InitListing) | `spin_locked_gcd.rs` 997-1040: the two partial listings of the memory space | over every reachable memory space, from the tiling invariant through `descriptor_serves` | the buffer, except for its capacity |
| C147 | Images (CoreImage) | `protocol_db.rs` 25-37, 638-663 and `image.rs` 238-262, 493-575: the well-known handles and the image of the core | evaluation of the database for an arbitrary hasher; the search for a key avoids the handles there are; induction over the list of blocks | parsing the image (C141), the table of loaded images (C68), running out of memory |
| C117 | Serial | `serializable.rs`, `hex_format.rs`, `serializable_hob.rs` | strings as lists of characters, JSON as trees; induction over digits, fields and the merge loop; fewest by assigning to each interval one that covers its start | the text of JSON (serde_json); what serde derives is modelled by its documented format |
| C42 | Mm | `patina_mm` communicate buffer | case analysis over buffer contents | |
| C43 | Hob | `sdk/patina_pi/src/hob.rs` | memory as byte function, induction over the list | |

There is no property in the list that cannot be expressed in a model.

Further areas (the SDK's pointer wrappers, …) appear in the table as they are added.

## Findings (code that does not satisfy what one would expect)

Names are theorems: each has a concrete reachable case. "Reading" marks what was seen in the code and is not proved.

* **Base** – `align_range` wraps when base + length overflows in release builds.
* **Depex** – stack underflow is accepted; with debug assertions a malformed expression panics.
* **Events** – a member that is signalled already hides the group (`already_signaled_member_hides_group`); closing an unknown
  runtime event succeeds (`close_unknown_runtime_ok`); runtime events are never notified (`runtime_event_never_notified`);
  a timer interrupt at the wrong point leaves notifications pending, calls closed events or panics
  (`interrupt_leaves_pending`, `interrupt_calls_closed`, `interrupt_close_panics`).
* **Mutex** – the SDK mutex can be entered again while dropping and locking (`sdk_drop_reentrant`, `sdk_lock_reentrant`).
* **Protocol** – a registration reports handles that are gone (`reports_gone_handle`) and reinstalled ones once
  (`reinstall_reported_once`); an open by a gone agent stays for ever (`open_of_gone_agent_stays`); any repeated open is
  ALREADY_STARTED in the database (`already_started_for_any_repeat`). Reading: hashed handle values can recur.
* **Services** – `keeps_open_never_ends`, `gone_agent_blocks`, `looking_leaves_users`, `undone_still_announced`,
  `not_restored`, `asked_twice_lost`, `locate_gone_panics`, `locate_other_panics`.
* **Connect** – `listed_twice_started_twice`, `cyclic_children_never_return`, `not_a_child_reported_done`,
  `not_a_child_stops_driver`, `missing_binding_ends_it`. Reading: equal family override versions overwrite each other.
* **GCD** – `remove_keeps_attributes`, `free_error_after_freeing`, `first_add_error_after_adding`, `bottom_up_off_by_one`.
  Reading: `mb.len() - addr` underflows (debug panic); limits exclusive bottom-up and inclusive top-down; base + length
  overflows in remove/free/set; a query beyond the end returns the last descriptor; IO descriptors are counted before the
  space is set up.
* **Resource HOBs** – `tail_is_lost`, `tail_does_not_exist`, `read_protected_needs_read_only`, `no_attributes_panics`,
  `unsupported_passed_over`. Reading: overlapping descriptors panic.
* **Collections** – a failed insertion of a duplicate leaks a slot; `dirty_memory_corrupts`; `rbt_degenerates`,
  `rbt_not_balanced`; `resize_corrupts`, `resize_full_panics`. Reading: `delete_with_idx` on a free slot corrupts.
* **Allocator** – `mixed_free_miscounts`, `unlucky_size_fails`, `large_alignment_fails`, `zero_page_lost`, `page_count_wraps`,
  `huge_pool_panics`, `forged_info_freed`, `reserve_not_preferred`, `reserve_lost_by_address`. Reading: an interrupt between
  growing and retrying can take the memory.
* **HOB allocations** – `unaligned_runtime_left_free`, `short_runtime_takes_neighbour`, `short_runtime_not_taken`,
  `spanning_not_taken`. Reading: page 0 is reported as failed though taken.
* **Memory map** – `padding_spoils_key`, `unaligned_left_out`, `removed_still_reported`, `more_reliable_left_out`. Reading: an
  ExitBootServices callback that calls ExitBootServices enters it again.
* **Paging** – `locked_free_unmaps`, `kept_memory_stays_mapped`, `kept_memory_breaks_allocation`, `refused_reported_set`,
  `no_cache_attributes_desync`, `unaligned_not_mapped`, `free_hides_failure`, `allocate_hides_failure`,
  `beyond_end_never_returns`.
* **Memory attributes** – `set_not_reported`, `part_not_reported`, `set_read_protect_panics`, `beyond_end_hangs`,
  `no_access_twice_panics`, `missing_reported_accessible`, `equal_reported_inconsistent`, `wrapped_reported`,
  `unsupported_access_reported`, `beyond_end_manager_hangs`.
* **Variables** – `get_variable_large_hint`, `get_variable_raced`, `next_exact_refused`, `iterator_refused`.
* **Pages of components** – `empty_box_leaks`, `empty_box_lost`, `large_alignment_ignored`, `alignment_not_ignored`; a slice of elements
  without bytes panics (`into_boxed_slice`).
* **Interrupts** – the numbers of the interrupts of devices are 32 too large (`source_to_intid` subtracts 16 and adds 16):
  `shared_enables_other`, `shared_state`, `shared_not_ended`, `failed_register_registers`, `last_refused`, `last_not_ended`,
  `device_interrupt_lost`; the trigger type is read from the wrong bit and inverted: `trigger_read`, `trigger_misread`;
  `register_in_handler`, `self_removal_hangs`; exceptions without an entry: `unrouted_not_called`, `machine_check_lost`,
  `serror_has_no_handler`. Not modelled: the null checks of function pointers that cannot be null in Rust, and
  `initialize_exception` writes `vbar_el1` at exception level 3 and `vbar_el3` at level 1.
* **Exception entry** – x64: vectors 64, 128 or 192 above one with an error code are taken to have one, because the count of a shift is
  taken modulo 64: `shifted_frame`, `shifted_vectors`; two bits of control register 4 are set and stay set: `cr4_changed`. AArch64: the
  context shows the wrong stack pointer for exceptions of code on the stack of `SP_EL0`, where handlers of synchronous exceptions run:
  `sp0_misreported`.
* **Device paths of the SDK** – `zero_length_never_ends` (a node with length zero makes `try_from_ptr` loop), `short_length_panics` (a length of 1 to 3 makes the iterator panic),
  `damaged_ends` (release: the nodes before the damage are the path; debug: panic), `starts_with_first_only` (only first instances are compared), `memory_mapped_padded`, `bmc_padded`,
  `bios_padded`, `bios_cut` (the length of a node is the size of the Rust structure, so padding is written or a long string is dropped; debug builds panic), `pci_root_differs`
  (`eisa_id("PNP0A03")` is `0x41D00A03`; UEFI has `0x0A0341D0`). By reading only: `append` on a path that has its end puts the node behind the end.
* **Boot services of the SDK** – `into_raw_frees`, `into_raw_double_free` (`BootServicesBox::into_raw` returns a pointer to memory it has just freed), `map_count_wrong`, `map_past_end`, `map_cut`,
  `map_stride_wrong` (the slice of `get_memory_map` has as many descriptors as one descriptor has bytes, at a distance of 40 bytes whatever the firmware uses), `map_error_leaks`, `locate_error_leaks`
  (the buffer is not freed on errors; `locate_handle` with no match leaks each time), `exit_data_on_stack` (`start_image` boxes its own stack variable, which is then freed as pool memory),
  `reinstall_error_loses`, `zero_size_dropped` (an interface of a type of size zero is dropped when installed). By reading only: `create_event` and `install_configuration_table` lose a boxed context
  on an error; `BootServicesBox` never runs the destructor of its value and ignores alignments above 8.
* **Debugger** – memory: `last_bytes_refused`, `read_hole_crashes`, `second_page_lost` (a write into a second page goes to the start of
  the range), `large_page_crashes`, `top_write_lost`, `empty_read_panics`; breakpoints: `set_twice_stays`; registers: on x64 the description
  gives segment registers 64 bits and 32 are sent, so `x64_segments_misread`, and changing any register from the other side puts wrong
  values in the control registers: `x64_edit_ruins`; watchpoints: the codes of four and eight bytes are swapped
  (`x64_four_watches_eight`, `x64_eight_watches_four`), `x64_second_lost`, `a64_unaligned_misplaced`, `a64_eight_at_four`; monitor:
  `describe_panics`, `shadowed_never_called`, `upper_case_suffix_missed`, `mod list 0` shows one module; stops: `x64_step_stays`,
  `x64_jump_skips`, `x64_errors_shift` (each error of the stub moves the program counter back), `a64_step_not_flushed`,
  `a64_step_stays`. Reading: the load of the test access is taken to have three bytes, which depends on the registers the compiler takes.
* **Stack trace** – x64: `prologue_off`, `alloca_off`, `xmm_counted`, `xmm_wrong`, `machine_frame_ignored`, `chained_ignored`,
  `unknown_panics`, `outside_panics`, `last_refused`, `first_byte_misattributed`, `cut_table_panics`; AArch64: `unknown_hangs`, `fplr_x_misread`, `lr_missed`,
  `packed_lr_misread`, `fregp_x_missed`, `freg_x_odd`, `cut_off_panics`; both: `locate_beyond`, `locate_stopped`.
* **Images** – `section_reaches_out`, `odd_alignment_refused_late`, `failure_leaves_unprotected`, `protected_not_freed`;
  `changed_value_moved`, `relocate_ignores_recorded`, `unknown_kind_panics`, `highlow_recorded_as_zero`;
  `second_start_unloads`, `running_unloaded`, `stale_way_out`, `unload_within_unload`. Reading: unloading passes the caller's
  file path instead of the installed copy, so the loaded image device path protocol and the handle stay; the HII package list
  protocol is never uninstalled while its pages are freed; StartImage starts an image whose LoadImage returned
  SECURITY_VIOLATION; Security2 without Security panics; Exit does not restore the TPL; the search for the HII resource
  looks only at the first named entry; TE images are always refused.
* **Tables** – `console_spoils_checksum`, `no_memory_panics`, `dangling_while_busy`, `attribute_change_not_listed`. Reading:
  events are signalled while the system table lock is held.
* **Setting up paging** – `odd_mmio_not_mapped` (MMIO that is not described in whole pages is not mapped, a debug build stops),
  `mmio_end_left_out` (its length instead of its end is rounded up). Reading: page 0 that exists but is neither allocated, MMIO nor
  reserved (persistent memory, say) is not mapped, and unmapping it again fails a debug assertion.
* **Time** – `stall_too_short`, `stall_zero_period_panics`.
* **Performance** – `too_long_spoils`, `too_long_published`, `second_report`, `hob_size_panics`, `fetch_never_ends`,
  `fetch_too_much`, `start_id_taken`, `start_id_kept`, `refused_still_counts`, `long_name_spoils`,
  `strings_leak`, `zero_byte_panics`, `second_init_disables`, `stuck_forever`, `reader_races_init`.
  The request to the management mode gives a length that counts its own header (`length_counts_header`), an answer without data is asked for again forever (`empty_answers_hang`), and a region
  that is empty or shorter than a message panics (`empty_region_panics`, `short_region_panics`). With management mode regions of which none is the user's, the component succeeds with nothing
  registered (`no_region_silent`); a second dispatch stops all measurement (`second_entry_disables`); without the status code protocol the table is moved but not published
  (`no_status_code_hides`).
* **Status** – `warning_is_error` (UEFI warnings are taken for errors), `of_success_panics`, `unknown_success`.
* **Loading** – `refused_loaded` (whatever the security protocol answers, ACCESS_DENIED too, the image is loaded and the caller has its handle), `unasked_accepted`, `security2_alone_panics`,
  `auth_status_dropped` (the authentication status of the firmware volume is never passed on), `load_file_padded`, `unterminated_name`, `huge_file_panics`, `short_node_ends`; `file_bytes` also
  says that the volume stays open.
* **Test runner** – `none_selected_succeeds`, `debug_level_leaks`.
* **Serial port** – `UartPl011` waits for its flags without a time-out: a device that never sends makes `write` wait forever (`Uart.write_hangs`).
* **Decompression** – the core ignores the length that a compressed section declares (`Ffs.Core.declared_length_ignored`), panics if the size of the content cannot be allocated (`huge_size_panics`), and the protocol panics on null pointers for decompressing (`null_pointer_panics`) and, in a checked build, on a compressed size near 2^32 (`get_info_panics_iff`).
* **Status codes** – the size of the data is cut to 16 bits, although all of it is passed (`StatusCode.long_data_cut`).
* **TPL guards** – two guards dropped in the order they were made, as the fields of a structure are, always panic: the first drop lowers the level below the second's saved one (`SdkBoot.Guard.crossed_fails`).
* **Cache types on x64** – only the first address of a range is looked at: if it has the type asked for, the rest of the range keeps its own and the call succeeds, and a query of the range does not show it (`Cpu.PagingX64.rest_left`,
  `second_page_uncached`). If the page table refuses the mapping, the MTRRs have been changed already (`cache_kept_on_failure`).
* **Memory buckets** – an entry for conventional memory in the memory type information HOB sets memory aside that nobody can allocate (`Alloc.conventional_bucket`); only the first entry of a type counts (`Alloc.later_ignored`).
* **DXE services** – `get_memory_space_descriptor` reports the last entry with success for every address beyond the space (`Gcd.Services.descriptor_beyond`), where `get_io_space_descriptor` says not found; `get_memory_space_map` collects the map before it takes the buffer the caller gets, so when the heap has to grow for it the map is out of date and says the buffer is free (`map_stale`).
* **Page faults** – the two last tests of `interpret_page_fault_exception_data` are the wrong way round: a reserved bit violation and an instruction fetch are logged exactly when the error code says they did not happen (`Cpu.FaultReport.reserved_inverted`, `fetch_inverted`, `never_right`).
* **ExitBootServices** – a runtime driver whose first page has no cache attributes stays protected in the page table although the memory space says it is not:
  `uncached_driver_stays_protected`, `uncached_driver_witness`.
* **Debugger stops** – `reentry_crashes` (a fault inside the debugger, other than one it probes memory with, ends in an endless loop and the other side is not told).
* **Adopting a log** – `lost_uncounted`, `bad_header_adopted` (a log whose next place lies before its messages is adopted; each message is lost and not counted, or the logger panics in a
  checked build), `success_without_log` (initialization reports success though no log was adopted).
* **Drivers of the core** – `never_let_go`, `removed_driver_called` (the pointer to the metronome or the watchdog is never cleared, so a driver that removed its protocol is still called),
  `installed_and_removed_panics` (a protocol that is installed and removed while the callback is held up makes the core panic).
* **Image headers** – the machine type is never compared with the processor (`machine_ignored`); a TE file is always refused, because parsing gives it section alignment 0 (`te_never_loads`); the image base of a PE32 file is looked for at the offset of a PE32+ file (`pe32_base_misplaced`); a file with a bad alignment panics a debug build (`pe_debug_panics`).
* **Pages of a failed load** – a section alignment that is a multiple of the page size but no power of two passes the check, and then fails after the pages have been allocated, which are lost (`odd_alignment_leaks`). The entry point is never compared with the image size (`entry_unchecked`).
* **Performance configuration** – a configuration given after the provider was added locks it again, so the provider never runs and the HOB is ignored without a word (`Perf.Setup.late_config_hides_hob`); a configuration HOB shorter than five bytes stops the boot (`short_hob_panics`), and a flag byte other than 0 or 1 is copied into a `bool`, which is undefined behaviour (`odd_flag_undefined`).
* **Handoff** – (C144) `call_bds` says that the dispatcher must be invoked again when BDS returns; nothing does, `start` returns success (`bds_return_ignored`). A status code protocol whose interface is null makes the core panic before BDS, and a null BDS interface is dereferenced; InstallProtocolInterface accepts both (`null_status_code_panics`, `null_bds_used`).
* **Compatibility mode leaves its protocol** – (C145) The memory attribute protocol is taken away directly in the database, which refuses while any use is recorded. A loader that has found the protocol with HandleProtocol leaves such a record; the removal then fails with a log message only, and the protocol stays although compatibility mode is on (`stays_when_used`, `handle_protocol_keeps`).
* **Unloading** – `path_left` (the loaded image device path is uninstalled with the wrong pointer, so every image loaded with a path keeps its handle), `package_left` (the HII package list is never
  uninstalled though its memory is freed), `stale_usage_left`.
* **HII resources** – `later_missed` and `second_not_found` (only the first entry of the root is ever looked at), `other_name_found` (the name is read one byte early and its last byte not compared),
  `counts_panic`, `stale_installed` (a resource outside the image: what the new memory held is installed as a package list).
* **Firmware volumes** – `block_size_swapped`, `first_block_size_zero`, `read_behind_block`, `read_wrong_place`, `sizes_differ`,
  `larger_buffer_panics`, `nested_missed`, `damaged_hob_stops`, `mmap_end_behind`.
* **Log** – `offset_wraps`, `torn_read`, `long_payload_truncated`, `line_with_a_hole`; `filter_shadows`; lines:
  `json_line_is_not_json` (a comma is missing), `message_not_escaped`; parser: `low_frequency_panics`, `short_writes_lose`,
  `clock_runs_fast`, `open_overflow_panics`. Reading: `open_log` makes a reference to the header without looking at the alignment
  of the bytes.
* **Cache** – aarch64: `last_line_missed`, `tail_not_written_back` (the loop steps by one byte less than a line and can stop before
  the last line), `empty_range_flushed`, `overflow_flushes_one_line`; x64: `x64_invalidate_discards`, `x64_timer_stands_still`.
* **Device paths** – `multi_instance_truncated`, `zero_length_hangs`.
* **Components** – `nested_tuple_not_validated`, `nested_service_panics`, `with_config_order_matters`, `queued_config_changes`,
  `storage_mut_changes_locked`, `boxed_service_unusable`, `storage_mut_aliases_accepted`, `release_conflict_panics`.
* **Dispatcher** – `chained_before_never_runs`, `late_after_never_runs`, `deferred_before_never_runs`,
  `unreadable_drops_schedule`, `bad_file_hides_rest`, `nested_dispatch_runs`, `duplicate_name_after_first`.
* **FFS** – `size_ffffff_broken`, `small_extended_broken`, `parse_panics_iff`, `checksum_file_rejected`, `zero_size_accepted`,
  `zero_size_file_hangs`, `lists_beyond_volume`, `volume_accessors_panic`, `lba_offset_wrong`, `align_16m_panics`,
  `capacity_exceeded`, `failed_compose_stale`, `unsupported_marks`. Reading: `sections_with_extractor` lists sub-sections twice.
* **Compatibility mode** – `compat_twice_maps_reserved`, `compat_twice_maps_nothing`, `compat_uncached_not_mapped`,
  `compat_allocation_uncached`.
* **Section extractors** – `long_crc_header_panics`, `short_content_panics`, `brotli_filled_up`.
* **Driver bindings** – `null_handle_never_uninstalled`.
* **MM** – `shorter_response_rejected`; triggers: `data_is_stale`, `data_one_late` (the command port is written before the data
  port), `smc_panics`, `skipped_succeeds`, `request_is_response`.
* **HOBs** – `iterator_v2_address`, `iterator_misreads`, `zero_length_never_ends`, `short_guid_huge`, `unknown_loses`. As JSON: `hex_sign_accepted`,
  `module_unknown`, `data_lost`; merging: `names_overlap`, `names_lost`, `types_lost`, `last_page_lost`, `empty_kept`.
* **GUIDs** – dashes are accepted anywhere; more than 32 digits are reported as 33.
