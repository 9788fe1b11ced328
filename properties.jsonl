{"id": "C01", "title": "Alignment helpers compute the mathematical rounding, or report an error", "statement": "align_down(v,a) returns the largest multiple of a that is <= v and align_up(v,a) the smallest multiple of a that is >= v; both fail exactly when a is not a power of two, and align_up additionally exactly when the rounded value does not fit in 64 bits. align_range returns the smallest aligned range covering [base, base+length).", "quantifier": "every 64-bit value and every 64-bit alignment", "why_tests_cant": "2^128 input pairs; the bit-mask trick and the overflow boundary have to be right at every one of them.", "anchors": ["sdk/patina/src/base.rs: align_up, align_down, align_range, is_power_of_two"]}
{"id": "C02", "title": "A well-formed dependency expression evaluates to its boolean meaning", "statement": "Compiling any boolean expression over protocol GUIDs (push/TRUE/FALSE/NOT/AND/OR) to a DEPEX byte string ending in END and evaluating it yields true exactly when the expression is true with each GUID read as 'a protocol with that GUID is installed now'.", "quantifier": "every expression of any nesting depth, every set of installed protocols", "why_tests_cant": "The expression tree and the set of installed protocols are unbounded.", "anchors": ["core/patina_internal_depex/src/lib.rs: Depex::eval, Opcode, DepexParser"]}
{"id": "C03", "title": "DEPEX evaluation is total and rejects malformed input", "statement": "Evaluating an arbitrary byte string as a DEPEX never faults and always gives an answer; an unknown opcode, a truncated operand, a missing END, or BEFORE/AFTER/SOR in evaluation position gives false.", "quantifier": "every byte string and every protocol set", "why_tests_cant": "Firmware images carry arbitrary bytes; the space of byte strings is infinite.", "anchors": ["core/patina_internal_depex/src/lib.rs: Opcode::from, DepexParser::next, Depex::eval"]}
{"id": "C04", "title": "A satisfied dependency stays satisfied across re-evaluations", "statement": "A GUID seen present by one evaluation of a DEPEX counts as present in every later evaluation of the same object; the k-th evaluation gives the value of the expression with each GUID read as 'was installed at some evaluation up to now'.", "quantifier": "every well-formed expression and every sequence of protocol-set snapshots", "why_tests_cant": "Ranges over histories of evaluations interleaved with installs/uninstalls.", "anchors": ["core/patina_internal_depex/src/lib.rs: Depex::eval (present flag)"]}
{"id": "C05", "title": "A signalled notify event is queued exactly once and only when notifiable", "statement": "Signalling an event sets its signalled state; if the event is of NOTIFY_SIGNAL type its notification is queued, and signalling it again before it is dispatched does not queue a second notification nor lose the first.", "quantifier": "every event database reachable by create/close/signal/timer/tick/consume calls, every event", "why_tests_cant": "Ranges over all histories of event calls.", "anchors": ["patina_dxe_core/src/event_db.rs: signal_event, queue_event_notify, consume_next_event_notify"]}
{"id": "C06", "title": "Notifications are dispatched highest TPL first, first-in first-out within a TPL, and only above the requested TPL", "statement": "Each consumed notification has the highest notify TPL of all pending ones, is the oldest among those of its TPL, and has TPL strictly above the level being restored to; consumption stops only when nothing pending is above that level.", "quantifier": "every reachable pending set and every TPL", "why_tests_cant": "The order must hold for every multiset of pending notifications and every queueing order.", "anchors": ["patina_dxe_core/src/event_db.rs: TaggedEventNotification::cmp, consume_next_event_notify", "patina_dxe_core/src/events.rs: restore_tpl"]}
{"id": "C07", "title": "raise/restore TPL nest, and restoring ends at the requested TPL with nothing above it pending", "statement": "RaiseTPL returns the previous TPL and sets the new one; RestoreTPL runs each pending notification above the target at its own TPL (never at a lower one), and returns with the TPL equal to the target and no notification above the target pending; raising to a lower or restoring to a higher TPL is rejected.", "quantifier": "every event state, every pair of TPLs, every (terminating) behaviour of the notify functions, including ones that signal further events or raise/restore TPL themselves", "why_tests_cant": "Notify functions are arbitrary code that re-enters the TPL services; schedules are unbounded.", "anchors": ["patina_dxe_core/src/events.rs: raise_tpl, restore_tpl"]}
{"id": "C08", "title": "Signalling one member of an event group signals every member and nobody else", "statement": "Signalling an event that belongs to a group marks signalled (and, for NOTIFY_SIGNAL members, queues) every existing event of the same group and changes no event outside it.", "quantifier": "every event database and every group", "why_tests_cant": "Groups are of arbitrary size and mixed with arbitrary other events.", "anchors": ["patina_dxe_core/src/event_db.rs: signal_event, signal_group"]}
{"id": "C09", "title": "Timers fire exactly when due, periodic timers re-arm, cancelled timers never fire", "statement": "A timer tick at time t signals exactly the timer events whose trigger time is <= t; a one-shot timer is disarmed by firing, a periodic timer re-arms one period after the tick and a cancelled timer is not signalled by any later tick.", "quantifier": "every event database, every tick time, every sequence of set_timer/tick", "why_tests_cant": "Ranges over arbitrary interleavings of timer programming and ticks.", "anchors": ["patina_dxe_core/src/event_db.rs: set_timer, timer_tick"]}
{"id": "C10", "title": "Closed events are dead and event handles are never recycled", "statement": "After close_event(e) succeeds, e is invalid for every operation, is never returned by a later create, and its notification is never dispatched by a later consume.", "quantifier": "every history of event operations", "why_tests_cant": "Ranges over unbounded histories.", "anchors": ["patina_dxe_core/src/event_db.rs: create_event, close_event, consume_next_event_notify"]}
{"id": "C11", "title": "The TPL mutex gives mutual exclusion and restores the TPL it found", "statement": "At most one guard of a TPL mutex exists at any time; a failed lock attempt leaves the TPL as it was; when guards are dropped in LIFO order the TPL returns to its value before the first lock.", "quantifier": "every interleaving of lock attempts, drops and interrupt-style nested activity", "why_tests_cant": "Ranges over schedules.", "anchors": ["patina_dxe_core/src/tpl_lock.rs: TplMutex::try_lock, lock, TplGuard::drop"]}
{"id": "C12", "title": "A handle exists exactly while it carries a protocol, with at most one interface per protocol GUID", "statement": "install fails if the handle already carries the GUID, otherwise makes exactly that interface available on exactly that handle; a handle is valid exactly when at least one protocol is on it; uninstalling the last protocol removes the handle; other handles are untouched.", "quantifier": "every history of install/uninstall/open/close calls", "why_tests_cant": "Ranges over unbounded histories of database operations.", "anchors": ["patina_dxe_core/src/protocol_db.rs: install_protocol_interface, uninstall_protocol_interface, validate_handle"]}
{"id": "C13", "title": "Locate functions are sound and complete", "statement": "locate_handles(guid) returns exactly the handles that currently carry guid (all handles for no guid), get_interface_for_handle returns exactly the installed interface, and locate_protocol succeeds exactly when some handle carries it.", "quantifier": "every reachable database and every GUID", "why_tests_cant": "Must hold in every reachable state.", "anchors": ["patina_dxe_core/src/protocol_db.rs: locate_handles, locate_protocol, get_interface_for_handle, get_protocols_on_handle"]}
{"id": "C14", "title": "BY_DRIVER and EXCLUSIVE opens exclude each other", "statement": "At any time a protocol interface has at most one usage that was opened BY_DRIVER or EXCLUSIVE; a conflicting open fails and leaves the usage list unchanged.", "quantifier": "every history of opens and closes by any agents with any attributes", "why_tests_cant": "The exclusion flags and the usage list must agree after every history.", "anchors": ["patina_dxe_core/src/protocol_db.rs: add_protocol_usage, remove_protocol_usage"]}
{"id": "C15", "title": "A protocol in use BY_DRIVER or otherwise recorded is never pulled from under its user", "statement": "uninstall fails with ACCESS_DENIED and changes nothing while usages that forbid removal remain; a successful uninstall leaves no usage behind.", "quantifier": "every reachable database", "why_tests_cant": "Ranges over all usage histories.", "anchors": ["patina_dxe_core/src/protocol_db.rs: uninstall_protocol_interface, add_protocol_usage"]}
{"id": "C16", "title": "A protocol notify registration is owed each handle its GUID was installed on, and is told each once", "statement": "After register_protocol_notify(g, event), asking for the next handle of that registration answers a handle exactly when g has been successfully installed on it since it was last reported to this registration; pending handles come lowest first; installs of other GUIDs never count. A successful install hands back exactly the live registrations of its GUID in registration order. Registration values are never reused.", "quantifier": "every history of installs, uninstalls, opens, closes, registrations, unregistrations and locate-by-register calls", "why_tests_cant": "Ranges over histories and over any number of registrations and handles.", "anchors": ["patina_dxe_core/src/protocol_db.rs: register_protocol_notify, install_protocol_interface, next_handle_for_registration, unregister_protocol_notify_event"]}
{"id": "C17", "title": "The GCD memory map always partitions the whole address space", "statement": "After any sequence of add/remove/allocate/free/set-attribute calls (successful or not) the descriptors are sorted, non-empty, contiguous, cover [0, 2^address_bits) and no two neighbours could be merged.", "quantifier": "every address width and every history of GCD calls", "why_tests_cant": "Ranges over histories and 64-bit ranges.", "anchors": ["patina_dxe_core/src/gcd/spin_locked_gcd.rs: GCD", "patina_dxe_core/src/gcd/memory_block.rs: MemoryBlock::split, merge, split_state_transition"]}
{"id": "C18", "title": "A GCD range operation changes exactly the requested range", "statement": "A successful add/remove/allocate-at-address/free/set-attributes/set-capabilities changes the state of exactly the addresses in [base, base+len) and in the documented way; a failing one changes no address.", "quantifier": "every reachable map, every base and length", "why_tests_cant": "Block splitting and merging must be right at every position relative to existing blocks.", "anchors": ["patina_dxe_core/src/gcd/spin_locked_gcd.rs: split_state_transition_at_idx, add_memory_space, remove_memory_space, allocate_address, free_memory_space_worker"]}
{"id": "C19", "title": "A GCD allocation returns an aligned, previously free range inside the limits, and live allocations never overlap", "statement": "A successful allocation returns base with base aligned, [base, base+len) entirely added-but-unallocated memory of the requested type before the call, within the requested limit; afterwards it is allocated to the caller; so two live allocations are always disjoint.", "quantifier": "every reachable map, every strategy, length, alignment and limit", "why_tests_cant": "The search walks an unbounded map.", "anchors": ["patina_dxe_core/src/gcd/spin_locked_gcd.rs: allocate_bottom_up, allocate_top_down, allocate_address"]}
{"id": "C20", "title": "A GCD allocation fails only if no suitable block exists, and picks the lowest (bottom-up) or highest (top-down) one", "statement": "Bottom-up allocation succeeds whenever some free block of the type can host an aligned range below the limit, and returns the lowest such base; top-down returns the highest such base.", "quantifier": "every reachable map and every request", "why_tests_cant": "Completeness quantifies over all maps; tests only exhibit single layouts.", "anchors": ["patina_dxe_core/src/gcd/spin_locked_gcd.rs: allocate_bottom_up, allocate_top_down"]}
{"id": "C21", "title": "The IO space map has the same partition and exactness guarantees", "statement": "Add/remove/allocate/free of IO space keep the IO map a coalesced partition of the IO address space and change exactly the requested range.", "quantifier": "every history of IO GCD calls", "why_tests_cant": "Ranges over histories.", "anchors": ["patina_dxe_core/src/gcd/spin_locked_gcd.rs: IoGCD", "patina_dxe_core/src/gcd/io_block.rs"]}
{"id": "C22", "title": "The fixed-capacity red-black tree is a finite sorted map", "statement": "For every history of add/delete the tree contains exactly the values added and not deleted; get/get_closest/first/last/next/prev agree with the sorted list of contents; add fails exactly on a duplicate key or when no slot of the buffer is left. (The buffer must start with a null link in its last node, e.g. zeroed; a failed insertion of a duplicate uses up a slot.)", "quantifier": "every history of operations, every key order, every capacity", "why_tests_cant": "Rotations and recolouring must preserve content on trees of every shape.", "anchors": ["core/patina_internal_collections/src/rbt.rs", "core/patina_internal_collections/src/node.rs"]}
{"id": "C23", "title": "The red-black tree stays balanced", "statement": "After every history of add/delete the tree has no red node with a red child and equal black height on all paths, hence depth at most 2*log2(n+1).", "quantifier": "every history of operations", "why_tests_cant": "Deletion rebalancing cases are reached only on specific shapes.", "anchors": ["core/patina_internal_collections/src/rbt.rs: fixup_add, fixup_delete, remove_node_from_tree"]}
{"id": "C24", "title": "The fixed-capacity binary search tree is a finite sorted map", "statement": "Same contract as the red-black tree: contents, ordered traversal, duplicate and capacity errors, under the same condition on the buffer.", "quantifier": "every history of operations", "why_tests_cant": "Ranges over histories and tree shapes.", "anchors": ["core/patina_internal_collections/src/bst.rs"]}
{"id": "C25", "title": "SortedSlice stays sorted and duplicate free and behaves as a map", "statement": "After any history of add/add_contiguous_slice/remove the slice is strictly sorted; add inserts exactly the new element or fails leaving it unchanged; search finds an element exactly when present.", "quantifier": "every history of operations and every capacity", "why_tests_cant": "Ranges over histories.", "anchors": ["core/patina_internal_collections/src/sorted_slice.rs"]}
{"id": "C26", "title": "The node storage never hands out the same slot twice and recycles freed slots", "statement": "Slots returned by the node storage are in range and distinct from all live slots; len equals the number of live slots; allocation fails exactly when the buffer is full; nodes in use are changed only by their user. (The buffer must start with a null link in its last node, e.g. zeroed.)", "quantifier": "every history of slot allocations and frees", "why_tests_cant": "Ranges over histories of the intrusive free list.", "anchors": ["core/patina_internal_collections/src/node.rs: Storage::add, delete"]}
{"id": "C27", "title": "Fixed-size-block allocations are disjoint, aligned, large enough, and freed memory is reused only after being freed", "statement": "Every block returned by the heap is aligned for the request, has at least the requested size, lies in memory owned by that allocator and overlaps no other live block, for any sequence of allocations and frees, including list growth.", "quantifier": "every history of allocate/deallocate with any layouts", "why_tests_cant": "Ranges over histories; overlap needs a global invariant.", "anchors": ["patina_dxe_core/src/allocator/fixed_size_block_allocator.rs: alloc, dealloc, fallback_alloc, fallback_dealloc, expand"]}
{"id": "C28", "title": "Pool free accepts exactly live pool blocks of the allocator", "statement": "free_pool succeeds on a pointer returned by allocate_pool and not yet freed, gives the exact block back with the layout it was allocated with, and a second free of the same pointer is reported as an error rather than freeing twice.", "quantifier": "every history of pool allocations and frees", "why_tests_cant": "Ranges over histories.", "anchors": ["patina_dxe_core/src/allocator/uefi_allocator.rs: allocate_pool, free_pool", "patina_dxe_core/src/allocator.rs: core_allocate_pool, core_free_pool"]}
{"id": "C29", "title": "Concurrent log writers never overlap or leave the log buffer", "statement": "For every interleaving of any number of writers, each accepted message occupies its own region, all regions lie inside the log buffer, and rejected bytes are counted as discarded.", "quantifier": "every number of writers, every message size, every interleaving of their atomic steps", "why_tests_cant": "Ranges over schedules.", "anchors": ["components/patina_adv_logger/src/memory_log.rs: add_log_entry"]}
{"id": "C30", "title": "Reading the log back yields exactly the accepted messages in order", "statement": "Once no writer is mid-write, iterating the memory log yields exactly the accepted messages (level, phase, timestamp, payload) in reservation order.", "quantifier": "every sequence of messages and every buffer size", "why_tests_cant": "Framing and alignment must be right for every message length.", "anchors": ["components/patina_adv_logger/src/memory_log.rs: add_log_entry, AdvancedLogIterator::next"]}
{"id": "C31", "title": "Device path utilities agree with the node-list meaning of a device path", "statement": "For a well-formed single-instance path, node_count/size/copy report exactly its nodes and bytes; concat(a,b) has the nodes of a followed by the nodes of b; remaining_device_path(a,b) returns the suffix of b exactly when a's nodes are a prefix of b's.", "quantifier": "every pair of well-formed device paths of any length and node contents", "why_tests_cant": "Paths are unbounded lists of unbounded nodes.", "anchors": ["core/patina_internal_device_path/src/lib.rs: device_path_node_count, copy_device_path_to_boxed_slice, concat_device_path_to_boxed_slice, remaining_device_path, DevicePathWalker"]}
{"id": "C32", "title": "Components never observe a configuration value that is still being changed", "statement": "A component with a read-only Config<T> parameter is run only when T is locked; one with a ConfigMut<T> only while it is unlocked; so all read-only observers of T, on any dispatch order, see the same value.", "quantifier": "every set of components with any parameter lists, every registration order, every dispatch history", "why_tests_cant": "Ranges over dispatch orders and component behaviours.", "anchors": ["sdk/patina/src/component/params.rs: Config, ConfigMut", "sdk/patina/src/component/storage.rs: add_config, lock_configs, unlock_config", "patina_dxe_core/src/lib.rs: dispatch_components, core_dispatcher"]}
{"id": "C33", "title": "Component dispatch runs every runnable component exactly once and stops at a fixpoint", "statement": "Each component is run at most once; a component is run only when all its parameters are available; when dispatch returns, no undispatched component has all its parameters available.", "quantifier": "every set of components and every effect a component may have on the storage", "why_tests_cant": "Ranges over component sets and behaviours.", "anchors": ["patina_dxe_core/src/lib.rs: dispatch_components, core_dispatcher", "sdk/patina/src/component/struct_component.rs: run_unsafe", "sdk/patina/src/component/params.rs"]}
{"id": "C34", "title": "A driver image is started at most once and only when its dependencies allow it", "statement": "Across any number of dispatch passes a discovered driver is started at most once, and only if its DEPEX was true at a pass (or it was scheduled BEFORE/AFTER a driver that was), and never while its security status is a pending violation.", "quantifier": "every set of discovered drivers, every dependency expression, every effect of running drivers, any number of passes", "why_tests_cant": "Ranges over dispatch histories.", "anchors": ["patina_dxe_core/src/dispatcher.rs: dispatch, core_schedule, core_trust"]}
{"id": "C35", "title": "BEFORE and AFTER drivers run adjacent to and in the stated order with their target", "statement": "If a driver with BEFORE(t) (AFTER(t)) waits in the dispatcher when the dependency of a driver named t becomes true, it is dealt with in the same pass, before (after) that driver (the first such one, if several have that name): it is started, unless its image cannot be loaded or draws a security objection.", "quantifier": "every set of pending drivers", "why_tests_cant": "Ranges over all sets and orders of pending drivers.", "anchors": ["patina_dxe_core/src/dispatcher.rs: dispatch"]}
{"id": "C36", "title": "Driver dispatch reaches a fixpoint", "statement": "When the dispatcher returns (successfully, or reporting that there was nothing to do), no pending driver without BEFORE/AFTER and no pending firmware volume image has a satisfied dependency, unless it is waiting for schedule, trust or authentication, provided nothing but started drivers and installed volumes changes the registered protocols meanwhile. In any case every driver still pending was examined during the last pass.", "quantifier": "every set of drivers, every effect of started drivers, any number of passes", "why_tests_cant": "Ranges over dispatch histories.", "anchors": ["patina_dxe_core/src/dispatcher.rs: dispatch, core_dispatcher"]}
{"id": "C37", "title": "Section serialisation round-trips", "statement": "Parsing the serialisation of a section gives back the same type, header fields and content and the same total size, for content of every length.", "quantifier": "every section type and content of every length representable in the format", "why_tests_cant": "The 3-byte size / extended size switch has to be right at every length.", "anchors": ["sdk/patina_ffs/src/section.rs: SectionHeader::serialize, Section::new_from_buffer, SectionIterator"]}
{"id": "C38", "title": "Firmware file serialisation round-trips with valid checksums", "statement": "Parsing the serialisation of a firmware file succeeds (all checksums and state bits valid) and gives back its name, type, attributes and content.", "quantifier": "every file name, type, attribute byte, erase polarity and section list", "why_tests_cant": "Checksums must work out for every content.", "anchors": ["sdk/patina_ffs/src/file.rs: File::serialize, FileRef::new"]}
{"id": "C39", "title": "Serialised volumes place every file aligned and parse back to the same files", "statement": "In a serialised volume every file starts at an 8-byte boundary, its content satisfies its required alignment, and parsing the volume lists the same files in the same order (padding files aside).", "quantifier": "every list of files with every alignment", "why_tests_cant": "Padding arithmetic must be right for every combination of sizes and alignments.", "anchors": ["sdk/patina_ffs/src/volume.rs: Volume::serialize, VolumeRef::new, FileRefIter"]}
{"id": "C40", "title": "Parsing untrusted firmware volumes is safe and terminates", "statement": "For every byte string, parsing it as a section, file or volume and iterating over its contents terminates, never faults and never reports data outside the input.", "quantifier": "every byte string", "why_tests_cant": "The input space is infinite and adversarial.", "anchors": ["sdk/patina_ffs/src/section.rs: Section::new_from_buffer, SectionIterator", "sdk/patina_ffs/src/file.rs: FileRef::new", "sdk/patina_ffs/src/volume.rs: VolumeRef::new, FileRefIter"]}
{"id": "C41", "title": "Block lookup in a volume returns the true offset of the block", "statement": "lba_info(n) returns the byte offset, size and remaining count of the n-th block of the volume's block map, and an error exactly when there is no such block.", "quantifier": "every block map and every block number", "why_tests_cant": "Block maps are arbitrary lists.", "anchors": ["sdk/patina_ffs/src/volume.rs: VolumeRef::lba_info"]}
{"id": "C42", "title": "The MM communication buffer never reads or writes outside itself and detects tampering", "statement": "After set_message_info(r) and set_message(m), get_message returns exactly m and the header carries r; oversize messages are rejected without change; if the header bytes were changed behind the buffer's back every getter reports an error instead of data.", "quantifier": "every buffer size, message, recipient and every external modification of the bytes", "why_tests_cant": "Ranges over all memory contents an MM handler may leave.", "anchors": ["components/patina_mm/src/config.rs: CommunicateBuffer"]}
{"id": "C43", "title": "Walking a HOB list shows exactly its HOBs, and relocating it preserves them", "statement": "For every well-formed HOB list in memory, the iterator and discover_hobs report exactly the HOBs before the end marker, in order, each with every field of its structure and the whole data of a GUID HOB, referring only to the bytes of the list; get_c_hob_list_size and HobList::size agree with the bytes the list occupies. A HOB of fixed size with a header that claims another length is never accepted by discover_hobs. relocate_hobs leaves every entry showing what it showed, and from then on independent of the memory the list was in.", "quantifier": "every memory holding a well-formed list, of any length; for relocation every list of HOBs and every placement of the new blocks that overlaps nothing in use", "why_tests_cant": "Lists are unbounded, and memory contents are arbitrary.", "anchors": ["sdk/patina_pi/src/hob.rs: HobIter::next, HobList::discover_hobs, HobList::relocate_hobs, HobList::size, Hob::header, get_c_hob_list_size"]}
{"id": "C44", "title": "ConnectController tries drivers in the specified precedence and starts each at most once", "statement": "Candidates are tried in this order: the drivers the caller names, the platform override's, the family override's (highest version first), the bus-specific override's, then all installed drivers by decreasing version; a driver of an earlier source is not tried again as part of a later one. Whoever declines is asked again as long as others accept; the rounds end, whatever the drivers answer, with a round in which everybody left declines. A driver is started at most as often as its source lists it. The call succeeds exactly when a driver started or the remaining path is an end node. No driver is asked if the security protocol refuses. A recursive connection then connects every child that exists once the drivers ran.", "quantifier": "every protocol database, every set of driver bindings and every behaviour of supported/start/override protocols, including changes to the database by them", "why_tests_cant": "Drivers are arbitrary code whose answers may change during the loop.", "anchors": ["patina_dxe_core/src/driver_services.rs: core_connect_controller, core_connect_single_controller, authenticate_connect"]}
{"id": "C45", "title": "DisconnectController stops exactly the drivers managing the controller", "statement": "Exactly the agents with a BY_DRIVER usage on the controller (restricted to the given driver if any) get one turn each; one that no longer manages the controller when its turn comes is left alone; otherwise its children (restricted to the given one) are stopped first, then, if that succeeded and no child was selected or there is no other child, the driver itself. The call succeeds exactly when there was no such driver or one turn ended without a failure; it never panics.", "quantifier": "every protocol database and every behaviour of stop, including changes to the database by it", "why_tests_cant": "Ranges over usage tables and driver behaviours.", "anchors": ["patina_dxe_core/src/driver_services.rs: core_disconnect_controller"]}
{"id": "C46", "title": "TPL services survive timer interrupts at every point", "statement": "With timer interrupts arriving between any two statements at which interrupts are enabled: a restore_tpl that returns ends at its target TPL with nothing above the target pending; every notify function runs at its own event's TPL and only for events that exist; and the core itself never panics or finds its lock taken.", "quantifier": "every event database, every program of notify functions, every interrupt schedule", "why_tests_cant": "Interrupts may arrive at any of unboundedly many points, nested.", "anchors": ["patina_dxe_core/src/events.rs: restore_tpl, raise_tpl, timer_tick"]}
{"id": "C47", "title": "Moving a tree to a larger buffer keeps its contents", "statement": "resize into a buffer with room for the contents keeps every stored value and its index, keeps all queries answering as before, and the tree goes on working with the new capacity; it panics only if the new buffer is too small.", "quantifier": "every tree built by a history of operations, every new buffer and capacity", "why_tests_cant": "All links are rewritten; which links are stale depends on the history.", "anchors": ["core/patina_internal_collections/src/rbt.rs: resize", "core/patina_internal_collections/src/bst.rs: resize", "core/patina_internal_collections/src/node.rs: Storage::resize"]}
{"id": "C48", "title": "Edited sections are never written out stale, and composing then reading back returns the edits", "statement": "After the content of a section is replaced, that section and every extracted section around it refuse to be serialised until compose is called on them; a successful compose (a failing composer is outside the claim) makes the whole tree serialisable, changes no leaf, and parsing and extracting the bytes gives the same tree, for every composer/extractor pair that are inverse to each other.", "quantifier": "every nesting of sections, every edit, every composer and extractor", "why_tests_cant": "Ranges over arbitrary section trees and user-supplied codecs.", "anchors": ["sdk/patina_ffs/src/section.rs: set_section_data, compose, extract, serialize, dirty"]}
{"id": "C49", "title": "Whatever is stored for a type is found again under that type only", "statement": "After any sequence of calls that store or register configurations, services and HOBs, looking up a configuration, service or HOB list by type never faults and returns exactly what was last stored (for HOBs: everything stored, in order) for that type.", "quantifier": "every sequence of storage calls, every set of types and values", "why_tests_cant": "Ranges over all interleavings of registrations and stores, which decide how types share the index tables.", "anchors": ["sdk/patina/src/component/storage.rs: add_config, add_config_default_if_not_present, add_service, add_hob, get_config, get_service, get_hob", "sdk/patina/src/component/service.rs: Service::deref"]}
{"id": "C50", "title": "Conflicting component parameters are rejected, and accepted components never fault on them", "statement": "In a debug build a component is accepted exactly when no two of its parameters conflict (a configuration wanted both for reading and writing or twice for writing, &mut Storage together with any configuration or storage access, &Storage together with a configuration for writing, Commands twice); components without conflicts never make the dispatcher panic.", "quantifier": "every parameter list with any nesting of Option and tuples, every set of components, every behaviour of them", "why_tests_cant": "Ranges over all parameter lists and dispatch histories.", "anchors": ["sdk/patina/src/component/params.rs: init_state, validate, get_param", "sdk/patina/src/component/metadata.rs: Access", "sdk/patina/src/component/storage.rs: init_state"]}
{"id": "C51", "title": "Every driver of an announced volume is considered, and none is lost", "statement": "When a new firmware volume is announced, exactly its driver files are discovered, in order, once. A dispatch pass that succeeds loses no driver: each one that was waiting still waits, or was started, or was dropped because its image could not be loaded or drew a security objection. A pass that reports progress started a driver or installed a volume.", "quantifier": "every volume contents, every set of waiting drivers, every effect of started drivers", "why_tests_cant": "Ranges over all volumes and dispatch histories.", "anchors": ["patina_dxe_core/src/dispatcher.rs: add_fv_handles, dispatch, core_dispatcher"]}
{"id": "C52", "title": "Resource descriptor HOBs become the address map", "statement": "Start-up creates a memory space of the size the CPU HOB gives, containing exactly the whole pages of free memory the handoff HOB announces, as usable system memory. Adding the resource descriptors then makes every address a descriptor covers (outside the free memory) unallocated memory of the kind the descriptor's type and attributes stand for, with exactly the capabilities they give and the attributes a version 2 descriptor asks for; I/O descriptors likewise fill the I/O space. No other address changes, nothing that existed is changed, overlapping descriptors never both succeed, and a list of consistent, non-overlapping descriptors within the address width is always accepted.", "quantifier": "every HOB list in memory, every address, debug and release builds, and every sequence of memory and I/O space calls made between the two steps", "why_tests_cant": "a test feeds a handful of descriptor layouts; the claim is per address, for every layout of ranges relative to the free memory, every attribute word and every earlier history", "anchors": ["patina_dxe_core/src/gcd.rs: init_gcd, add_hob_resource_descriptors_to_gcd, remove_range_overlap", "patina_dxe_core/src/gcd/spin_locked_gcd.rs: get_capabilities, SpinLockedGcd::set_memory_space_attributes", "sdk/patina_pi/src/hob.rs: ResourceDescriptor::attributes_valid"]}
{"id": "C54", "title": "Page allocations and frees through an allocator", "statement": "A successful page allocation returns a non-zero address that is a multiple of the allocator's granularity and of the alignment asked for, within the limits of the request; the range is the pages asked for rounded up to the granularity, has no byte in common with anything given out, and belongs to the allocator afterwards. A failed one gives out nothing. A free takes back exactly that range, keeps it for the allocator only if it is in its reserved range, and an allocator never frees pages that belong to another.", "quantifier": "every history of allocator, GCD and memory operations, every request, page count, alignment and granularity", "why_tests_cant": "Ranges over histories of the memory map and over all requests.", "anchors": ["patina_dxe_core/src/allocator/fixed_size_block_allocator.rs: allocate_pages, free_pages"]}
{"id": "C53", "title": "The page count of an allocator is the number of pages in use", "statement": "After every history of growth, page allocations, page frees and reservations, the number of pages an allocator reports for its memory type is exactly the number of pages in use, inside or outside its reserved range: it goes up by the pages taken and down by the pages given back, and reserving a range by itself does not change it.", "quantifier": "every history of allocator operations, every granularity and every reserved range, as long as a range is freed as it was taken and does not straddle the end of the reserve", "why_tests_cant": "Counts are the sum over an unbounded history; a test fixes one.", "anchors": ["patina_dxe_core/src/allocator/fixed_size_block_allocator.rs: update_memory_type_info, notify_page_allocation, notify_pages_freed, set_reserved_range, expand"]}
{"id": "C55", "title": "Reserved ranges stay reserved", "statement": "A range reserved for a memory type is the number of pages asked for, rounded up to the granularity, aligned to the granularity, and nothing given out is in it. From then on it is kept for that type: through every sequence of block and page allocations and frees, whatever their results, no request of another type that leaves the address to the system is given any of it and nothing in use for another type is in it, unless somebody asks for one of its addresses. A second reservation is refused and changes nothing.", "quantifier": "every history of allocator, GCD and memory operations before and after, every page count and granularity, every other allocator", "why_tests_cant": "Ranges over unbounded interleavings of calls on several allocators sharing one memory map.", "anchors": ["patina_dxe_core/src/allocator/fixed_size_block_allocator.rs: reserve_memory_pages, set_reserved_range, free_pages", "patina_dxe_core/src/gcd/spin_locked_gcd.rs: free_memory_space_preserving_ownership, allocate_memory_space"]}
{"id": "C56", "title": "The memory map says what memory there is", "statement": "The memory map handed to a caller is in ascending order without overlaps, consists of non-empty ranges of whole pages, and no two entries could be joined. Every address it reports has the type and attributes it reports: the type of the allocator that owns the address, otherwise the one its memory space type stands for, capabilities without the access bits, and the runtime bit exactly where the memory is in force as runtime memory or belongs to runtime services. As long as memory is added, removed and allocated in whole pages, every address that has such a type is reported, so the map is the only well-formed list that says this.", "quantifier": "every history of memory space calls, every address width, every set of allocators, every address", "why_tests_cant": "Ranges over all layouts of the address space; a test fixes one.", "anchors": ["patina_dxe_core/src/allocator.rs: get_memory_map_descriptors, merge_blocks, memory_type_for_handle"]}
{"id": "C57", "title": "GetMemoryMap and its key", "statement": "A call with a buffer that is too small reports the size needed and writes no map; a second call with that size succeeds if the map has not changed. A caller stepping through the buffer by the reported descriptor size finds exactly the entries of the map. The key is accepted later exactly when it is the checksum of the map as it then is: so always when the map (and the padding of its descriptors) is unchanged, and never when it differs within four consecutive bytes, as when one range has changed its type.", "quantifier": "every memory map, buffer size and choice of null pointers, every later state of memory", "why_tests_cant": "Ranges over all maps and all pairs of maps; in particular the checksum argument is about all byte strings.", "anchors": ["patina_dxe_core/src/allocator.rs: get_memory_map, terminate_memory_map", "patina_dxe_core/src/misc_boot_services.rs: calculate_crc32"]}
{"id": "C58", "title": "ExitBootServices", "statement": "ExitBootServices succeeds exactly when the key is that of the memory map as it is after the first-call callbacks ran. A refused call leaves allocation working again before EBS_FAILED is signalled, and shuts nothing down but the timer; a loader that then reads the map again and retries succeeds, because the announcing event groups are signalled exactly once over any number of calls. A successful call signals the exit event group, then disables interrupts and clears boot services; afterwards nothing can be allocated or freed.", "quantifier": "every sequence of calls, every key, every behaviour of the event callbacks and of everything running between the calls", "why_tests_cant": "Ranges over all histories of calls and all callback behaviours.", "anchors": ["patina_dxe_core/src/misc_boot_services.rs: exit_boot_services", "patina_dxe_core/src/gcd/spin_locked_gcd.rs: lock_memory_space, unlock_memory_space"]}
{"id": "C59", "title": "Memory in use before the core started stays in use", "statement": "When the HOB list has been processed, every page-granular range that a memory allocation HOB claims and that was free memory of one type, and every firmware volume in unallocated MMIO, is allocated: to the handle of the HOB's memory type in system memory, to the core otherwise. From then on no allocation gets any of it until somebody frees it. Page 0, if it was free system memory, is allocated too. Nothing else is taken, nothing given out before is taken back, and no memory is written.", "quantifier": "every HOB list, every state of the memory and of the allocators before it is processed, every later history", "why_tests_cant": "Ranges over all HOB lists and overlaps between their ranges; the claims of several HOBs and the memory they leave interact.", "anchors": ["patina_dxe_core/src/allocator.rs: process_hob_allocations, core_allocate_pages", "patina_dxe_core/src/gcd/spin_locked_gcd.rs: allocate_memory_space"]}
{"id": "C60", "title": "Loading an image places the bytes its header asks for", "statement": "Loading a PE/COFF image into a buffer succeeds exactly if the headers and the file part of every section fit both the file and the buffer, and is refused as too short otherwise, without a panic. After success every byte of the buffer is determined: the file's byte for the last section that covers it, otherwise the header byte, otherwise zero. Nothing the buffer held before shows through.", "quantifier": "every parsed header (any sections, overlapping or not, any sizes and offsets), every file, every buffer", "why_tests_cant": "Ranges over all section tables, including hostile ones; a test fixes one file.", "anchors": ["patina_dxe_core/src/pecoff.rs: load_image"]}
{"id": "C61", "title": "The relocation directory is read as what it encodes", "statement": "Reading the bytes of a relocation directory always returns: the list of blocks exactly if the bytes are the encoding of those blocks (headers, entries as many as the stated size holds, padding to 32 bits between blocks), and an error otherwise.", "quantifier": "every byte string", "why_tests_cant": "Ranges over all byte strings; block sizes and offsets come from the file.", "anchors": ["patina_dxe_core/src/pecoff/relocation.rs: parse_relocation_blocks"]}
{"id": "C62", "title": "Relocation moves every listed address and nothing else", "statement": "Relocating a loaded image to an address succeeds exactly if its base field, directory and listed fields lie inside it and are of known kinds. Then the base field names the new address, every listed 32- or 64-bit field has moved by the distance from the old base, and every other byte is as before; so a pointer to a place in the image points to the same place at the new address. Relocating an image again gives what relocating it there at once gives. For every 64-bit field the value it now holds is recorded.", "quantifier": "every image and directory whose fields do not overlap, every destination, every earlier relocation", "why_tests_cant": "Ranges over all images, directories and sequences of destinations.", "anchors": ["patina_dxe_core/src/pecoff.rs: relocate_image, flatten_runtime_relocation_data"]}
{"id": "C63", "title": "The page table agrees with the memory space", "statement": "Once the page table is installed, whatever sequence of memory space calls is made, every page of memory is mapped exactly as its descriptor says: with its access and cache attributes, or not at all if it is read-protected or does not exist. Setting attributes changes the range in both places and nothing else, or a first part of it if it reports an error; it returns; it succeeds if the memory supports the attributes and the page table does not fail; and it signals the event group if a page gets another cache type. Memory handed out is mapped non-executable, a page becomes executable only if somebody sets attributes without XP on it, and freed memory is not mapped any more. (The calls: allocations and removals of whole pages, freeing that does not keep the memory for its owner and happens before the lock, attributes that the memory supports and that concern the page table.)", "quantifier": "every reachable state, every history of such calls, every failure of the page table other than on freeing, debug and release builds", "why_tests_cant": "Ranges over all histories, all splits of the memory into descriptors and all failures of the page table.", "anchors": ["patina_dxe_core/src/gcd/spin_locked_gcd.rs: SpinLockedGcd::{set_paging_attributes, set_memory_space_attributes, allocate_memory_space, free_memory_space, free_memory_space_preserving_ownership, remove_memory_space}", "patina_dxe_core/src/dxe_services.rs: core_set_memory_space_attributes"]}
{"id": "C64", "title": "Images are never both writable and executable, and give back all their memory", "statement": "Protecting a loaded image gives every address of a section the access its section asks for: code is read-only, everything else not executable and, unless the section is writable, read-only; the last of overlapping sections decides; no other address changes and the page table agrees. Whatever fails meanwhile, a page whose mapping changed lies in one of the sections (or is no longer mapped at all), is not both writable and executable, and is executable only if that section holds code. Removing the protections makes every section data again and makes no page executable; an image that was loaded into one allocation is afterwards freed completely. The page below the stack of an image is not mapped and no other page is affected; dropping the stack frees all its pages. The image begins at a multiple of its section alignment and lies in the pages allocated for it.", "quantifier": "every reachable state of the memory space, every list of sections in the image, every failure of the page table, debug and release builds", "why_tests_cant": "Ranges over all section tables and all maps of the memory.", "anchors": ["patina_dxe_core/src/image.rs: apply_image_memory_protections, remove_image_memory_protections, ImageStack, PrivateImageData::new"]}
{"id": "C65", "title": "The memory attribute protocol changes exactly what it is asked to", "statement": "A call to set access attributes (read-protect, read-only, execute-protect) of a page-aligned range inside the memory space returns; it adds those attributes to whatever each page of the range had, in the memory space and in the page table, and changes nothing else. A call to clear removes them likewise. If an error is reported, this was done for a first part of the range only. Requests with other attributes, none, or partial pages are refused without effect. If every page supports what it is to get and the page table does not fail, the call succeeds. What a call to get reports are the access attributes of every page of the range. The page table and the memory space stay in agreement, if no page loses all access and cache attributes.", "quantifier": "every reachable state, every split of the range into descriptors, every request, every failure of the page table, debug and release builds", "why_tests_cant": "Ranges over all maps of the memory and all requests; a range can cross any number of descriptors with different attributes.", "anchors": ["patina_dxe_core/src/memory_attributes_protocol.rs: get_memory_attributes, set_memory_attributes, clear_memory_attributes"]}
{"id": "C66", "title": "The memory manager service gives pages the access asked for", "statement": "Setting page attributes gives every page of the range exactly the access that was asked for, and the cache type if one was asked for, in the memory space and in the page table; all other attributes and all other pages stay as they were; if an error is reported this was done for a first part of the range only. Nothing is ever made both writable and executable: such a request is refused without effect. It returns; it succeeds if the pages support what they are to get and the page table does not fail. Asking about a range afterwards reports what was set, and what is reported always holds of every page of the range.", "quantifier": "every reachable state, every split of the range into descriptors, every request, every failure of the page table, debug and release builds", "why_tests_cant": "Ranges over all maps of the memory and all requests.", "anchors": ["patina_dxe_core/src/memory_manager.rs: set_page_attributes, get_page_attributes", "sdk/patina/src/component/service/memory.rs: AccessType, CachingType"]}
{"id": "C67", "title": "The configuration table holds what was installed last, and the checksums of the published tables are right", "statement": "After any history of InstallConfigurationTable calls, console and service-table updates, checksum updates and the clearing of boot services, the configuration table has for every GUID exactly the pointer installed last and not removed since, at most one entry per GUID, never an entry with a null pointer, its pointer is null exactly if it is empty; the event group of a GUID is signalled once for each change of its entry, in order, and for nothing else. Removing a table that is not there is NOT_FOUND without effect. After every change made through InstallConfigurationTable or by recomputing, the CRC32 of the system table (and, after recomputing, of the boot and runtime services tables) is the CRC of the table with its checksum field zero.", "quantifier": "every history of operations, every table contents, every place the allocator puts the new list", "why_tests_cant": "Ranges over all histories; every call rebuilds the list in new memory.", "anchors": ["patina_dxe_core/src/config_tables.rs: core_install_configuration_table", "patina_dxe_core/src/systemtables.rs: EfiSystemTable, checksum, checksum_all, clear_boot_time_services"]}
{"id": "C68", "title": "A debugger that stops the machine at any instruction finds the loaded images or is told of an update", "statement": "After any history of loading and unloading images the debug image information table lists exactly the images that are loaded, each once, and says that no update is in progress. If the machine is stopped between any two writes of an operation, either the status says that an update is in progress, or the header leads through valid memory to exactly the images before the operation or exactly those after it. Every change sets the modified flag.", "quantifier": "every history, every point between two writes of any operation, any number of images (the array grows)", "why_tests_cant": "Ranges over all histories and all crash points in them.", "anchors": ["patina_dxe_core/src/config_tables/debug_image_info_table.rs: core_new_debug_image_info_entry, core_remove_debug_image_info_entry, initialize_debug_image_info_table"]}
{"id": "C69", "title": "The memory attributes table lists exactly the runtime memory, never writable and executable", "statement": "When ready-to-boot is signalled, and at every allocation or freeing of runtime pages after it, the memory attributes table that the configuration table publishes lists exactly the memory of runtime services code and data there is then: every address once, in whole pages, in ascending order, with its type, marked as runtime memory, write-protected and execute-protected as it is; memory that is neither is listed as not executable, and code as read-only too. So nothing is ever listed as both writable and executable. The published table is always in memory in use, tables replaced are freed, and other configuration tables are not affected; if there is no memory for a new table the old one stays.", "quantifier": "every history of calls, every reachable memory space in whole pages, every allocation failure", "why_tests_cant": "Ranges over all memory maps and histories.", "anchors": ["patina_dxe_core/src/config_tables/memory_attributes_table.rs: core_install_memory_attributes_table, MemoryAttributesTable"]}
{"id": "C70", "title": "Stall and SetWatchdogTimer ask the hardware for the time requested", "statement": "A stall waits for the requested time rounded down to whole ticks of the metronome, in waits of at least one tick that each fit in 32 bits, for every request; it lasts at least as long as requested exactly if the tick divides the request. Without a metronome it is NOT_READY. The watchdog is armed with the timeout in its units or, if that does not fit, the longest possible period, and turned off exactly if the timeout is zero; what the driver answers decides the status.", "quantifier": "every number of microseconds or seconds, every tick period, every answer of the drivers", "why_tests_cant": "Ranges over all requests and periods; the loop for long waits runs any number of times.", "anchors": ["patina_dxe_core/src/misc_boot_services.rs: stall, set_watchdog_timer"]}
{"id": "C71", "title": "The runtime driver finds exactly the loaded runtime images and open runtime events", "statement": "After any history of adding and removing runtime images and events, and of installing the runtime protocol before, between or after these, walking the image list or the event list from its head in the protocol that was installed last reaches, through entries in use, exactly the images that are loaded and the events that are not closed, in the order they were added, and returns to the head; walking backward reaches the same in the opposite order. Events of the virtual address change group carry its combined type. Entries that were removed are freed. Ending boot services sets at_runtime in the protocol and changes no list.", "quantifier": "every history, any number of entries, every place memory is allocated", "why_tests_cant": "Ranges over all histories; the lists are linked through raw memory.", "anchors": ["patina_dxe_core/src/runtime.rs: update_protocol_lists, runtime_protocol_notify, add_runtime_event, remove_runtime_event, add_runtime_image, remove_runtime_image, finalize_runtime_support"]}
{"id": "C72", "title": "Images start once, nest like calls and end in a known state", "statement": "The entry point of an image is called at most once, whatever anyone does. As long as no image is unloaded while it is running or being unloaded, in any history of loading, starting, exiting and unloading, from entry points and unload functions at any depth: nothing panics; only the innermost running image can end, by Exit or by returning, and everyone else's Exit for a started image is refused without effect; each start returns to its caller with the status its image ended with and, if wanted, its exit data, after everything that was started within it is gone. An image that succeeds and is not an application stays loaded; one that fails or is an application, when StartImage has started it, is unloaded unless its own unload function refuses. Images go away for no other reasons than these: unloaded or given up before they are started, their unload function agreed, they ended as above, or StartImage for them was refused. UnloadImage refuses started images without unload function and passes on the error of the function.", "quantifier": "every history of these services, any number of images, any nesting", "why_tests_cant": "Ranges over all histories of reentrant calls, with coroutines that are abandoned half way.", "anchors": ["patina_dxe_core/src/image.rs: start_image, core_start_image, exit, core_unload_image, unload_image"]}
{"id": "C73", "title": "The boot performance table holds every record that was added, readable by its iterator", "statement": "After any sequence of setting the records from before the core, adding records and publishing the table once, with records of at most 255 bytes: the table's memory has the signature, the boot record, and then exactly the records that were accepted, in the order they were added, each encoded as its layout says, and its length field is their end; a reader that iterates over the records finds each of them with its type, revision and data. Before the table is published every record is accepted; afterwards one is refused, without any change, exactly when there is no room for it. The records of all HOBs are taken over in order, byte for byte, and their counts are added up; the data the management mode serves in pieces are fetched completely and their records added.", "quantifier": "every sequence of operations, every record, any number of HOBs, every way of serving the data in pieces", "why_tests_cant": "Ranges over all histories and all record contents; a test has a few records.", "anchors": ["sdk/patina/src/performance/record.rs: PerformanceRecord, PerformanceRecordBuffer, Iter", "sdk/patina/src/performance/table.rs: FBPT, FirmwareBasicBootPerfTable", "sdk/patina/src/performance/record/hob.rs: HobPerformanceData", "sdk/patina/src/performance/measurement.rs: event_callback::fetch_and_add_mm_performance_records"]}
{"id": "C74", "title": "A performance measurement adds the one record its arguments call for", "statement": "A measurement that succeeds adds exactly one record to the table, with the time of the measurement; one that is refused adds none. The id of the record is the given one if it is one of the core's ids and the string is not one of the core's tokens; with both it is refused. For other ids the lower four bits of a start become zero, those of an end become non-zero, and the rest stays. Without an id, a token of the core gives the documented start and end ids and any other string those of a measurement within a module. A measurement is refused exactly when it lacks what its id needs: the module's GUID for module records, a GUID and a string for signals and callbacks. The count of loaded images goes up by one with each start of loading an image.", "quantifier": "every combination of arguments, every state of the table", "why_tests_cant": "Ranges over all ids, strings and attributes; the table's state is any reachable one.", "anchors": ["sdk/patina/src/performance/measurement.rs: create_performance_measurement, _create_performance_measurement", "sdk/patina/src/performance/record/known.rs: KnownPerfId::try_from_perf_info, KnownPerfToken"]}
{"id": "C75", "title": "GUIDs and their strings and bytes correspond one to one", "statement": "A string is accepted as a GUID exactly when it has 32 hexadecimal digits in either case with nothing but dashes and ASCII white space between them, and the GUID is the one with these digits; otherwise the error is the first character that may not be there with its position, or the number of digits (33 when there are more than 32). A GUID is displayed as 8-4-4-4-12 upper case digits of its fields, and what is displayed is read as the same GUID. Its 16 bytes hold its fields, the first three little endian; every 16 bytes are the bytes of exactly one GUID. Two GUIDs are equal exactly when their fields are, and their order is total and consistent with equality.", "quantifier": "every GUID, every string, every 16 bytes", "why_tests_cant": "Ranges over 2^128 GUIDs and all strings.", "anchors": ["sdk/patina/src/base/guid.rs: Guid, OwnedGuid::try_from_string, Display, Ord, from_bytes, as_bytes"]}
{"id": "C76", "title": "UninstallProtocolInterface stops users first, and interfaces go or stay whole", "statement": "An interface is uninstalled exactly when it is the one on that handle and every user could be made to let go: drivers are disconnected one after the other, plain users whose handles still exist are closed. If one does not let go the call answers ACCESS_DENIED, drivers are connected again and the interface stays. As long as the drivers and event functions that run meanwhile install and uninstall nothing themselves, no other interface changes. ReinstallProtocolInterface replaces the interface or changes nothing; the private interface that keeps the handle alive meanwhile is never left behind.", "quantifier": "every protocol database that can be reached, every handle, GUID and interface, every behaviour of drivers and event functions", "why_tests_cant": "Ranges over all histories and over what arbitrary drivers do while they are called.", "anchors": ["patina_dxe_core/src/protocols.rs: core_uninstall_protocol_interface, reinstall_protocol_interface, core_install_protocol_interface"]}
{"id": "C77", "title": "OpenProtocol, HandleProtocol and CloseProtocol", "statement": "OpenProtocol answers by the table of attributes and users (C14) and hands out the interface unless it is only tested; a refusal changes no user. An exclusive open first disconnects the driver that manages the device; if it does not stop the answer is ACCESS_DENIED, otherwise afterwards nobody else has it as a driver or exclusively. HandleProtocol gives the interface or UNSUPPORTED and null. CloseProtocol removes exactly the opens of this agent for this controller. None of them changes an interface.", "quantifier": "every reachable database, every agent, controller and attribute, every behaviour of drivers that are disconnected", "why_tests_cant": "Ranges over all histories of opens and closes and over arbitrary drivers.", "anchors": ["patina_dxe_core/src/protocols.rs: open_protocol, handle_protocol, close_protocol"]}
{"id": "C78", "title": "LocateDevicePath finds the closest handle", "statement": "LocateDevicePath gives, among the handles that support the protocol and have a device path that is a prefix of the path asked for, one with the longest such prefix, and the rest of the path after it; it answers NOT_FOUND exactly when there is none. It changes no interface. A device path counts as taken when it is installed already on some handle.", "quantifier": "every reachable database, every device path, any number of handles", "why_tests_cant": "Ranges over all databases and device paths of any length.", "anchors": ["patina_dxe_core/src/protocols.rs: core_locate_device_path, locate_device_path, install_multiple_protocol_interfaces"]}
{"id": "C79", "title": "Installing and uninstalling several interfaces is all or nothing", "statement": "InstallMultipleProtocolInterfaces always returns. On success exactly the interfaces given are added, to the handle given or to a new one; otherwise no interface is there that was not there before, and none is missing. It is refused exactly when a device path is taken already (ALREADY_STARTED), when a GUID is given twice, when the handle is not valid or has one of the GUIDs already. No event function runs before it is over. UninstallMultipleProtocolInterfaces removes all the interfaces; otherwise it answers INVALID_PARAMETER and, if the handle has an interface that is not in the list, all are there as before.", "quantifier": "every reachable database, every list of interfaces, every behaviour of drivers and event functions (those that install and uninstall nothing, for uninstalling)", "why_tests_cant": "A failure can come at any position of a list of any length, in any state.", "anchors": ["patina_dxe_core/src/protocols.rs: install_multiple_protocol_interfaces, uninstall_multiple_protocol_interfaces"]}
{"id": "C80", "title": "The services that list handles, protocols and users list exactly what is there", "statement": "LocateHandle succeeds exactly when something is found and the buffer has room for all of it, and then the buffer holds exactly what was found; otherwise nothing is written but the size needed, and a second call with that size succeeds. LocateHandleBuffer, ProtocolsPerHandle and OpenProtocolInformation list exactly the handles, protocols and users that are there, or answer OUT_OF_RESOURCES. LocateProtocol gives an interface of the protocol or NOT_FOUND and null. A search by registration gives the handle that is owed.", "quantifier": "every reachable database, every search, every buffer size", "why_tests_cant": "Ranges over all databases and buffer sizes.", "anchors": ["patina_dxe_core/src/protocols.rs: locate_handle, locate_handle_buffer, locate_protocol, protocols_per_handle, open_protocol_information"]}
{"id": "C81", "title": "The firmware volume block protocol answers for its volume", "statement": "The functions of the block protocol answer for the volume whose interface they are called with: attributes, address, the size of a block and the number of blocks like it, and the bytes of a block. A read delivers the bytes at that place of that block, never more than the caller has room for and never beyond the block, and reports how many; BAD_BUFFER_SIZE if the block ends before. A block number beyond the block map, and an interface pointer the core did not hand out or that belongs to the other protocol, are refused and nothing is written.", "quantifier": "every memory content, every set of installed volumes, every interface pointer, block number, offset and length", "why_tests_cant": "Ranges over every block map and every position in it.", "anchors": ["patina_dxe_core/src/fv.rs: fvb_get_attributes, fvb_get_physical_address, fvb_get_block_size, fvb_read, core_fvb_read"]}
{"id": "C82", "title": "The firmware volume protocol lists and reads every file", "statement": "Calling GetNextFile with the key of the call before, starting with 0, reports every file of the type asked for once, in the order of the volume, and ends with NOT_FOUND, or with the damage that hides the rest. ReadFile finds a file by its name and reports type, attributes and size; it copies the whole content into a buffer that is large enough, allocates one if it is asked to, and writes nothing into one that is too small. A caller that asks for the size first succeeds. In particular, for a volume that was serialised and placed in memory the files come back with the content they were built from. A volume that may not be read is refused.", "quantifier": "every volume, every memory content, every name, key, type, buffer and allocator", "why_tests_cant": "Ranges over all volumes, with any number of files and damage anywhere.", "anchors": ["patina_dxe_core/src/fv.rs: fv_get_next_file, core_fv_get_next_file, fv_read_file, core_fv_read_file; sdk/patina_ffs/src/volume.rs: VolumeRef::new_from_address, files"]}
{"id": "C83", "title": "ReadSection delivers the section asked for", "statement": "ReadSection finds, in the file of that name, the section of the given type and instance, counting through all encapsulated sections depth first, and delivers its content: into a buffer it allocates if the caller has none, into the caller's buffer as far as it fits, with WARN_BUFFER_TOO_SMALL if the section is longer. If there are not so many sections of that type it answers NOT_FOUND.", "quantifier": "every tree of sections, every extractor that undoes the packing, every type, instance and buffer", "why_tests_cant": "Ranges over all trees of sections.", "anchors": ["patina_dxe_core/src/fv.rs: fv_read_section, core_fv_read_section; sdk/patina_ffs/src/file.rs: sections_with_extractor; sdk/patina_ffs/src/section.rs: Section::sections, Section::extract"]}
{"id": "C84", "title": "An installed firmware volume has one handle that stands for it", "statement": "Installing a firmware volume creates one new handle with its device path and its block and volume protocols, whose interfaces answer for exactly this volume, then and after any further installation; no other interface changes. The device path carries the name of the volume, or else its place in memory, and the path of a file in it is this path followed by the name of the file. A damaged volume is refused and changes nothing. The volumes of the HOB list are installed in order up to the first that is damaged.", "quantifier": "every protocol database that can be reached, every memory content, every behaviour of event functions that take nothing away, every HOB list", "why_tests_cant": "Ranges over all histories and over what event functions do in between.", "anchors": ["patina_dxe_core/src/fv.rs: core_install_firmware_volume, install_fv_device_path_protocol, install_fvb_protocol, install_fv_protocol, parse_hob_fvs, device_path_bytes_for_fv_file"]}
{"id": "C85", "title": "The SDK's variable services return what the firmware holds", "statement": "GetVariable of the SDK returns exactly the bytes and the attributes the firmware holds for this name and vendor, whatever their size and whichever size hint is given, or NOT_FOUND if there is no such variable, without the caller managing a buffer. What SetVariable wrote is what GetVariable returns afterwards, and other variables are as before. Size and attributes can be asked without the value. A name that is not terminated is refused before the firmware is called, and every other status of the firmware is passed on.", "quantifier": "every content of the variable store, every name, vendor, size hint, value and attributes, every firmware that follows the UEFI specification, every change of the store between the two calls of the firmware", "why_tests_cant": "Ranges over all variable stores and firmware behaviours, and over what happens between two calls.", "anchors": ["sdk/patina/src/runtime_services.rs: set_variable, get_variable, get_variable_size_and_attributes, query_variable_info", "sdk/patina/src/runtime_services/variable_services.rs: GetVariableStatus, VariableInfo"]}
{"id": "C86", "title": "Enumerating variables lists each once", "statement": "The iterator over variables of the SDK yields the name and the vendor of every variable the firmware holds exactly once, in the order of the firmware, and then ends; from a given variable on it yields those behind it. The buffers handed to the firmware are as large as the sizes handed with them, and are enlarged when the firmware asks for it. Errors end the iteration after they have been yielded once.", "quantifier": "every content of the variable store, names of every length, every firmware that follows the UEFI specification", "why_tests_cant": "Ranges over all variable stores and name lengths.", "anchors": ["sdk/patina/src/runtime_services.rs: get_next_variable_name, get_next_variable_name_unchecked", "sdk/patina/src/runtime_services/variable_services.rs: FirmwareVariableIterator"]}
{"id": "C87", "title": "A stack trace on x64 computes the caller's frame", "statement": "In the body of a function with unwind information the trace computes the stack pointer and the return address of the caller: exactly what the prologue, as the unwind record describes it, has put where. The function taken is the one the return address belongs to.", "quantifier": "every image in memory, every function table in order, every prologue the unwind codes can express, every program counter in the body of a function, every content of the stack", "why_tests_cant": "Ranges over all prologues and all images; the tests use a handful of records of one compiler.", "anchors": ["core/patina_stacktrace/src/x64/unwind.rs: UnwindInfo, UnwindCode::get_stack_pointer_offset, get_current_stack_frame", "core/patina_stacktrace/src/x64/runtime_function.rs: find_function"]}
{"id": "C88", "title": "A stack trace on AArch64 computes the caller's frame", "statement": "In the body of a function with unwind information, packed or not, the trace computes the stack pointer and the return address of the caller, and the walk over the unwind codes ends.", "quantifier": "every image in memory, every function table in order, every prologue the unwind codes or the packed data can express, every header form of the record, every content of the stack", "why_tests_cant": "Ranges over all prologues, header forms and byte strings of codes.", "anchors": ["core/patina_stacktrace/src/aarch64/unwind.rs: UnwindInfo::parse, get_stack_pointer_offset_packed, get_stack_pointer_offset_unpacked, get_current_stack_frame", "core/patina_stacktrace/src/aarch64/runtime_function.rs: find_function"]}
{"id": "C89", "title": "A stack trace lists the calls in progress", "statement": "The image an address belongs to is found, with the name of its symbol file. The trace logs one line for every call in progress, the innermost first, with its stack pointer, return address, image and place in the image, and ends at return address 0; of more than 20 calls it logs the innermost 20 and reports an error. It never logs more than 20 lines.", "quantifier": "every memory content, every chain of calls of every length, every image in memory and every path of a symbol file", "why_tests_cant": "Ranges over all memories and call chains.", "anchors": ["core/patina_stacktrace/src/stacktrace.rs: dump_with", "core/patina_stacktrace/src/pe.rs: locate_image, get_image_name, get_exception_table"]}
{"id": "C90", "title": "Pages held by a component have one owner and are freed once", "statement": "Pages a component allocated belong to exactly one value at any time: the allocation, the box or boxed slice it was turned into, or a raw pointer or leaked reference. No two values share a byte, a value's contents change only through that value, pages are freed exactly when their allocation or box is dropped or a conversion fails, and never twice. A box holds the value it was made with, a boxed slice as many elements as fit, each with its initial value; zeroed pages are zero; pointers are not null and aligned.", "quantifier": "every sequence of allocations, conversions, stores, drops and frees of a component, every memory manager that keeps the documented contract, every size of values and elements", "why_tests_cant": "Ranges over all histories of a component and all memory managers.", "anchors": ["sdk/patina/src/component/service/memory.rs: PageAllocation, PageFree, MemoryManager::allocate_zero_pages"]}
{"id": "C91", "title": "The memory manager service allocates and frees pages as asked", "statement": "An allocation through the memory manager service has the pages asked for, at the address or below the limit and with the alignment asked for, of the memory type asked for, and shares no byte with anything else that is allocated. What the core allocated is never lost on the way. Requests with a memory type that cannot be allocated, with a bad alignment or an unaligned address are refused with their own errors and change nothing. Freeing with the count that was asked for frees everything the allocation took.", "quantifier": "every reachable state of the core's allocators, every count, alignment, strategy and memory type, every granularity of the runtime types", "why_tests_cant": "Ranges over all reachable states of the allocators and all requests.", "anchors": ["patina_dxe_core/src/memory_manager.rs: CoreMemoryManager::allocate_pages, free_pages, allow_allocations_for_type"]}
{"id": "C92", "title": "A registered exception handler is the one that is called", "statement": "RegisterInterruptHandler accepts a handler exactly for an exception type that exists and has none; it never replaces one. From then until it is removed, every occurrence of the exception calls this handler, once and with the type, and no other handler; nothing that happens to other types changes that. Refused calls change nothing and say why; negative and too large types are invalid parameters.", "quantifier": "every history of registrations, removals, exceptions, nested exceptions and returns, every type and handler", "why_tests_cant": "tests register one handler for one type; that a handler is never lost or replaced is about all histories, and which types reach the handlers at all depends on tables for each architecture", "anchors": ["core/patina_internal_cpu/src/interrupts/exception_handling.rs: register_exception_handler, unregister_exception_handler, exception_handler", "patina_dxe_core/src/cpu_arch_protocol.rs: register_interrupt_handler", "core/patina_internal_cpu/src/interrupts/x64/interrupt_manager.rs: IDT, initialize"]}
{"id": "C93", "title": "The hardware interrupt protocols act on the interrupt they are given", "statement": "Registering a handler for an interrupt source enables exactly this interrupt and makes the handler the one that is called each time it is signalled, until it is removed, which disables it; enabling, disabling, ending, and setting the trigger type act on this interrupt only, and reading the state or the trigger type gives what was set. Refused calls change nothing.", "quantifier": "every source, every number of interrupts the controller has, every history of calls and signals", "why_tests_cant": "the protocol needs an interrupt controller; the numbers of the interrupts are computed differently in each function, and only some kinds of interrupts show it", "anchors": ["patina_dxe_core/src/hw_interrupt_protocol.rs: HwInterruptProtocolHandler, EfiHardwareInterruptProtocol, EfiHardwareInterruptV2Protocol", "core/patina_internal_cpu/src/interrupts/aarch64/gic_manager.rs: AArch64InterruptInitializer"]}
{"id": "C94", "title": "On x64 an exception handler sees the interrupted program, and the program resumes as the context says", "statement": "The system context given to a handler holds the error code the processor delivered (zero if none) and the values the registers of the interrupted program had; when the handler returns the program continues at the address, with the flags, the stack and the registers that are in the context then, so a handler that changes nothing goes unnoticed.", "quantifier": "every vector, every state of the registers and the stack, every change a handler makes to the context", "why_tests_cant": "the code is assembly that runs between two instructions of an arbitrary program; a unit test cannot interrupt a program at every vector with every register state, and a wrong offset shows only in the field it hits", "anchors": ["core/patina_internal_cpu/src/interrupts/x64/interrupt_handler.asm: AsmIdtVectorBegin, common_interrupt_entry, stack_normalized"]}
{"id": "C95", "title": "On AArch64 an exception handler sees the interrupted program, and the program resumes as the context says", "statement": "The handler is called with the kind of the exception and a context that holds the values the general, vector, stack pointer and system registers of the interrupted program had; when it returns, the program continues with the address, state, general and vector registers that are in the context then and with its own stack pointers, so a handler that changes nothing goes unnoticed.", "quantifier": "every kind of exception taken from the current level, both stack pointers, every state of the registers and every change a handler makes to the context", "why_tests_cant": "the code is assembly that runs between two instructions of an arbitrary program and switches between two stacks", "anchors": ["core/patina_internal_cpu/src/interrupts/aarch64/exception_handler.asm: ExceptionEntry, common_exception_routine"]}
{"id": "C96", "title": "The debugger reads and writes the memory it is asked for", "statement": "Reading gives the bytes of memory from the address on, up to the first that cannot be read; writing changes exactly the bytes given, also in pages that are read-only, and leaves the page tables as they were; what cannot be done is refused and changes nothing.", "quantifier": "every address, length and content, every page table and memory", "why_tests_cant": "the paths depend on how a range lies across pages and on their attributes; tests cannot map pages, and a wrong address shows only on ranges that cross a boundary", "anchors": ["core/patina_debugger/src/memory.rs: read_memory, write_memory, poke_test", "core/patina_debugger/src/arch/x64.rs: memory_poke_test"]}
{"id": "C97", "title": "Breakpoints never change the program for good", "statement": "While a breakpoint is set the breakpoint instruction is at its address; everywhere else memory is the program's. Removing it puts back what the program has there; when all are removed nothing of them is left. A breakpoint is refused only if there is no room, and then nothing changes.", "quantifier": "every history of setting and removing breakpoints and of writes, in any order and number", "why_tests_cant": "a lost or stale saved byte corrupts the program much later; it needs particular orders of setting and removing", "anchors": ["core/patina_debugger/src/dbg_target/breakpoint.rs: add_sw_breakpoint, remove_sw_breakpoint"]}
{"id": "C98", "title": "The debugger shows and changes the registers it describes", "statement": "The bytes sent for the registers, read by the description that the debugger itself sends, are the values in the exception context; the bytes received become the values of the registers described, and changing one register changes that one only.", "quantifier": "every context and every change of every register", "why_tests_cant": "the description, the order of the fields and their widths are in three places; a test that compares the code with itself does not see that they disagree", "anchors": ["core/patina_debugger/src/arch/x64.rs: X64CoreRegs", "core/patina_debugger/src/arch/aarch64.rs: Aarch64CoreRegs", "core/patina_debugger/src/arch/xml: x64_registers.xml, aarch64_registers.xml"]}
{"id": "C99", "title": "A watchpoint stops the program at exactly the accesses it is for", "statement": "After any history of setting and removing watchpoints, the processor stops exactly at the accesses that touch a byte of a watchpoint that is set, of the kind it is for; a watchpoint is refused only when all are in use.", "quantifier": "every history, address, length and kind of access", "why_tests_cant": "the registers are of the processor and their meaning is in its manual; tests cannot run the accesses", "anchors": ["core/patina_debugger/src/arch/x64.rs: add_watchpoint, remove_watchpoint, X64HardwareBreakpoints", "core/patina_debugger/src/arch/aarch64.rs: add_watchpoint, remove_watchpoint, Wcr"]}
{"id": "C100", "title": "What the debugger tells the other side is complete, and it stops at the modules asked for", "statement": "The output of a monitor command arrives in full and in order, from the offset asked for; the parts of the register description put together are the description; the program stops at a module exactly if a break on it (up to case and the suffix .efi) or on all modules was asked for since they were last cleared; modules are listed in the order they were loaded; a command goes to the first function registered for it.", "quantifier": "every sequence of writes and offsets, every sequence of parts, every history of loads, breaks and clears", "why_tests_cant": "the output is cut at a buffer boundary that depends on all the writes before; names and histories are unbounded", "anchors": ["core/patina_debugger/src/dbg_target/monitor.rs: MonitorBuffer, handle_monitor_cmd", "core/patina_debugger/src/dbg_target.rs: target_description_xml", "core/patina_debugger/src/system.rs: Modules, MonitorCommands"]}
{"id": "C101", "title": "A program that was stopped goes on as the other side left it", "statement": "The other side sees the state of the program at the instruction it stopped at, and the program goes on with exactly the registers and memory the other side left, after its own breakpoint instruction; a step stops after one instruction and leaves no trace; faults of the debugger's own test accesses are not shown; bytes of the connection are neither lost nor reordered; logging is as before.", "quantifier": "every exception, state, change by the other side and number of errors of the protocol, every mixture of reading and looking ahead", "why_tests_cant": "the code runs between two instructions of an arbitrary program; what goes wrong shows only after it was resumed", "anchors": ["core/patina_debugger/src/debugger.rs: handle_interrupt, enter_debugger, poll_debugger", "core/patina_debugger/src/arch/x64.rs: process_entry, process_exit, set_single_step", "core/patina_debugger/src/arch/aarch64.rs: process_entry, process_exit, set_single_step", "core/patina_debugger/src/transport.rs: SerialConnection, LoggingSuspender"]}
{"id": "C102", "title": "Device paths of the SDK keep their instances and nodes", "statement": "For every device path that is well formed (one or more instances of nodes): building it from its nodes gives exactly its encoding in the UEFI format; iterating over it gives its nodes in order with the ends; counting nodes, telling whether there is more than one instance, taking the last n nodes, comparing two paths, and testing for a prefix give what the instances and nodes say; the instances of a path are its instances, each as a path; appending a path continues the last instance, and appending instances adds them; and a path is found in full at an address whatever bytes follow it.", "quantifier": "all paths with any number of instances, of nodes in them and any data in the nodes, all pairs of paths, every memory that holds one, debug and release builds", "why_tests_cant": "tests build three or four literal paths; the claim is for all numbers of instances and nodes, all node data and any bytes behind the path, and equality by bytes being equality of nodes needs that the encoding is injective", "anchors": ["sdk/patina/src/uefi_protocol/device_path.rs DevicePathBuf, DevicePath, DevicePathIterator, DevicePathInstanceIterator", "sdk/patina/src/uefi_protocol/device_path/device_path_node.rs UnknownDevicePathNode"]}
{"id": "C103", "title": "Device path nodes are written and read as the UEFI specification says", "statement": "Each kind of node with fields (PCI, PCCARD, memory mapped, controller, BMC, ACPI, BIOS boot) is read with its fields from the node of the UEFI specification, and written as that node; writing and reading give the fields back.", "quantifier": "all values of the fields of all seven kinds of nodes, any following bytes, debug and release builds", "why_tests_cant": "tests write one literal of some kinds and compare with what the same code reads; the layouts must be right for all values and against the tables of the specification", "anchors": ["sdk/patina/src/uefi_protocol/device_path/nodes.rs cast_to_dyn_device_path_node, Pci, MemoryMapped, Bmc, Acpi, Bios", "sdk/patina/src/uefi_protocol/device_path/device_path_node.rs device_path_node!"]}
{"id": "C104", "title": "A box of the boot services owns its memory", "statement": "Over every history of boxes being made, written, dropped, leaked, turned into raw pointers and back: each box, and each raw pointer that was got from one, has allocated memory of its own holding the value last put in; dropping a box frees its memory once; nothing else stays allocated.", "quantifier": "every history of operations on boxes, every allocator of the firmware that gives no memory twice, every value", "why_tests_cant": "needs all histories and interleavings of boxes with the firmware's reuse of addresses; the tests use mocks that do not track whether memory is allocated", "anchors": ["sdk/patina/src/boot_services/boxed.rs BootServicesBox"]}
{"id": "C105", "title": "A protocol interface has one owner", "statement": "Over every history of installing, uninstalling and reinstalling interfaces with any failures of the firmware, each interface object is with the driver, or installed, or dropped exactly once, so an installed interface is never freed under the firmware; failing calls give the object back or drop it; typed lookups give a reference only if the interface and the type agree.", "quantifier": "every history, every pattern of firmware errors, all handles and objects", "why_tests_cant": "ownership is given up and rebuilt through raw pointers, which the compiler does not check, and tests drive single calls with mocks", "anchors": ["sdk/patina/src/boot_services.rs install_protocol_interface, uninstall_protocol_interface, reinstall_protocol_interface, handle_protocol, open_protocol, locate_protocol", "sdk/patina/src/boot_services/c_ptr.rs PtrMetadata"]}
{"id": "C106", "title": "Wrappers that return buffers return what the firmware has", "statement": "get_memory_map returns the descriptors, key and version of the firmware's memory map for every map and any growth of it while the buffer is allocated, or an error with the size that is needed; locate_handle returns the handles that match; errors leave nothing allocated; start_image returns the exit data of the image; connect_controller passes the drivers on.", "quantifier": "every memory map (number and size of descriptors), every growth between the calls, every list of handles, every allocator", "why_tests_cant": "the sizes and counts of the firmware range without bound, and the mock in the tests returns one fixed case", "anchors": ["sdk/patina/src/boot_services.rs StandardBootServices::get_memory_map, locate_handle, start_image, connect_controller"]}
{"id": "C107", "title": "The global allocator aligns memory and frees what it allocated", "statement": "For every size and every power of two as alignment and every address from the pool: the memory returned is aligned, lies inside of what the pool gave, is apart from the allocator's own record, and freeing it frees the address of the pool, whatever its owner wrote into it.", "quantifier": "all sizes, alignments, pool addresses and all contents", "why_tests_cant": "arithmetic over all sizes, alignments and addresses", "anchors": ["sdk/patina/src/boot_services/global_allocator.rs BootServicesGlobalAllocator::alloc, dealloc"]}
{"id": "C108", "title": "The first page table maps what is in use, and nothing writable and executable", "statement": "For every memory space, image of the core and behaviour of the page table: when paging has been set up no page is both writable and executable, executable pages lie in code sections of the core, mapped pages hold memory in use or the core; if nothing was logged, page 0 is not mapped, allocated memory is mapped execute-protected with its cache attributes, the core's code read-only and its data execute-protected, MMIO and reserved memory writable and execute-protected, and the page table agrees with the memory space.", "quantifier": "every memory space that calls can reach, every image of the core, every pattern of page table failures, debug and release builds", "why_tests_cant": "the tests set up one memory map with a mocked page table; overlaps between allocated memory, the image, its sections and MMIO range over all maps", "anchors": ["patina_dxe_core/src/gcd/spin_locked_gcd.rs SpinLockedGcd::init_paging"]}
{"id": "C109", "title": "Flushing the data cache makes memory and processor agree on the range", "statement": "After a flush of a range that writes back, a device reads in every byte of the range what the processor saw in it before; after one that invalidates, the processor reads what is in memory; and no line of the cache that shares no byte with the range is touched.", "quantifier": "all cache type registers (line sizes), starts, lengths, kinds of flush and all contents of cache and memory, debug and release builds", "why_tests_cant": "whether the last line is reached depends on the start, the length and the line size together, and the tests flush an empty range on a host without the instructions", "anchors": ["core/patina_internal_cpu/src/cpu/aarch64/cpu.rs:cache_range_operation", "core/patina_internal_cpu/src/cpu/x64/cpu.rs:flush_data_cache", "core/patina_internal_cpu/src/cpu/x64/cpu.rs:get_timer_value"]}
{"id": "C110", "title": "A line of the log tells the record it was made from", "statement": "Every record becomes a line that ends with a newline. In the JSON formats the line is a JSON object that gives back level, target, message, file and line; in the standard format it begins with the level and, except for trace, the rest is the message.", "quantifier": "all records: levels, targets, messages, files and lines", "why_tests_cant": "messages are arbitrary texts; what a quote in one does to a line is seen by a reader of the line, not by the code that writes it", "anchors": ["sdk/patina/src/log.rs:Format::write"]}
{"id": "C111", "title": "A record that is enabled is logged whole, to the port and to memory", "statement": "The first filter whose name the target begins with, or else the level of the logger, decides whether a record is logged. One that is not leaves no trace. Of one that is, the port gets exactly the bytes of the line in order, however the line is split, unless the port is turned off for its level; and the log in memory, if there is room, gets entries that make the line, with the level of the record. Entries that are in the log stay.", "quantifier": "all filters, targets, levels, lines and ways to split them, and all states of the log in memory", "why_tests_cant": "the formatter splits lines in ways that depend on the message, and the buffer in between has boundary cases for every length of the pieces", "anchors": ["sdk/patina/src/log/serial_logger.rs:Logger", "components/patina_adv_logger/src/logger.rs:AdvancedLogger", "components/patina_adv_logger/src/logger.rs:BufferedWriter", "components/patina_adv_logger/src/component.rs:adv_log_write"]}
{"id": "C112", "title": "A saved log is printed as it was written", "statement": "The parser accepts bytes only if the log they describe lies inside them. The text it writes is the messages of the entries in order; if asked for, level, phase and time are put before each entry that begins a line and nowhere else; the time is the time of the entry.", "quantifier": "all headers and bytes, all entries, frequencies, timestamps and outputs", "why_tests_cant": "the entries, their phases and where their lines end are arbitrary, as are the frequency and how much of a write the output takes", "anchors": ["components/patina_adv_logger/src/parser.rs:Parser", "components/patina_adv_logger/src/parser.rs:get_time_str", "components/patina_adv_logger/src/memory_log.rs:open_log"]}
{"id": "C113", "title": "Extracting a section gives its content, and damage is found", "statement": "A CRC32 section gives its data unchanged exactly if the checksum stored with it is the one of the data, so data that was changed within four consecutive bytes is never given out. An LZMA or Brotli section gives what the decompressor makes of its content, or an error if it makes nothing. A section is answered only by the extractor of its GUID; other sections, and kinds that were left out of the build, are unsupported. For every section the extractor returns.", "quantifier": "all sections and bytes in the flash, all decompressors, all sets of features, all heap sizes, debug and release builds", "why_tests_cant": "the content of the flash is arbitrary, damaged or hostile bytes included, and the tests read four prepared files", "anchors": ["sdk/patina_ffs_extractors/src/crc32.rs:Crc32SectionExtractor", "sdk/patina_ffs_extractors/src/brotli.rs:BrotliSectionExtractor", "sdk/patina_ffs_extractors/src/lzma.rs:LzmaSectionExtractor", "sdk/patina_ffs_extractors/src/composite.rs:CompositeSectionExtractor"]}
{"id": "C114", "title": "A driver binding is with the firmware exactly while it says so", "statement": "Over every history of making, installing, uninstalling and dropping bindings, of errors of the firmware and of calls by it: a binding says that it is installed exactly if the firmware has its interface; the interface the firmware has is alive; no driver is dropped twice or while installed; a call that fails changes nothing; the calls of the firmware reach the driver of the interface with its arguments and return its answer.", "quantifier": "every history of any number of bindings, every driver, all errors of the firmware and all addresses the allocator may use again", "why_tests_cant": "the object is owned by a box, then by the firmware, then by a box again, through raw pointers the compiler does not check; tests drive single calls with mocks", "anchors": ["sdk/patina/src/driver_binding.rs:UefiDriverBinding"]}
{"id": "C115", "title": "A software MMI reaches its handler with the command and the data", "statement": "Triggering a software MMI with the ports of the chipset enters the handler exactly once, and it finds the command and the data that were given; over any sequence of triggers the handlers run in order. A message sent over the communicate buffer is answered by what the handler left. The service is there exactly if the initialisation by the platform did not fail.", "quantifier": "all commands, data, port configurations, chipsets, handlers and states of the ports, all sequences of triggers", "why_tests_cant": "the tests run on a host where the port writes are compiled out; what the handler finds depends on the order of the writes and on what the ports held before", "anchors": ["components/patina_mm/src/component/sw_mmi_manager.rs:SwMmiManager", "components/patina_mm/src/component/communicator.rs:MmCommunicator::communicate"]}
{"id": "C116", "title": "Compatibility mode opens the legacy memory, and only that", "statement": "Compatibility mode is entered only for an application that is not NX compatible, in a core that allows it; where it is not allowed the application is not loaded. Entering it ends. After it every page of system memory below 0xA0000, page 0 and the image can be read, written and executed; no page at or above 0xA0000 other than the image is mapped differently; memory that is not system memory is not mapped; nothing about the memory but attributes changes, and the page table agrees with the memory space. Memory allocated from then on can be executed.", "quantifier": "all memory spaces and page tables, all faults of the page table, all images, any number of applications", "why_tests_cant": "the map of the memory below 0xA0000 is made by the platform; the loop uses lengths of descriptors that its own calls merge and split, and the tests use a single descriptor", "anchors": ["patina_dxe_core/src/gcd/spin_locked_gcd.rs:SpinLockedGcd::activate_compatibility_mode", "patina_dxe_core/src/image.rs:activate_compatibility_mode"]}
{"id": "C117", "title": "HOBs and memory ranges survive being written as JSON and merged", "statement": "A number written as a hexadecimal string is read back as itself by every type wide enough for it and refused by the others. Only strings of `0x` and hexadecimal digits are numbers. A GUID is written in the form 8-4-4-4-12 and read back as itself. The JSON of a HOB is read back as what was written, and two HOBs with the same JSON agree in all fields that it shows. Merging descriptors gives intervals that cover exactly the same addresses, lowest first, with gaps between them, as few as possible, each described like the descriptor at its start; merging never panics.", "quantifier": "all numbers, strings, GUIDs and HOBs; all lists of descriptors in any order", "why_tests_cant": "the tests write and read a few values and merge a few intervals; rounding, leading zeros, overflow at the end of the address space and the order of equal or nested intervals need all of them", "anchors": ["sdk/patina_pi/src/serializable.rs:format_guid, Interval", "sdk/patina_pi/src/serializable/hex_format.rs:serialize, deserialize", "sdk/patina_pi/src/serializable/serializable_hob.rs:HobSerDe, MemAllocDescriptorSerDe, ResourceDescriptorSerDe"]}
{"id": "C118", "title": "Every measurement function records what it was called for", "statement": "Each of the measurement functions that modules call makes exactly one measurement when it is enabled and none otherwise: image starts, image loads and the three driver binding functions are enabled by bits 0 to 4 of the mask, the others always. The measurement has the id of the function, the module that the handle or the caller's GUID names, the controller, the string, the event's GUID and the time. After any sequence of calls on a new table, publishing it puts a table in memory that holds exactly the records of the enabled calls, in order, and reading it gives them. The functions that mark a start or an end measure once, with the token if there is one and else the module's name. Measuring a string costs no memory after the call.", "quantifier": "all sequences of calls of the 25 functions, with any arguments, masks, times and answers of the boot services", "why_tests_cant": "the tests call each function once with a mock; the mix of functions, masks and strings, the counter of loaded images and what the table holds in the end need all sequences", "anchors": ["sdk/patina/src/performance/logging.rs:perf_image_start_begin, perf_load_image_begin, perf_function_begin, perf_start, perf_end_ex, log_perf_measurement", "sdk/patina/src/performance/globals.rs:set_perf_measurement_mask", "sdk/patina/src/performance/measurement.rs:create_performance_measurement, Measurement"]}
{"id": "C119", "title": "The static state of performance measurement is initialized once and everybody sees the same", "statement": "However calls that initialize and calls that get the static state interleave: at most one initialization succeeds; whoever gets the state gets the boot services of an initialization call and a table that uses these, and everybody gets the same. After a successful initialization every call gets the state. A further attempt to initialize fails and changes nothing. No call reads a cell while another writes it.", "quantifier": "all numbers of threads, all calls, all interleavings of their accesses to the flag and the cells", "why_tests_cant": "the test makes four calls in a row; interleavings and what happens after the failed second initialization are not tried", "anchors": ["sdk/patina/src/performance/globals.rs:StaticState::init, StaticState::inner, set_static_state, get_static_state"]}
{"id": "C120", "title": "The records of the management mode are fetched whole over the shared region", "statement": "A request to the management mode is the GUID of the performance handler, the length of its message and the message, and asks for the size of the records or for at most 1024 bytes from an offset. If the management mode serves the records in any pieces of at least one byte, all of them are fetched, in order, and added to the table behind those it has. If it refuses, or there is no protocol, the table stays. Fetching ends, without a panic, whatever the region and the answers.", "quantifier": "all management modes with any state, all record buffers, all splits into pieces, all regions and contents of the shared memory", "why_tests_cant": "the tests mock one answer for the size and one for the data; pieces of other sizes, offsets and regions that are too small need all of them", "anchors": ["sdk/patina/src/performance/_smm.rs:CommunicateProtocol::communicate, MmCommRegion, SmmGetRecordSize, SmmGetRecordDataByOffset", "sdk/patina/src/performance/measurement.rs:fetch_and_add_mm_performance_records"]}
{"id": "C121", "title": "The operating system finds the records of the whole boot", "statement": "When performance measurement is enabled and the boot services work, the component registers its two events, the protocol and the property. After ready to boot the table that the operating system finds in the configuration table holds the records from before DXE, then those of every enabled call since the component, before and after the end of DXE, in order, then those of the management mode, if what came after the end of DXE fits in the 64 KiB set aside. Disabled, the component does nothing. When a boot service refuses, the error is returned and what was registered is a beginning of what should be. If the component succeeds, the table will be published.", "quantifier": "all HOBs, all sequences of calls before and after the end of DXE, all management modes, all answers of the boot services", "why_tests_cant": "the tests call the entry point with mocks that always succeed and never run the events after it; what the table holds in the end depends on the whole history", "anchors": ["components/patina_performance/src/component/performance.rs:Performance::entry_point, Performance::_entry_point", "sdk/patina/src/performance/measurement.rs:report_fbpt_record_buffer, fetch_and_add_mm_performance_records, create_performance_measurement"]}
{"id": "C122", "title": "The HII package list of an image is found and installed unchanged", "statement": "When an image has a resource section with an entry named HII in its root directory, that entry is followed through its directories to the data, and the package list installed for the image is exactly the bytes of the loaded image that the data entry names. An image without a resource section has none. Whatever is found is named by a data entry inside a resource section of the image, whose name is HII. No image, however malformed, makes the core panic or install anything else.", "quantifier": "all images, all section tables, all contents of resource sections, in checked and unchecked builds", "why_tests_cant": "the tests load one well-formed image with one resource; the format allows any number of entries in any order, and an attacker chooses the bytes", "anchors": ["patina_dxe_core/src/pecoff.rs:load_resource_section", "patina_dxe_core/src/pecoff/resource_directory.rs:Directory, DirectoryEntry", "patina_dxe_core/src/image.rs:core_load_pe_image"]}
{"id": "C123", "title": "An image that is unloaded leaves nothing in the protocol database", "statement": "Loading an image gives it a new handle with the loaded image protocol, its device path and, if it has one, its HII package list, and changes no other handle. Unloading it first closes everything the image has open, on any handle, for any controller, and nothing that others have open; then its protocols are uninstalled, so that its handle is gone and every other handle is as it was before.", "quantifier": "all protocol databases that a history of calls leads to, all images, with and without device path and package list, all behaviours of drivers and event functions that do not install interfaces themselves", "why_tests_cant": "the tests unload one image without a device path and look at one table; whether anything is left depends on all that was opened and installed before", "anchors": ["patina_dxe_core/src/image.rs:core_load_image, core_unload_image", "patina_dxe_core/src/protocols.rs:core_uninstall_protocol_interface", "patina_dxe_core/src/protocol_db.rs:remove_protocol_usage"]}
{"id": "C124", "title": "A status code survives the conversion to a Rust error and back", "statement": "Every status code that a UEFI function returns is turned into success exactly if it is the success code, and otherwise into an error which is turned back into the same code; every error is turned back into itself, and no two errors into one code. Named errors have the error bit set.", "quantifier": "all 64-bit status codes, all errors, the unknown ones with any code", "why_tests_cant": "the tests convert a few codes; one swapped pair of codes among thirty-three, in one of the two directions, would be seen only by the caller that decides on it", "anchors": ["sdk/patina/src/error.rs:EfiError, status_to_result, From<EfiError> for efi::Status, From<efi::Status> for EfiError"]}
{"id": "C125", "title": "The image that is loaded is the file that was named, and the one that was asked about", "statement": "An image loaded by path has the bytes of the file the path names: of the first of firmware volume, file system, load file 2 (not for the boot manager) and load file protocol that gives one, in that order. Those bytes, unchanged, are given to the security protocols, with the caller's path and policy, before they are given to the loader; the status says whether all that were asked accepted them. The path kept with the image is what follows its device's.", "quantifier": "all paths, all bytes, all drivers with any state and any answers (for the content: file systems that do what the specification says), all trees of files, all sets of security protocols", "why_tests_cant": "the tests load one file from one mock driver; what is authenticated and what is loaded agree or not for every answer of drivers that are written by others", "anchors": ["patina_dxe_core/src/image.rs:get_buffer_by_file_path, get_file_buffer_from_fw, get_file_buffer_from_sfs, get_file_buffer_from_load_protocol, authenticate_image, core_load_image, load_image", "patina_dxe_core/src/filesystems.rs:SimpleFile"]}
{"id": "C126", "title": "The test runner succeeds exactly if every selected test came out as expected", "statement": "The tests that are not to be skipped and have one of the filters in their name, if there are filters, are run, each once and in the order of the list, and no others. A run is good if the test passed, or failed when it was to fail, with the expected message if one is given; a test whose parameters are not there is not run and is never good. The component fails, with ABORTED, exactly if a run was not good; with fail-fast no test is run after it. Without debug mode the log is off while a test runs and then has its level again.", "quantifier": "all lists of tests, all functions of the storage, all filters and options", "why_tests_cant": "the tests of the runner use two cases with fixed options; the order, the filters and the decision for all combinations of expectation, result and message are not covered", "anchors": ["sdk/patina/src/test.rs:TestRunner::entry_point", "sdk/patina/src/test/__private_api.rs:TestCase::should_run, TestCase::run, FunctionTest::run"]}
{"id": "C127", "title": "What is written to the serial port goes out in order, complete and without loss, and a read gives the oldest byte received", "statement": "Every byte given to write is put in the data register once, in order, and nothing is read from it; a byte is put there only after the flags said that there is room, and write returns only after the flags said that the port is idle. With the device of the manual, the bytes on the line are then exactly those written, after the ones that were waiting, and none is lost; if the device sends now and then, write returns. try_read takes a byte exactly if the flags say that one is there and gives that byte; read waits for one and gives the oldest. The null port accepts everything, never has a byte and panics on a blocking read.", "quantifier": "all devices (an arbitrary state machine behind the registers), all schedules of a device with queues, all bytes", "why_tests_cant": "the driver has no unit tests, since it reads and writes registers; the order and the waiting depend on the schedule of the device", "anchors": ["sdk/patina/src/serial/uart.rs:UartPl011, UartNull"]}
{"id": "C128", "title": "The core unpacks compressed sections and passes on those it does not know", "statement": "A GUID-defined section of the Tiano type and a compressed section of the standard type give exactly what the decompressor makes of their content; a compressed section of type 'not compressed' gives its content as it is. Any other section goes to the additional extractor, if there is one, and is refused as unsupported if not; one that the core knows never goes there, also if it is damaged. Content that is too short for its header or for the size in it is refused as damaged. What is unpacked has the size in the header. The decompress protocol reports the size in the header of the source and reads no more than the header, and only if the source has one.", "quantifier": "all sections, all decompressors, all additional extractors, all sources", "why_tests_cant": "the tests unpack one fixed file; damaged and unknown sections and the passing on quantify over all sections and extractors", "anchors": ["patina_dxe_core/src/decompress.rs:CoreExtractor::extract", "sdk/patina/src/uefi_protocol/decompress.rs:DecompressProtocol"]}
{"id": "C129", "title": "A status code arrives with the type, the value and the data given", "statement": "Reporting a status code makes one call of the protocol, with the type, value, instance and caller given; its data has a header of 20 bytes with the type of the data and its size, and the data follows it unchanged. Reporting without data passes a null pointer. The answer is a success exactly if the firmware's is, and otherwise its error.", "quantifier": "all types, values, instances, identifiers and data of fewer than 65536 bytes", "why_tests_cant": "the tests use one value of a fixed type", "anchors": ["sdk/patina/src/uefi_protocol/status_code.rs:StatusCodeRuntimeProtocol", "sdk/patina_pi/src/protocols/status_code.rs"]}
{"id": "C130", "title": "While a TPL guard is held, nothing at or below its level interrupts, and dropping it restores the level", "statement": "A task raises the TPL through guards, nested by scopes, and calls boot services in between. When it is done, the TPL is what it was before. Meanwhile only notify functions above the level it started with have been called, and while a guard at a level is held only those above that level, each at its own level, if no notify function lowers the TPL itself. If notify functions leave the TPL alone and every guard is at or above the current level, no guard panics. A guard below the current level, or above 31, panics when it is made.", "quantifier": "all programs of nested guards and boot service calls, all notify functions, all schedules of interrupts", "why_tests_cant": "which notify functions are called depends on the interrupts and on what the notify functions do; the tests mock the boot services and look at the two calls", "anchors": ["sdk/patina/src/boot_services.rs:raise_tpl_guarded", "sdk/patina/src/boot_services/tpl.rs:TplGuard", "patina_dxe_core/src/events.rs:raise_tpl, restore_tpl"]}
{"id": "C131", "title": "Mapping memory on x64 sets the access and the cache attributes asked for, and a query gives them", "statement": "A successful mapping has asked the page table once, for exactly the range and the access attributes given, and after it all of the range has the cache type asked for and nothing outside has changed. A query of the range then gives the attributes that were asked for. Unknown attributes, more than one cache attribute, and any where the processor has no MTRRs are refused with nothing changed; without a cache attribute the cache types are left alone.", "quantifier": "all page tables and MTRRs that do what their calls say, all ranges, attributes and states", "why_tests_cant": "the tests mock both crates and check the calls for single attributes; which addresses keep their type depends on the types before", "anchors": ["core/patina_internal_cpu/src/paging/x64.rs:EfiCpuPagingX64, apply_caching_attributes"]}
{"id": "C132", "title": "Memory types survive their conversion, and the address helpers round", "statement": "Exactly the values 0 to 15 and those from 0x70000000 are memory types; converting one of them and back gives it again, and so does converting a memory type to its value and back; different types have different values. align_down gives the greatest multiple of the alignment not above the address, align_up the least one not below; both panic if the alignment is no power of two, and align_up if the multiple does not fit in 64 bits.", "quantifier": "all 32-bit values, all memory types, all 64-bit addresses and alignments", "why_tests_cant": "the conversions have no tests, and the helpers are tested on some addresses", "anchors": ["sdk/patina/src/efi_types.rs:EfiMemoryType", "sdk/patina_pi/src/address_helper.rs:align_down, align_up"]}
{"id": "C133", "title": "The buckets of memory that the platform asks for are reserved for their memory types", "statement": "The first memory type information HOB is a list of memory types with a number of pages. After the memory services are set up, every range that is reserved is one that an entry asked for: of a permitted type, as many pages as asked for rounded up to the granularity of the type, aligned to it, kept for that type in the GCD; ranges of different types have no address in common. The first entry of a type counts: if the GCD finds its pages when it is its turn, the range is reserved, and is still so at the end. Further entries of the type, entries without pages and of types the specification keeps to itself do nothing. What was given out before still is, and nothing is written.", "quantifier": "all HOB lists and entries, all states of the GCD and the allocators that can come about, both build profiles", "why_tests_cant": "the test has one HOB with one list and an empty memory; which ranges are reserved depends on the memory map and on the entries before", "anchors": ["patina_dxe_core/src/allocator.rs:init_memory_support", "patina_dxe_core/src/allocator/uefi_allocator.rs:reserve_memory_pages"]}
{"id": "C134", "title": "The DXE services for the memory and the I/O space write through their pointers exactly what they have done", "statement": "AllocateMemorySpace and AllocateIoSpace: on success the address left at BaseAddress starts a range that is aligned, is the one or within the limit that the kind of the request and the value at BaseAddress ask for (bottom up the lowest, top down the highest), was free and of the type asked for and now belongs to the caller, and no other address changes; otherwise the value at BaseAddress and the space are as before. The descriptor reported for an address of the space is the entry of the map that holds it. The maps have no gap and no overlap and cover the space; the memory map is the one of the moment after the first buffer was taken. Null pointers are refused and nothing is written.", "quantifier": "all histories of calls, all arguments of 64 bits, all growth of the heap while a map is collected", "why_tests_cant": "the answers depend on the history of the space and on what the heap takes from it between the steps of a call", "anchors": ["patina_dxe_core/src/dxe_services.rs:allocate_memory_space", "patina_dxe_core/src/dxe_services.rs:get_memory_space_map", "patina_dxe_core/src/dxe_services.rs:get_memory_space_descriptor", "patina_dxe_core/src/dxe_services.rs:allocate_io_space", "patina_dxe_core/src/dxe_services.rs:get_io_space_descriptor", "patina_dxe_core/src/dxe_services.rs:get_io_space_map"]}
{"id": "C135", "title": "The report of a page fault says what the error code of the processor says", "statement": "For every error code, the lines that the x64 page fault handler logs are the ones that are true: page not present or protection violation, read or write, supervisor or user, reserved bit violation if and only if that bit is set, instruction fetch if and only if that bit is set. The attributes shown are those of the page that holds the address of the fault.", "quantifier": "all error codes and all addresses of 64 bits", "why_tests_cant": "the handlers end in a panic and no test looks at their output; there are 32 combinations of the bits and any number of reserved ones", "anchors": ["core/patina_internal_cpu/src/interrupts/x64/interrupt_manager.rs:interpret_page_fault_exception_data", "core/patina_internal_cpu/src/interrupts/x64/interrupt_manager.rs:interpret_gp_fault_exception_data", "core/patina_internal_cpu/src/interrupts/x64/interrupt_manager.rs:get_fault_attributes"]}
{"id": "C136", "title": "At ExitBootServices the runtime drivers lose their memory protection and nothing else changes", "statement": "When the group ExitBootServices is signalled, every page of every loaded runtime driver becomes mapped, writable and executable, with the cache attributes its first page had, in the memory space and in the page table, so that the operating system can relocate it. No address and no page outside the runtime drivers changes, whatever the page table does. Other images do not matter.", "quantifier": "all lists of loaded images, all memory spaces and page tables, debug and release builds, all failures of the page table for the second part", "why_tests_cant": "one run shows one set of images; the sections of images are split over many descriptors with different attributes and the claim is about all of them and about everything else", "anchors": ["patina_dxe_core/src/image.rs:runtime_image_protection_fixup_ebs", "patina_dxe_core/src/image.rs:init_image_support"]}
{"id": "C137", "title": "A volume handed to the core is installed only if it lies inside the memory given", "statement": "The DXE service that processes a firmware volume succeeds only if the memory given begins with a volume that fits into it. Then exactly one new handle is written where the caller asked, it stands for that volume, whose bytes all lie inside the memory given, and everything installed before is still there. With a null pointer, or if the memory is too small or damaged, nothing changes, no handle is written and the status says why.", "quantifier": "all addresses, sizes, contents of memory, states of the protocol database, debug and release builds", "why_tests_cant": "the check is made on the size given and the installation reads the size from the header: that these agree must hold for every header", "anchors": ["patina_dxe_core/src/dxe_services.rs:process_firmware_volume", "patina_dxe_core/src/fv.rs:core_install_firmware_volume", "sdk/patina_ffs/src/volume.rs:VolumeRef::new"]}
{"id": "C138", "title": "The debugger keeps its connection over stops and loses no byte of it", "statement": "When the program stops and a connection from an earlier stop exists, the debugger goes on with it: every byte that comes in and is not zero is given to the decoder once and in order, and nothing is sent but the decoder's answers. If there is none, stale input is dropped, the other side is told of the stop, and a new connection is started. The program goes on only when the other side resumed it, and exactly then the connection is kept. After an error of the decoder the other side is told of the stop again, once for each error, until the program is resumed. The debugger gives up only if the decoder cannot be started or a reboot asked for does not happen.", "quantifier": "all decoders, all input, all numbers of errors and stops", "why_tests_cant": "the order of bytes, errors and restarts is unbounded, and the decoder is another crate", "anchors": ["core/patina_debugger/src/debugger.rs:enter_debugger", "core/patina_debugger/src/debugger.rs:handle_interrupt"]}
{"id": "C139", "title": "A log left by an earlier phase is taken over unharmed, and every message is stored or counted", "statement": "The logger takes over the log named by the first HOB for one, if its header is valid; its contents stay and nothing else in memory changes but the rate of its clock. A message changes no byte outside of the region the header gives to messages and the two counters, whatever the header says. Every message is stored whole behind the earlier ones, or refused and counted as discarded. A second log is never taken. The protocol is offered only with the address of an adopted log.", "quantifier": "all HOB lists, header contents, messages, debug and release builds", "why_tests_cant": "the header was written by other code, so every combination of its fields must be met", "anchors": ["components/patina_adv_logger/src/component.rs:init_advanced_logger", "components/patina_adv_logger/src/logger.rs:set_log_info_address", "components/patina_adv_logger/src/memory_log.rs:adopt_memory_log", "components/patina_adv_logger/src/memory_log.rs:add_log_entry"]}
{"id": "C140", "title": "The core works with the metronome, the watchdog and the timer that are installed", "statement": "Before such a driver has installed its protocol, the service that needs it is refused. From then on, as soon as the task priority allows, the service works with a driver that is installed. The core never panics over drivers that come or go, and never calls a driver that has removed its protocol.", "quantifier": "all histories of installing, uninstalling, reinstalling and changing the task priority, any order in which interfaces are found", "why_tests_cant": "the callback runs at some later point of the history, so what is installed then may differ from what was signalled", "anchors": ["patina_dxe_core/src/misc_boot_services.rs:metronome_arch_available", "patina_dxe_core/src/misc_boot_services.rs:watchdog_arch_available", "patina_dxe_core/src/events.rs:timer_available_callback"]}
{"id": "C141", "title": "An image file is accepted exactly if the headers say it can be loaded here", "statement": "A file handed to LoadImage goes on to be loaded exactly if it is a PE file with an optional header, is an application, boot driver or runtime driver for this processor, and has a section alignment of whole pages that divides its image size, or is a TE file of that kind; its memory types are those of its kind. Every other file is refused with Unsupported or LoadError, and no file makes the firmware panic. The name shown for an image is the base name of its debug file with .efi in place of .pdb or .dll: no path separator, no zero byte.", "quantifier": "every parsed header (any values in any field, any list of sections), every byte string as debug name, release and debug build", "why_tests_cant": "The headers come from outside and every combination of subsystem, alignment, size, machine and section list is possible; tests use four or five well-formed files.", "anchors": ["patina_dxe_core/src/pecoff.rs: UefiPeInfo::parse, from_te, from_pe, read_filename", "patina_dxe_core/src/image.rs: core_load_pe_image"]}
{"id": "C142", "title": "A loaded image lies in its own pages, and a failed load keeps none", "statement": "After a successful load the image lies inside the pages allocated for it, aligned to its section alignment, its resource section lies inside its own pages, and no other pages stay allocated. Its contents are those of the file loaded and relocated to that address, and its entry point lies inside it. After a failed load none of the pages allocated for the attempt stay allocated.", "quantifier": "every file, every answer of the page allocator to both requests, every point of failure, with and without compatibility mode", "why_tests_cant": "Leaks on failure paths depend on which of eight steps fails and on what the allocator answers; a test would have to combine malformed headers with every allocator answer and count pages.", "anchors": ["patina_dxe_core/src/image.rs: core_load_pe_image, PrivateImageData::new, PrivateImageData::allocate_resource_section, Drop for PrivateImageData"]}
{"id": "C143", "title": "Performance measurement is configured by the platform's HOB, whatever the order of the components", "statement": "If the platform passes a performance configuration HOB and adds the configuration provider, every performance component is entered exactly once, with the flag of the first such HOB and, if the flag is set, with its mask; otherwise with the configuration given statically, or disabled if there is none. This does not depend on the order in which the components and the configuration are given. A HOB with the flag clear makes the component do nothing. A malformed HOB is ignored.", "quantifier": "every sequence of building calls (configurations and components in any number and order), every list of guided HOBs with any bytes", "why_tests_cant": "Which value a component sees depends on the interplay of locking, HOB availability and the order of building calls over several dispatch passes; tests call the entry point directly with one mocked HOB.", "anchors": ["components/patina_performance/src/component/performance_config_provider.rs: PerformanceConfigurationProvider::entry_point", "sdk/patina_macro/src/hob_macro.rs: hob_config2", "patina_dxe_core/src/lib.rs: with_config, with_component, parse_hobs, core_dispatcher, start", "sdk/patina/src/component/params.rs: Config, ConfigMut"]}
{"id": "C144", "title": "At the end of the DXE phase BDS is entered once, after the handoff has been reported, and what is missing is named", "statement": "When dispatching has finished, the core names exactly the architectural protocols that no handle carries. Then, if a status code protocol is there, it reports the handoff progress code (type 1, value 0x03041001) once, and if a BDS protocol is there after that, it enters it exactly once, through the interface of the lowest handle that carries it. The missing status code protocol does not keep BDS from being entered. When BDS returns, the dispatcher runs again.", "quantifier": "every state of the protocol database that a history of installs, uninstalls, opens and closes can reach, every effect of the status code driver on it, and every behaviour of BDS", "why_tests_cant": "The outcome depends on the whole history of the protocol database and on what the status code driver does to it between the report and the lookup; the functions end the boot and are not tested at all.", "anchors": ["patina_dxe_core/src/lib.rs: Core::start, core_display_missing_arch_protocols, call_bds, ARCH_PROTOCOLS", "sdk/patina_pi/src/protocols/bds.rs: PROTOCOL_GUID", "sdk/patina_pi/src/protocols/status_code.rs: PROTOCOL_GUID"]}
{"id": "C145", "title": "In compatibility mode the core's memory attribute protocol cannot be found any more", "statement": "At start the core installs the memory attribute protocol on a new handle of its own, and changes nothing else. Whatever drivers do to the protocol database after that, once compatibility mode has been entered the core's interface is gone: no handle carries it, and locating the protocol says NOT_FOUND unless another driver provides one. Nothing else in the database changes.", "quantifier": "every history of calls that change the protocol database before the installation and between it and the entering of compatibility mode", "why_tests_cant": "Whether the removal succeeds depends on every open and close recorded since start; tests do not enter compatibility mode after a history of protocol calls.", "anchors": ["patina_dxe_core/src/memory_attributes_protocol.rs: install_memory_attributes_protocol, uninstall_memory_attributes_protocol", "patina_dxe_core/src/gcd.rs: activate_compatibility_mode", "patina_dxe_core/src/protocol_db.rs: uninstall_protocol_interface"]}
{"id": "C146", "title": "What the page table is built from names exactly the allocated memory, and the MMIO and reserved memory that is not allocated", "statement": "The listing of allocated memory contains an address exactly if GetMemorySpaceDescriptor calls it allocated; the listing of memory-mapped I/O and reserved memory contains an address exactly if it is of one of these types and not allocated. Every descriptor listed has the attributes, capabilities, owner and type that GetMemorySpaceDescriptor gives for each of its addresses. No descriptor is in both.", "quantifier": "every memory space that a history of adds, removes, allocations, frees and attribute changes can reach, and every address in it", "why_tests_cant": "A page left out of the listings is not mapped and faults on first use, whatever history led to it; tests look at a few fixed descriptors.", "anchors": ["patina_dxe_core/src/gcd/spin_locked_gcd.rs: get_allocated_memory_descriptors, get_mmio_and_reserved_descriptors, init_paging", "patina_dxe_core/src/dxe_services.rs: get_memory_space_descriptor"]}
{"id": "C147", "title": "The core and the memory allocators are known by fixed handles nobody else is given, and the core's image is found on its own", "statement": "Initialising the protocol database makes exactly the handles 1 to 10, each with one protocol, whatever the handle hasher does; no handle made later is one of them while they exist. Registering the core makes its loaded image protocol available on handle 1, with the base, length and entry point of the first module of the core's name in the hand-off list and pages that hold it, and changes no other protocol of any handle. With no such module that holds an image the boot stops.", "quantifier": "every handle hasher, every hand-off list and every state of the protocol database in which the core's handle has no image yet", "why_tests_cant": "The handles are compiled into the allocators, so a single colliding hash would hand a driver the identity of an allocator; tests use one hasher and one list.", "anchors": ["patina_dxe_core/src/protocol_db.rs: init_protocol_db, install_protocol_interface", "patina_dxe_core/src/image.rs: install_dxe_core_image, new_with_existing_allocation"]}
