{"id": "C01", "title": "Message log always shows the newest messages, in order", "statement": "After any history of log messages pushed by libpulp inside a process, what `ulp messages` prints for that process is, apart from NUL separators, exactly the concatenation of the k most recent messages in the order they were pushed, and k >= 1 as soon as one loggable message was pushed. No message is ever shown torn, reordered, duplicated or merged with a stale one.", "quantifier": "every finite sequence of messages of every length (each non-empty, NUL-free, shorter than the ring), every ring size", "why_tests_cant": "The behaviour depends on where each message falls relative to the wrap-around point after an arbitrary history; the number of distinct (top,bottom,distance,contents) configurations is unbounded.", "anchors": ["lib/msg_queue.c:msgq_strpush", "lib/msg_queue.c:msgq_vpush", "tools/messages.c:msgq_print", "include/msg_queue.h"]}
{"id": "C02", "title": "Logging never leaves the ring and always returns", "statement": "Logging a message never reads or writes a byte outside the ring buffer and always returns, whatever was logged before.", "quantifier": "every history of pushes, every message length 0..ring size and beyond", "why_tests_cant": "An out-of-bounds access or a loop that fails to stop needs one particular wrap-around configuration; the configurations are unbounded and a hanging test proves nothing about the others.", "anchors": ["lib/msg_queue.c:msgq_strpush", "include/msg_queue.h:MSGQ_BUFFER_MAX"]}
{"id": "C03", "title": "No message is dropped while there is room", "statement": "As long as the total size of everything ever logged (including terminating NULs) is smaller than the ring, `ulp messages` shows every message.", "quantifier": "every sequence of messages whose sizes sum to less than the ring size", "why_tests_cant": "Needs all sequences of sizes, not a sample.", "anchors": ["lib/msg_queue.c:msgq_strpush"]}
{"id": "C04", "title": "What libpulp queues is what the tool executes", "statement": "For every sequence of memory writes and prints that libpulp accepted into its instruction queue, the `ulp` tool reading that queue performs exactly those writes and prints, in the same order, once each, byte for byte, and reports success when all of the writes succeed.", "quantifier": "every sequence of write (address, length, bytes) and print (string) requests, including ones that alternate alignments", "why_tests_cant": "Encoder and decoder run in two different processes and agree only through a byte layout; agreement must hold for every length/alignment combination.", "anchors": ["lib/insn_queue.c:insnq_insert_write", "lib/insn_queue.c:insnq_insert_print", "lib/insn_queue.c:insnq_get_writable_area", "common/insn_queue.c:insnq_interpret", "tools/insn_queue.c:insn_interpret_write"]}
{"id": "C05", "title": "Queueing never overruns the queue; a refused request changes nothing but is recorded", "statement": "A request that does not fit is refused: no byte of the already queued instructions changes, nothing is written beyond the queue, and livepatching in that process is disabled with EINSNQ. A request that fits keeps all earlier instructions intact.", "quantifier": "every queue content reachable by any sequence of requests, every request size", "why_tests_cant": "Overflow needs a boundary-exact fill level; the invariant must hold for every prefix history.", "anchors": ["lib/insn_queue.c:insnq_get_writable_area", "include/insn_queue.h:INSN_BUFFER_MAX"]}
{"id": "C06", "title": "A tool crash never lets a half-executed batch be silently mixed with a new one", "statement": "If the `ulp` tool dies at any point between reading a process's instruction queue and having cleared it, then any later apply or revert request in that process is either served with an empty queue or refused with EINSNQ; queued instructions of the aborted request are never executed together with those of a later request.", "quantifier": "every crash point of the tool (before, between and after each individual memory write, and between the two queue-reset writes), every queue content", "why_tests_cant": "Crash points are between individual remote writes; tests do not enumerate them.", "anchors": ["tools/insn_queue.c:insnq_interpret_from_process", "tools/insn_queue.c:insnq_update_remote", "lib/insn_queue.c:insnq_ensure_emptiness", "lib/ulp.c:__ulp_apply_patch"]}
{"id": "C07", "title": "A failed memory write is reported", "statement": "If the tool fails to perform one of the queued memory writes, interpretation of the queue reports an error.", "quantifier": "every queue produced by libpulp and every choice of which write fails", "why_tests_cant": "Requires reasoning about what the decoder does after an error at every position and with every content.", "anchors": ["common/insn_queue.c:insnq_interpret", "tools/insn_queue.c:insn_interpret_write"]}
{"id": "C08", "title": "Queues of a newer format are never executed", "statement": "If the queue of the target process declares a format version newer than the tool understands, no memory write of that queue is executed and the tool reports EOLDULP.", "quantifier": "every queue content and every version number", "why_tests_cant": "Version and contents are arbitrary process memory.", "anchors": ["tools/insn_queue.c:insnq_get_from_remote_process", "tools/insn_queue.c:insnq_check_compatibility"]}
{"id": "C09", "title": "Remote write touches exactly the requested bytes", "statement": "Writing n bytes into a stopped process through the debugger interface changes exactly the bytes [addr, addr+n) to the given values and leaves every other byte of the process as it was; if it fails midway it reports failure and only a prefix of that range was written.", "quantifier": "every memory content, address, length (including lengths that are not a multiple of the word size) and every failure point", "why_tests_cant": "Word-granular read-modify-write at the tail is correct only if proved for every residue and every neighbouring content.", "anchors": ["tools/ptrace.c:write_bytes_ptrace"]}
{"id": "C10", "title": "Reading a remote string returns exactly the string", "statement": "Reading a NUL-terminated string from a process returns exactly the bytes up to the first NUL, for any string length and any bytes following it.", "quantifier": "every memory content, every start address, every length", "why_tests_cant": "The word-at-a-time zero-byte test uses a bit trick and the buffer grows by doubling; both must be right for all 2^64 words and all lengths.", "anchors": ["tools/ptrace.c:read_string", "tools/ptrace.c:read_string_allocated", "tools/ptrace.c:hasbytezero"]}
{"id": "C11", "title": "Bulk remote transfers complete or fail", "statement": "Bulk remote reads and writes (process_vm_readv/writev) either transfer all requested bytes to their right places or report failure, for every way the kernel may split the transfer.", "quantifier": "every sequence of transfer sizes the kernel may return", "why_tests_cant": "Short transfers are under the kernel's control and cannot be forced in a test.", "anchors": ["tools/ptrace.c:read_memory", "tools/ptrace.c:write_bytes", "tools/ptrace.c:read_long"]}
{"id": "C12", "title": "Hijacked thread's stack is not corrupted", "statement": "When a thread is made to run a libpulp routine, the stack pointer it is given is 64-byte aligned and lies at least the ABI red zone below the interrupted stack pointer and less than red zone + 64 below it.", "quantifier": "every interrupted stack pointer value not smaller than the red zone plus alignment", "why_tests_cant": "All 2^64 register values.", "anchors": ["tools/ptrace.c:run_and_redirect", "include/arch/x86_64/arch_common.h:RED_ZONE_LEN"]}
{"id": "C13", "title": "Packed metadata is what the process parses", "statement": "Every livepatch description written by `ulp packer` into a container, after the trigger tool has inserted the container path, is parsed by libpulp into exactly the same patch: same id, container path, target build id, target library, function pairs in order with the same addresses, dependencies and references in order.", "quantifier": "every patch: any number of functions, dependencies and references, any names, offsets and ids that fit the 32-bit length fields", "why_tests_cant": "Writer and reader are separate hand-written codecs in different programs; a field-order or width mismatch shows only for particular contents.", "anchors": ["tools/packer.c:create_patch_metadata_file", "tools/introspection.c:extract_ulp_from_so_to_mem", "common/common.c:parse_metadata_from_mem"]}
{"id": "C14", "title": "Revert metadata names the same patch", "statement": "The revert metadata derived from a livepatch is parsed back as a revert request for the same patch id, same build id and same target library, with no functions.", "quantifier": "every patch description", "why_tests_cant": "Same as C13, for a second, separately written codec.", "anchors": ["tools/packer.c:write_reverse_patch", "common/common.c:parse_metadata_from_mem"]}
{"id": "C15", "title": "Malformed metadata cannot corrupt the process", "statement": "Whatever bytes are placed in the metadata buffer, parsing them never writes outside the memory it allocated and never reads outside the buffer.", "quantifier": "every byte string of every length", "why_tests_cant": "Arbitrary input; the dangerous inputs are single points in a 2^(8n) space.", "anchors": ["common/common.c:read_from_mem", "common/common.c:parse_metadata_from_mem"]}
{"id": "C16", "title": "Truncated metadata is rejected", "statement": "Metadata cut short anywhere is rejected, not silently accepted with made-up values.", "quantifier": "every valid metadata block and every proper prefix of it", "why_tests_cant": "Every cut point of every metadata block.", "anchors": ["common/common.c:parse_metadata_from_mem", "common/common.c:read_from_mem"]}
{"id": "C17", "title": "gdb path and trigger path build the same metadata", "statement": "Applying a livepatch from gdb gives libpulp byte-for-byte the same metadata as applying it with `ulp trigger`, whenever it fits.", "quantifier": "every container metadata of at least 33 bytes and every container path", "why_tests_cant": "Two separately written in-place/out-of-place insertion routines must agree on all inputs.", "anchors": ["lib/gdb_interface.c:inject_lp_path", "tools/introspection.c:extract_ulp_from_so_to_mem"]}
{"id": "C18", "title": "Calls reach the newest applied patch", "statement": "After any history of successful apply and revert requests, in any order and for any set of overlapping patches, executing a patched function's entry point transfers control to the replacement supplied by the most recently applied patch that is still applied and replaces it, or to the original function if there is none.", "quantifier": "every finite history of apply, revert, revert-all, check and enable/disable requests after which libpulp has no internal error recorded, any number of patches, functions and libraries", "why_tests_cant": "Reverts may hit the bottom, middle or top of an arbitrarily deep stack of patches over overlapping function sets; the result is bytes of machine code at each entry point.", "anchors": ["lib/ulp.c:ulp_apply_all_units", "lib/ulp.c:ulp_revert_all_units", "lib/ulp.c:__ulp_manage_universes", "lib/arch/x86_64/patch.c:ulp_patch_addr", "common/insn_queue.c:insnq_interpret"]}
{"id": "C19", "title": "Reverting a patch undoes exactly that patch", "statement": "Reverting an applied patch makes every function dispatch as if that patch had never been applied and all other patches had been, wherever it sat in the stack; in particular apply followed by revert restores every function's previous behaviour.", "quantifier": "every reachable state without recorded internal error, every applied patch", "why_tests_cant": "Same as C18.", "anchors": ["lib/ulp.c:ulp_revert_patch", "lib/ulp.c:ulp_revert_all_units", "lib/ulp.c:ulp_state_remove"]}
{"id": "C20", "title": "The applied list is a set; re-applying is refused without effect", "statement": "No patch is ever listed twice as applied; `ulp check` answers yes exactly for the patches whose apply succeeded and that were not reverted since; applying an applied patch is refused with EAPPLIED and changes nothing.", "quantifier": "every history of requests", "why_tests_cant": "Needs the invariant over every history.", "anchors": ["lib/ulp.c:__ulp_check_applied_patch", "lib/ulp.c:check_patch_sanity", "lib/ulp.c:ulp_get_applied_patch", "lib/ulp.c:ulp_state_update", "lib/ulp.c:ulp_state_remove"]}
{"id": "C21", "title": "Dependencies stay satisfied", "statement": "At all times, every patch that an applied patch depends on is applied too: applying with a missing dependency and reverting a depended-on patch are refused without effect.", "quantifier": "every history of requests and every dependency graph", "why_tests_cant": "The dependency graph and history are unbounded.", "anchors": ["lib/ulp.c:check_patch_dependencies", "lib/ulp.c:ulp_can_revert_patch", "lib/ulp.c:revert_all_patches_from_lib"]}
{"id": "C22", "title": "Internal errors freeze livepatching", "statement": "Once libpulp has recorded an internal error in a process, every later apply/revert request returns that error and changes nothing: not the function entries, not the applied list, not the queue.", "quantifier": "every state with a recorded error, every later sequence of requests", "why_tests_cant": "Unbounded continuation sequences.", "anchors": ["lib/ulp.c:__ulp_apply_patch", "lib/ulp.c:__ulp_revert_patches_from_lib", "lib/error.c:set_libpulp_error_state", "lib/error.c:get_libpulp_error_state"]}
{"id": "C23", "title": "Disable/enable only toggles the user block", "statement": "Disabling livepatching makes apply and revert requests fail with EUSRBLOCKED without effect until it is enabled again; enabling restores exactly the previous condition; neither ever clears or overwrites a recorded internal error, and neither changes applied patches.", "quantifier": "every state and every interleaving of enable/disable with other requests", "why_tests_cant": "Unbounded histories.", "anchors": ["lib/ulp.c:ulp_enable_or_disable_patching", "tools/set_patchable.c:run_enable_disable_patching"]}
{"id": "C24", "title": "A busy process is left untouched", "statement": "If the process is inside the allocator or dynamic loader when a request arrives, the request returns EAGAIN and the process is unchanged, so retrying later gives the same result as if the first attempt had never been made.", "quantifier": "every state and every request", "why_tests_cant": "The busy window is a race; the state is arbitrary.", "anchors": ["lib/ulp.c:__ulp_apply_patch", "lib/ulp.c:__ulp_revert_patches_from_lib", "lib/interpose.c:__ulp_asunsafe_trylock"]}
{"id": "C25", "title": "A refused patch redirects nothing", "statement": "If applying a livepatch reports an error, no function of the process has been redirected and no data has been modified.", "quantifier": "every state, every patch, every environment failure", "why_tests_cant": "Failure may occur after any prefix of the patch's functions has been processed.", "anchors": ["lib/ulp.c:load_patch", "lib/ulp.c:ulp_apply_all_units", "tools/introspection.c:apply_patch"]}
{"id": "C26", "title": "A patch is only applied to the library build it was made for", "statement": "libpulp applies a livepatch only if the target library is loaded and its build id equals the one in the livepatch.", "quantifier": "every set of loaded libraries with arbitrary build ids and every livepatch", "why_tests_cant": "All build id combinations, including multiple libraries.", "anchors": ["lib/ulp.c:compare_build_ids", "lib/ulp.c:check_build_id"]}
{"id": "C27", "title": "The trigger tool refuses the wrong library build", "statement": "The trigger tool sends a livepatch to a process only if the process has the target library loaded with the same build id; it answers ENOTARGETLIB when the library is not loaded and EBUILDID when the build id differs.", "quantifier": "every list of loaded objects and every livepatch", "why_tests_cant": "All lists of loaded objects.", "anchors": ["tools/introspection.c:check_patch_sanity"]}
{"id": "C28", "title": "Revert-all reverts everything of that library", "statement": "A revert-all request for a library returns, reverts every applied patch of that library and touches no patch of another library.", "quantifier": "every set of applied patches, every dependency graph", "why_tests_cant": "All dependency graphs and orders.", "anchors": ["lib/ulp.c:revert_all_patches_from_lib", "lib/ulp.c:__ulp_revert_patches_from_lib"]}
{"id": "C29", "title": "Universe counter orders patches", "statement": "The global counter reported by libpulp never decreases, grows by one with each accepted apply or revert, and the replacement in force for a function is the active one with the largest counter value.", "quantifier": "every history of requests; for the exact growth and the ordering, histories without recorded internal error", "why_tests_cant": "Invariant over all histories.", "anchors": ["lib/ulp.c:ulp_apply_all_units", "lib/ulp.c:ulp_revert_patch", "lib/ulp.c:__ulp_get_global_universe_value", "lib/ulp.c:push_new_detour"]}
{"id": "C30", "title": "Only entry pads and declared references are modified", "statement": "After any history of requests, the only bytes of the process that livepatching has changed are the NOP pads of functions named in applied patches and the reference slots those patches declare.", "quantifier": "every history of requests, every memory content", "why_tests_cant": "A frame property over all of memory and all histories.", "anchors": ["lib/arch/x86_64/patch.c:ulp_patch_addr", "lib/arch/x86_64/patch.c:ulp_skip_prologue", "lib/ulp.c:ulp_apply_all_units"]}
{"id": "C31", "title": "Non-patchable functions are refused and untouched", "statement": "A function whose entry is not a patchable pad (2-byte NOP, pre-merged NOP or libpulp's own jump, optionally after endbr64) is never modified; the request reports ENOPATCHABLE.", "quantifier": "every byte content at the entry", "why_tests_cant": "All byte contents of the entry window.", "anchors": ["lib/arch/x86_64/patch.c:ulp_patch_addr", "lib/arch/x86_64/patch.c:ulp_patch_addr"]}
{"id": "C32", "title": "Entry patching is valid machine code", "statement": "The bytes written at a patched function (direct entry or after endbr64) decode, on x86-64, to a jump whose final destination is exactly the 64-bit replacement address, for every address; after disabling, execution falls through to the original body.", "quantifier": "every function address and every replacement address", "why_tests_cant": "All 2^64 targets and positions.", "anchors": ["lib/arch/x86_64/patch.c:ulp_patch_prologue_layout", "lib/arch/x86_64/patch.c:ulp_patch_addr", "lib/arch/x86_64/patch.c:ulp_skip_prologue"]}
{"id": "C33", "title": "Patching never overlaps an allocator or loader call", "statement": "For every interleaving of application threads calling malloc/free/dl* with patch requests, a request proceeds only when no thread is inside such a call; and if all other threads are stopped while a request is served, the busy indication afterwards again equals the number of threads inside such calls.", "quantifier": "every number of threads, every nesting, every interleaving", "why_tests_cant": "Concurrency over all schedules.", "anchors": ["lib/interpose.c:__ulp_asunsafe_trylock", "lib/interpose.c:__ulp_asunsafe_unlock", "lib/interpose.c:malloc"]}
{"id": "C34", "title": "Process work queue is FIFO and loses nothing", "statement": "With one producer and one consumer thread, the bounded queue delivers exactly the enqueued elements, in order, without loss or duplication, never overruns its capacity, and never deadlocks while one side can proceed.", "quantifier": "every capacity >= 1, every sequence, every interleaving of the two threads at the granularity of semaphore and memory operations", "why_tests_cant": "All schedules.", "anchors": ["tools/pcqueue.c:producer_consumer_enqueue", "tools/pcqueue.c:producer_consumer_dequeue"]}
{"id": "C35", "title": "Hijacking is all or nothing", "statement": "hijack_threads either leaves every thread of the process stopped under the tool's control, or reports an error and leaves no thread attached (unless a detach itself failed, which is reported distinctly); restore_threads gives every stopped thread its own saved registers back and releases it.", "quantifier": "every set of threads, threads appearing while hijacking, every failure point", "why_tests_cant": "Failure points and thread creation are timing dependent.", "anchors": ["tools/introspection.c:hijack_threads", "tools/introspection.c:restore_threads"]}
{"id": "C36", "title": "Trigger retries a bounded number of times and reports the last result", "statement": "With retry count N >= 1, trigger makes at most N attempts on a process, stops at the first success, releases the process after every attempt, and reports success only if the last attempt succeeded.", "quantifier": "every N and every sequence of attempt outcomes", "why_tests_cant": "All outcome sequences.", "anchors": ["tools/trigger.c:trigger_one_process"]}
{"id": "C37", "title": "Exit status reflects failures", "statement": "When patching many processes, `ulp trigger` exits with a non-zero status if patching some process failed with a non-skippable error, and the printed counters add up to the number of processes considered.", "quantifier": "every list of processes, every outcome, file and wildcard mode", "why_tests_cant": "All outcome combinations.", "anchors": ["tools/trigger.c:trigger_many_processes", "tools/trigger.c:trigger_many_ulps", "tools/trigger.c:run_trigger"]}
{"id": "C38", "title": "Version numbers round-trip and compare correctly", "statement": "Converting a libpulp version to text and back yields the same version, and comparing packed versions is comparing (major, minor, patch) lexicographically.", "quantifier": "every triple of 16-bit numbers", "why_tests_cant": "2^48 triples.", "anchors": ["common/common.c:ulp_version_from_string", "common/common.c:ulp_version_as_string", "include/ulp_common.h:ULP_VERSION"]}
{"id": "C39", "title": "Build ids print faithfully", "statement": "Printing a 20-byte build id in hexadecimal is injective, and parsing the printed form gives the build id back.", "quantifier": "every 20-byte build id", "why_tests_cant": "2^160 values.", "anchors": ["common/common.c:buildid_to_string", "tools/extract.c:str_to_buildid"]}
{"id": "C40", "title": "Basename is the part after the last slash", "statement": "get_basename returns a suffix of its input that contains no slash and is preceded by a slash or the start of the string.", "quantifier": "every string", "why_tests_cant": "All strings.", "anchors": ["common/common.c:get_basename"]}
{"id": "C41", "title": "Every libpulp error code has its own message", "statement": "Every error code defined by libpulp maps to its own human readable message.", "quantifier": "every defined error code", "why_tests_cant": "Cheap to enumerate but no test does; included because a table defect breaks it.", "anchors": ["common/common.c:libpulp_strerror", "include/error_common.h"]}
{"id": "C42", "title": "Temporary file choice terminates with an unused name", "statement": "Choosing a temporary file returns a name that does not exist, whenever an unused candidate is available.", "quantifier": "every set of existing files", "why_tests_cant": "All directory contents.", "anchors": ["common/common.c:create_path_to_tmp_file"]}
{"id": "C43", "title": "Patch ids use standard MD4", "statement": "The digest used in patch ids is the MD4 of RFC 1320 for every input length.", "quantifier": "every byte string", "why_tests_cant": "All inputs, in particular every padding residue.", "anchors": ["tools/md4.c:MD4", "tools/packer.c:write_patch_id"]}
{"id": "C44", "title": "Post-processing keeps functions patchable and changes one byte", "statement": "`ulp post` on a patchable function changes at most the first NOP byte of its entry, is idempotent, and leaves an entry libpulp accepts as patchable and that executes as a no-op.", "quantifier": "every library image and every function table", "why_tests_cant": "All images.", "anchors": ["tools/post.c", "tools/arch/x86_64/post-arch.c:merge_nops_at_addr", "lib/arch/x86_64/patch.c:ulp_patch_addr"]}
{"id": "C45", "title": "Early allocation emulation obeys the C/POSIX contract", "statement": "Before the real allocator is known, posix_memalign accepts exactly the alignments POSIX allows (powers of two that are multiples of the pointer size) and aligned_alloc accepts exactly power-of-two alignments with a size that is a multiple of them.", "quantifier": "every alignment and size", "why_tests_cant": "All 2^128 argument pairs.", "anchors": ["lib/interpose.c:posix_memalign", "lib/interpose.c:aligned_alloc"]}
{"id": "C46", "title": "POWER: branch encoding reaches the trampoline", "statement": "On POWER, the branch instruction written at a function entry decodes to a relative branch with exactly the intended negative displacement, and never sets the absolute or link bits.", "quantifier": "every word-aligned displacement the encoding can carry", "why_tests_cant": "All displacements.", "anchors": ["lib/arch/powerpc64le/patch.c:generate_branch_to_prologue", "lib/arch/powerpc64le/patch.c:get_branch_offset"]}
{"id": "C47", "title": "POWER: return addresses are restored in LIFO order", "statement": "On POWER, across any nesting of calls through livepatched functions in a thread, every return restores exactly the TOC pointer and return address saved by the matching call, across any number of shadow-stack growths.", "quantifier": "every well-nested sequence of calls and returns of any depth", "why_tests_cant": "Unbounded depth; growth points depend on history.", "anchors": ["lib/arch/powerpc64le/ulp_prologue.S", "lib/arch/powerpc64le/patch.c:ulp_stack_helper"]}
{"id": "C48", "title": "Disable-by-environment blocks exactly the matching processes", "statement": "A process starts with livepatching blocked by the user exactly when its path, its user or its group matches one of the configured patterns.", "quantifier": "every environment setting, path, user and group, every matching relation", "why_tests_cant": "All pattern lists.", "anchors": ["lib/interpose.c:maybe_disable_livepatching_on_path", "lib/interpose.c:maybe_disable_livepatching_on_user", "lib/interpose.c:maybe_disable_livepatching_on_group"]}
{"id": "C49", "title": "Process listing visits every live-patchable process once", "statement": "Iterating over processes yields every process whose data could be collected exactly once, in discovery order, with or without the worker thread.", "quantifier": "every list of candidate processes and every pattern of collection failures", "why_tests_cant": "All failure patterns.", "anchors": ["tools/patches.c:generate_ulp_list_thread", "tools/patches.c:process_list_next", "tools/patches.c:insert_target_process"]}
{"id": "C50", "title": "References point at the target's data", "statement": "After a successful apply, every data reference declared by the patch holds the run-time address of the target library's datum (for thread-local ones, its module id and offset).", "quantifier": "every patch, every load address, every reference list without overlapping slots, no internal error recorded", "why_tests_cant": "All load addresses and reference layouts.", "anchors": ["lib/ulp.c:ulp_apply_all_units"]}
{"id": "C51", "title": "Printing patch labels stays inside the patch description", "statement": "Printing the labels of an applied patch never reads past the end of its label text.", "quantifier": "every label text", "why_tests_cant": "All strings.", "anchors": ["tools/patches.c:print_relevant_labels"]}
{"id": "C52", "title": "Enable/disable command acts only when needed and is idempotent", "statement": "`ulp set_patchable` changes a process only from blocked to enabled or from enabled to blocked; running it twice has the same effect as once, and it never changes a process with an internal error.", "quantifier": "every process state, every sequence of commands", "why_tests_cant": "All sequences.", "anchors": ["tools/set_patchable.c:enable_or_disable_patching"]}
{"id": "C53", "title": "Malformed build id texts are refused", "statement": "Reading a build id from its textual form in an extracted symbol file either yields the 20 bytes the text denotes or refuses the text with EINVAL; it never reads outside of the text and never uses a value that was not read from it.", "quantifier": "every string", "why_tests_cant": "Texts of every length and content can appear in a JSON file written by another tool; undefined reads usually go unnoticed in a test run.", "anchors": ["tools/extract.c:str_to_buildid"]}
{"id": "C54", "title": "The tool finds the build id of every loaded library", "statement": "For every loaded library that carries a 20-byte GNU build id note, the trigger tool reads exactly that build id from the process, whatever other ELF notes precede it in the note segment; a build id of another length is never taken for a 20-byte one.", "quantifier": "every list of notes (any types, name and descriptor lengths) laid out by the ELF rules in a PT_NOTE segment", "why_tests_cant": "The walk through the notes depends on the lengths of all notes that come before the build id; the libraries a test suite loads have a handful of layouts, all with 4-byte multiples.", "anchors": ["tools/introspection.c:parse_dynobj_elf_headers", "lib/ulp.c:compare_build_ids"]}
{"id": "C55", "title": "Being busy in the loader is temporary", "statement": "A patch request that comes while some thread is inside the dynamic loader is answered with EAGAIN and has no lasting effect: once the loader is left, a later request can proceed.", "quantifier": "every interleaving of threads that use the dynamic loader, including threads that wait for each other, with patch requests", "why_tests_cant": "It takes two threads contending for the loader lock at the very moment of a request; a test rarely gets there and would see only a refusal that looks legitimate.", "anchors": ["lib/interpose.c:dl_locks_held", "lib/error.c:libpulp_assert_func", "lib/ulp.c:__ulp_apply_patch"]}
{"id": "C56", "title": "A busy process is tried again", "statement": "When an attempt of `ulp trigger` fails because the process is busy in malloc or the loader (EAGAIN), and retries are left, another attempt is made; this includes updates that revert old livepatches and apply a new one in one go.", "quantifier": "all tasks, retry counts and behaviours of the process", "why_tests_cant": "Which attempt meets a busy process is a matter of timing.", "anchors": ["tools/trigger.c:143-215"]}
{"id": "C57", "title": "An error found at start-up is not forgotten", "statement": "When libpulp finds at process start that it cannot work (loader locks not where expected, initialisation failed), the process stays in that error state: neither the environment variables that disable livepatching nor `ulp set_patchable` turn it into one that can be livepatched.", "quantifier": "every start-up error, environment and later `ulp set_patchable`", "why_tests_cant": "Needs a broken or unexpected glibc together with a particular environment.", "anchors": ["lib/interpose.c:88-97", "lib/interpose.c:349-360", "lib/ulp.c:1275-1298"]}
{"id": "C58", "title": "On POWER, activating and deactivating a patch changes only the entry", "statement": "On POWER, activating a patch makes the instruction reserved at the entry branch to the prologue before the function, which then carries the address of the new function; deactivating makes calls run the original function; and after any number of both that ends with a deactivation all bytes of the function are as they were", "quantifier": "every memory, function address, template of the prologue, sequence of activations and deactivations with any new functions", "why_tests_cant": "Tests run one patch on one build; they do not see every layout of the entry and every history", "anchors": ["lib/arch/powerpc64le/patch.c:69-224"]}
{"id": "C59", "title": "On POWER, refusing to patch a function changes nothing", "statement": "When libpulp on POWER refuses to patch a function because its entry has no room for the branch, the memory of the process stays as it is", "quantifier": "every memory, function address and new function", "why_tests_cant": "A test of a non-patchable function checks the error code and not the bytes before the function", "anchors": ["lib/arch/powerpc64le/patch.c:90-109", "lib/arch/powerpc64le/patch.c:209-224"]}
{"id": "C60", "title": "On POWER, the new function gets its caller's arguments and its results arrive", "statement": "A call of a livepatched function on POWER reaches the new function with all argument registers, the stack and the preserved registers as its caller left them, and the results reach the caller", "quantifier": "every state of a thread, every behaviour that the ABI allows of the functions called in between, with or without a growth of the shadow stack", "why_tests_cant": "Whether registers survive depends on which path the dynamic linker takes inside __tls_get_addr, which a test cannot choose", "anchors": ["lib/arch/powerpc64le/ulp_prologue.S:46-226"]}
{"id": "C61", "title": "On POWER, a non-local exit out of a livepatched function does not disturb later returns", "statement": "After longjmp or an exception has left a livepatched function on POWER, the functions still active return to their own callers", "quantifier": "every execution of a thread that calls livepatched functions, and every non-local exit in it", "why_tests_cant": "Tests have no longjmp out of livepatched functions", "anchors": ["lib/arch/powerpc64le/ulp_prologue.S:130-190"]}
{"id": "C62", "title": "On POWER, a signal handler may call livepatched functions", "statement": "When a signal handler that calls livepatched functions interrupts a thread on POWER, every interrupted call still returns to its own caller", "quantifier": "every point of interruption, every handler", "why_tests_cant": "The window is a few instructions; a test practically never hits it", "anchors": ["lib/arch/powerpc64le/ulp_prologue.S:160-190"]}
{"id": "C63", "title": "On POWER, the shadow stack of a thread that exits is freed", "statement": "When a thread exits that called livepatched functions on POWER, the memory mapped for its shadow stack is given back", "quantifier": "every number of growths of the shadow stack", "why_tests_cant": "Tests do not look at the mappings of the process after its threads have exited", "anchors": ["lib/arch/powerpc64le/patch.c:228-256", "lib/arch/powerpc64le/patch.c:266-322"]}
{"id": "C64", "title": "Only the processes asked for are selected", "statement": "The tool works on exactly the processes that have libpulp loaded, other than itself, whose name matches the process wildcard and whose owner is the user asked for", "quantifier": "every list of processes with any names, owners and user names, every pair of wildcards and every matching function", "why_tests_cant": "Tests run all processes as one user, usually root", "anchors": ["tools/patches.c:50-113", "tools/patches.c:139-181", "common/common.c:117-145", "common/common.c:569-580"]}
{"id": "C65", "title": "All bug labels of a patch are shown", "statement": "Listing patches prints every bug label (bsc#, jsc#, CVE-) in the comments of an applied patch, in their order, and nothing else", "quantifier": "every text in which labels are followed by a character that cannot belong to a label, of any length", "why_tests_cant": "The test has one text with three labels", "anchors": ["tools/patches.c:289-371"]}
{"id": "C66", "title": "All comments of a description are embedded into the patch", "statement": "The packer embeds the text of all comment lines of the description into the livepatch, and nothing else", "quantifier": "every list of comment lines, every content of newly allocated memory", "why_tests_cant": "The only test has one comment line, and freshly mapped memory happens to be zero", "anchors": ["tools/packer.c:474-493", "tools/packer.c:1211-1234"]}
{"id": "C67", "title": "Comments of any length stay within the packer's buffer", "statement": "Collecting comments the packer never writes behind its buffer", "quantifier": "every list of comment lines of any length", "why_tests_cant": "Tests have short comments", "anchors": ["tools/packer.c:474-493"]}
{"id": "C68", "title": "Livepatches go to the library they name", "statement": "When a livepatch names a target library, the functions it replaces and the data its references are redirected to are those of the loaded library with that file name.", "quantifier": "for all sets and orders of loaded objects, library names, function offsets and programs", "why_tests_cant": "Tests run one program with a handful of libraries whose names do not contain each other, in one load order.", "anchors": ["lib/symbol_loader.c:140-359", "lib/ulp.c:647-701"]}
{"id": "C69", "title": "A livepatch for a library that is not loaded does nothing", "statement": "If the target library of a livepatch is not loaded in the process, applying it is refused, no patch is recorded and no memory is taken for a function of it.", "quantifier": "for all processes, libraries that are not loaded, and livepatches", "why_tests_cant": "Tests apply livepatches to programs that use the target library; what happens otherwise depends on the offsets in the livepatch and on the memory map.", "anchors": ["lib/symbol_loader.c:262-295", "lib/ulp.c:634-753", "lib/ulp.c:758-848"]}
{"id": "C70", "title": "Preloading libpulp does not stop a program from starting", "statement": "A program started with libpulp preloaded runs on, with live patching disabled if the dynamic linker is not one libpulp knows.", "quantifier": "for all versions of the C library and all dynamic linkers that the loader itself can use", "why_tests_cant": "Tests run with the one C library of the build machine.", "anchors": ["lib/symbol_loader.c:376-415", "lib/interpose.c:347-360"]}
{"id": "C71", "title": "A routine reported as finished did run to its end", "statement": "When the tool runs one of libpulp's routines in a hijacked thread and takes the result for success, the routine ran from its entry to its trap instruction, exactly once, and the result the tool reads is the routine's return value.", "quantifier": "for all timings of thread, kernel and tool, all routines, all wait statuses, with or without a restarted system call", "why_tests_cant": "The kernel's choice of when the thread stops and the signals that reach it cannot be enumerated by a test; a lost race looks like a success.", "anchors": ["tools/ptrace.c:500-625", "tools/introspection.c:1675-1744", "lib/arch/x86_64/ulp_interface.S:40-73"]}
{"id": "C72", "title": "The tool reports the routine's own result", "statement": "When the routine for applying a patch ran to its end, the tool's result is the routine's return value, whatever the thread was doing when it was interrupted.", "quantifier": "for all register contents of the interrupted thread and all return values", "why_tests_cant": "The collision depends on the value the interrupted thread had in its result register.", "anchors": ["tools/introspection.c:1675-1744", "tools/introspection.c:1842-1872"]}
{"id": "C73", "title": "Live patching loses no signal", "statement": "Every signal sent to the process while it is being patched is delivered to it or still pending when the tool lets go of the thread.", "quantifier": "for all signals, all moments of arrival, all executions", "why_tests_cant": "Signals arrive at any moment of the operation, and a test cannot choose all of them.", "anchors": ["tools/ptrace.c:393-435", "tools/ptrace.c:500-625"]}
{"id": "C74", "title": "After a time-out the process goes on as before", "statement": "When the tool gives up waiting for a routine, it does so after the configured time, and the process continues with the code it was executing before it was interrupted.", "quantifier": "for all time limits, all routines, all executions", "why_tests_cant": "A time-out leaves the process in a state that shows only after the tool has gone.", "anchors": ["tools/ptrace.c:500-625", "tools/introspection.c:1675-1744"]}
{"id": "C75", "title": "A library description in JSON says the same as the library", "statement": "Reading back the JSON file that ulp extract wrote for a library gives the same name, build id and symbols, with the same offsets, as the library itself.", "quantifier": "for all libraries, all symbols and offsets", "why_tests_cant": "Offsets are 64-bit numbers; which of them survive cannot be sampled.", "anchors": ["tools/extract.c:181-241", "tools/extract.c:391-441", "tools/extract.c:497-548"]}
{"id": "C76", "title": "Debug information of another build is not used", "statement": "If ulp extract is given debug information that does not belong to the library, it refuses; what it extracts describes the build whose build id it records.", "quantifier": "for all libraries and debug information files", "why_tests_cant": "The mismatch gives a well-formed JSON file whose offsets are wrong only when used.", "anchors": ["tools/extract.c:650-737"]}
{"id": "C77", "title": "A name in a description stands for the function of that name in the library", "statement": "The offset found for a name is that of the function the library defines under that name.", "quantifier": "for all symbol tables and names", "why_tests_cant": "Symbol tables with ambiguous names are arbitrary; tests use a few libraries.", "anchors": ["tools/extract.c:253-329", "tools/extract.c:634-648", "tools/packer.c:165-217"]}
{"id": "C78", "title": "The tools find the build id of a library file", "statement": "The build id of a library is found wherever it is among the notes of its section, and the search ends.", "quantifier": "for all contents of the note section", "why_tests_cant": "The contents of the section are an arbitrary byte sequence; one loop may not end.", "anchors": ["tools/packer.c:107-121", "tools/packer.c:914-945"]}
{"id": "C79", "title": "Libraries with unsupported build ids are refused", "statement": "A library whose build id has another length than 20 bytes is refused with an error message and without harm.", "quantifier": "for all build ids", "why_tests_cant": "The length is read from the file and may be any 32-bit number.", "anchors": ["tools/packer.c:107-121", "tools/packer.c:914-945", "tools/extract.c:338-379"]}
{"id": "C80", "title": "Packed metadata says what the description says", "statement": "For a well-formed description whose files and symbols exist, ulp packer builds a patch with the target's name and build id, each function with its replacement and its address in the target, each dependency, and each reference with its offsets, in the order written; sent to a process, it is parsed there as that patch.", "quantifier": "all well-formed descriptions (any number of comments, dependencies, functions, references), all files", "why_tests_cant": "The test suite has a few fixed descriptions; the claim is about every text of the grammar and passes through text parsing, symbol lookup, packing and parsing in another process.", "anchors": ["tools/packer.c:512-899", "tools/packer.c:165-217", "README.md:160-190"]}
{"id": "C81", "title": "The packer accepts only functions that exist", "statement": "If ulp packer accepts a description, whatever its text, the container and target are the files named (or those of --livepatch and --target), there is one target only, every function recorded is one the description names, exists in the target at the address recorded, and its replacement exists in the live patch. This is broken for functions that the library only imports.", "quantifier": "all description files, all libraries", "why_tests_cant": "Tests feed a handful of malformed descriptions; acceptance is a property of all texts.", "anchors": ["tools/packer.c:655-884", "tools/extract.c:634-648"]}
{"id": "C82", "title": "No description makes the packer touch invalid memory", "statement": "Reading a description file never makes ulp packer access memory it should not; malformed lines are reported. This is broken for lines starting with a colon or NUL, references without colon or with one offset, a missing target line, and target paths of 4096 or more characters.", "quantifier": "all description files as byte strings", "why_tests_cant": "Memory safety over every byte string cannot be covered by examples.", "anchors": ["tools/packer.c:655-884", "tools/packer.c:66-93"]}
{"id": "C83", "title": "A live patch can be declared to depend on another", "statement": "A description may name another live patch as dependency, and the packer records its id. This is broken: the packer reads the id only from raw metadata and refuses ELF files, which all live patches are.", "quantifier": "all live patches named as dependencies", "why_tests_cant": "No test uses dependencies; the claim is about every file.", "anchors": ["tools/packer.c:320-356", "tools/packer.c:629-653"]}
{"id": "C84", "title": "Offsets given explicitly are used", "statement": "An offset written in a reference line is recorded as it is, and the variable need not have a symbol. This is broken for a target offset of zero, which is looked up by name instead.", "quantifier": "all reference lines with hexadecimal offsets", "why_tests_cant": "Tests use one or two offsets, never zero (the first TLS variable of a module has offset zero).", "anchors": ["tools/packer.c:730-792", "tools/packer.c:196-217"]}
{"id": "C85", "title": "Success of the packer means that the metadata is embedded", "statement": "When ulp packer exits with status 0, the live patch container has the sections .ulp, .ulp.rev and, if the description has comments, .ulp.comments, and the process that gets them from the trigger tool understands them as the described patch; if a section could not be embedded it exits with another status.", "quantifier": "All descriptions, environments, containers, comments, and all ways each of the three runs of objcopy can end.", "why_tests_cant": "A test embeds with a working objcopy; failures of a child program between three runs, a missing program and a crash of the child are not exercised.", "anchors": ["tools/packer.c:1149-1256", "tools/packer.c:1077-1147", "tools/elf-extra.c:137-196"]}
{"id": "C86", "title": "Packing again replaces what was packed before", "statement": "After a container was packed with one description and then with another one, all metadata found in it is that of the second.", "quantifier": "All pairs of accepted descriptions, containers and comments.", "why_tests_cant": "A test packs each container once.", "anchors": ["tools/packer.c:1195-1239", "tools/elf-extra.c:137-196"]}
{"id": "C87", "title": "Different live patches have different ids", "statement": "The id of a live patch consists of the build id of its container and the MD4 digest of its description, so that live patches with different build ids have different ids.", "quantifier": "All containers, build ids of any length, and descriptions.", "why_tests_cant": "A test compares a few ids; it cannot tell that no two build ids share an id.", "anchors": ["tools/packer.c:981-1075", "tools/packer.c:947-978"]}
{"id": "C88", "title": "A temporary file is always found and never one in use", "statement": "The tools find a path for a temporary file that is not used by another one, as long as there is some.", "quantifier": "All sets of used paths and all sequences of random numbers.", "why_tests_cant": "A conflict of random numbers is too rare to occur in a test.", "anchors": ["common/common.c:185-225"]}
{"id": "C89", "title": "gdb loads the same metadata as the trigger tool", "statement": "When gdb calls gdb_ulp_apply or gdb_ulp_revert with the path of a live patch container, the process finds the section .ulp or .ulp.rev of it, whatever else the file contains, and acts on exactly the bytes that the trigger tool would have written to it.", "quantifier": "All ELF files with any sections in any order and place, all patches and paths.", "why_tests_cant": "A test runs one or two containers made by the same linker; the reader has limits (size of the string table, order and names of sections) that they do not reach.", "anchors": ["lib/minielf.c:51-260", "lib/gdb_interface.c:96-158"]}
{"id": "C90", "title": "No container makes the gdb interface access invalid memory", "statement": "Whatever the file given to gdb_ulp_apply and gdb_ulp_revert, the process does not read or write outside of its variables nor use memory that was never written.", "quantifier": "All files.", "why_tests_cant": "Damaged and unusual files are not among test inputs, and reads of unwritten memory show no effect most of the time.", "anchors": ["lib/minielf.c:77-247", "lib/gdb_interface.c:47-94"]}
{"id": "C91", "title": "A bad container does not disable live patching", "statement": "When gdb_ulp_apply or gdb_ulp_revert fails because of the file it was given, later live patches can still be applied.", "quantifier": "All files, sequences of two calls with any files.", "why_tests_cant": "A test does not give a bad file and a good one to the same process.", "anchors": ["lib/minielf.c:81", "lib/minielf.c:112", "lib/minielf.c:139", "lib/error.c:76-86", "lib/ulp.c:182-188"]}
{"id": "C92", "title": "The tools see every loaded library", "statement": "For a stopped process, the tools determine the load bias of the program and list every object of the loader's link map with its bias and name.", "quantifier": "All process images (any bias, number of auxiliary entries, program headers, dynamic entries, libraries, names) laid out as the ELF specification and glibc say.", "why_tests_cant": "The layout of address spaces, link order and number of libraries vary without bound, and tests run a few programs of one toolchain.", "anchors": ["tools/introspection.c:379-419", "tools/introspection.c:1045-1130", "tools/introspection.c:1243-1296"]}
{"id": "C93", "title": "The tools find libpulp's entry points where they are", "statement": "The object taken for libpulp is the loaded one with the required entry points, and each entry point is at the bias plus the value of the symbol of its name.", "quantifier": "All process images with any libraries, symbol tables of any size and order.", "why_tests_cant": "Calling a wrong address crashes the process; which symbols precede or follow, and which other libraries are called alike, varies without bound.", "anchors": ["tools/introspection.c:603-806", "tools/introspection.c:841-955", "tools/introspection.c:1199-1325"]}
{"id": "C94", "title": "A process is used only after libpulp's constructor has run", "statement": "Inspection of a process succeeds if libpulp is loaded and its constructor has run; before that it says to try again later; without libpulp it says so.", "quantifier": "All process images, at any time of start-up.", "why_tests_cant": "The window between loading and running of constructors is too short to be hit by tests.", "anchors": ["tools/introspection.c:1337-1380"]}
{"id": "C95", "title": "With --check-stack no live patch is applied over running code", "statement": "With `ulp trigger --check-stack`, the check passes exactly when the stack of every thread can be walked to its end and has no address inside the library to be patched; so no live patch passes the check while a thread is executing, or will return to, code of that library.", "quantifier": "all process maps, all numbers of threads, all stacks", "why_tests_cant": "The check depends on where each thread is at the moment it is stopped; tests hit only a few such moments.", "anchors": ["tools/introspection.c:2368-2460", "tools/introspection.c:2462-2523"]}
{"id": "C96", "title": "A failed stack check changes nothing and is reported", "statement": "With `ulp trigger --check-stack`, an attempt in which the check does not pass reverts nothing and applies nothing; the process is let go and tried again as often as asked for; success is not reported unless the check passed.", "quantifier": "all tasks, all numbers of retries, all outcomes of every step of every attempt", "why_tests_cant": "The interplay of retries, failing checks and failing steps has too many combinations, most of which need timing to produce.", "anchors": ["tools/trigger.c:143-232", "tools/introspection.c:2462-2523"]}
{"id": "C97", "title": "ulp patches shows exactly the applied live patches", "statement": "`ulp patches` shows, with each library of a process, exactly the live patches that are applied to it, in the order in which libpulp keeps them, with the time of application if libpulp records it; with --only-livepatched exactly the processes that have live patches are shown.", "quantifier": "all lists of applied live patches, all names, all libpulp versions, all sets of loaded objects", "why_tests_cant": "Needs processes with any number of live patches, names and libpulp versions; a test shows a few of them.", "anchors": ["tools/introspection.c:2536-2650", "tools/patches.c:377-425", "tools/patches.c:538-577"]}
{"id": "C98", "title": "ulp patches shows exactly the live-patchable libraries", "statement": "`ulp patches` lists a loaded object if and only if a live patch has been applied to it or it has a function that can be live patched.", "quantifier": "all loaded objects, symbol tables and code, both architectures", "why_tests_cant": "Depends on contents of symbol tables and code of every library there is, on its size, and on how it was linked.", "anchors": ["tools/patches.c:457-508", "tools/arch/x86_64/post-arch.c:116-135", "tools/arch/powerpc64le/post-arch.c:54-77"]}
{"id": "C99", "title": "The status shown is libpulp's error state", "statement": "`ulp patches` says \"enabled\" if and only if libpulp in the process has no error recorded, \"disabled by user\" if and only if the user blocked live patching, and otherwise the error recorded.", "quantifier": "all error states, old and new versions of libpulp", "why_tests_cant": "Most error states are reached only by failures that cannot be provoked in a test.", "anchors": ["tools/introspection.c:2661-2689", "tools/patches.c:510-536"]}
{"id": "C100", "title": "Libpulp finds the true protection of a page", "statement": "The protection libpulp finds for an address of its own process is the one the kernel lists for it in /proc/self/maps; for an address that is not listed it gets an error.", "quantifier": "all contents of /proc/self/maps the kernel can write, all addresses, whatever the uninitialised line buffer holds", "why_tests_cant": "The number, order and length of the lines depend on the patched process; tests see a handful of short lines.", "anchors": ["lib/insn_queue.c:188-275", "lib/ulp.c:382-414", "lib/ulp.c:856-903"]}
{"id": "C101", "title": "A write of libpulp into its own process is done completely, leaving protections alone", "statement": "When libpulp writes into its own process (gdb interface), a write it counts as done stored all its bytes and nothing else, and all pages have their old protection; a write that cannot be made changes neither memory nor protections; a write into mapped pages is made.", "quantifier": "all addresses and lengths, all page tables, all failures of open and mprotect", "why_tests_cant": "Failures of mprotect in the middle of a write and writes ending at a page boundary do not occur in tests.", "anchors": ["lib/insn_queue.c:288-342"]}
{"id": "C102", "title": "Success reported by the gdb interface means that all requests were performed", "statement": "If libpulp interprets its own instruction queue and reports success, every queued write was made, in order, and the queue is empty.", "quantifier": "all queues libpulp can build, all failures of the system calls", "why_tests_cant": "Failing system calls with particular values of errno cannot be arranged in a unit test.", "anchors": ["lib/insn_queue.c:288-365", "common/insn_queue.c:91-128"]}
{"id": "C103", "title": "The trigger report names exactly the applied and failed patches", "statement": "For every list of results of a process, summarised or not, `ulp trigger` prints `SUCCESS p` if and only if patch p was applied, and `FAILED p: e` if and only if p failed with e, for all errors e that do not count as skipped.", "quantifier": "for all result lists, names, errors, and both settings of --no-summarization", "why_tests_cant": "The summary depends on the order, number and mix of all results; tests look at a handful of mixes.", "anchors": ["tools/trigger.c:370-475"]}
{"id": "C104", "title": "The report agrees with the totals", "statement": "A process's report mentions a failure exactly if the process is counted as failed by the totals and the exit status. FALSE for patches applied already, blocked by the user, or similar: counted as skipped but printed as FAILED next to any other important result.", "quantifier": "for all result lists and both settings of --no-summarization", "why_tests_cant": "Two functions classify errors independently; a test sees one error at a time.", "anchors": ["tools/trigger.c:370-475", "tools/trigger.c:213-240"]}
{"id": "C105", "title": "--no-summarization lists every patch tried", "statement": "With --no-summarization the report has one line for each patch tried, in the order of the list. FALSE if all results are the same minor error: then nothing at all is printed.", "quantifier": "for all result lists", "why_tests_cant": "Depends on whether all errors in the list coincide.", "anchors": ["tools/trigger.c:420-430", "tools/trigger.c:451-475"]}
{"id": "C106", "title": "A wildcard selects exactly the matching live patches", "statement": "`ulp trigger 'folder/wildcard'` tries exactly the files (not directories) in the folder, or with --recursive in the folders below it too, whose name ends in .so and matches the wildcard, and each of them once. FALSE with --recursive if a directory's own name matches: then the tool tries the wildcard itself as a file within that directory.", "quantifier": "for all file systems, wildcards, match relations and folder paths up to the accepted 256 bytes", "why_tests_cant": "Depends on arbitrary directory trees and path lengths.", "anchors": ["tools/trigger.c:262-367", "common/common.c:51-62"]}
{"id": "C107", "title": "The search for live patches ends and stays within its buffer", "statement": "The recursive search ends for every file system, also with cycles of symbolic links, and never writes past its 256-byte path buffer. FALSE if the path ends in a slash (`/patches/*/`): the tool then calls itself on the same directory without end.", "quantifier": "for all file systems and accepted paths", "why_tests_cant": "Needs cyclic or very deep directory trees and paths at the length limit.", "anchors": ["tools/trigger.c:262-367", "tools/ulp.c:229-234"]}
{"id": "C108", "title": "Unloading metadata releases each block once", "statement": "Whatever point the reading of metadata stops at (every allocation and every read may fail), unloading what was read, in the patched process and in the tools, frees only allocated blocks and none twice; so does reverting an applied patch.", "quantifier": "all shapes of metadata (any number of units, dependencies, references), all points of failure, all heaps, all applied patches", "why_tests_cant": "Needs failing each of unboundedly many allocations and reads; tests only see complete parses.", "anchors": ["common/common.c:512-556", "tools/introspection.c:264-348", "lib/ulp.c:305-338", "lib/ulp.c:473-532", "lib/ulp.c:1171-1212"]}
{"id": "C109", "title": "A request leaves behind only the state of the patch", "statement": "Handling a request leaves no memory allocated beyond the record of the applied patch, its detours and its roots; reading metadata in a tool leaves nothing.", "quantifier": "all shapes of metadata, all points of failure, all heaps", "why_tests_cant": "Leaks have no effect a test of one request sees.", "anchors": ["lib/ulp.c:313-338", "lib/ulp.c:473-532", "lib/ulp.c:757-848", "common/common.c:512-556", "tools/introspection.c:338-348"]}
{"id": "C110", "title": "Applying and reverting a patch gives the memory back", "statement": "After a patch was applied and reverted the memory of the process is as before, so that any number of patches may come and go.", "quantifier": "all patches, all heaps, any number of rounds", "why_tests_cant": "Growth per round is small; only unbounded repetition shows it.", "anchors": ["lib/ulp.c:1171-1212", "lib/ulp.c:757-848", "lib/ulp.c:313-338"]}
{"id": "C111", "title": "The exit status of ulp check tells whether the patch is applied", "statement": "ulp check exits with one status exactly if the live patch of the container is applied to the process, with another exactly if it is not, and with a third on errors.", "quantifier": "all containers, all processes (any set of applied patches, any error state), all failures of the steps", "why_tests_cant": "Needs the status under every failure and for every set of applied patches; error statuses that coincide with answers only show when compared across all paths.", "anchors": ["tools/check.c:43-144", "tools/introspection.c:1402-1424", "tools/introspection.c:1627-1661", "tools/introspection.c:1891-1978", "lib/ulp.c:213-228"]}
{"id": "C112", "title": "ulp check leaves the process as it was", "statement": "ulp check changes neither the applied patches nor the error state of libpulp nor anything of its buffer beyond the 32 bytes of the id, and at its end the threads run again unless releasing them failed, which its status tells.", "quantifier": "all containers, processes, failures of steps", "why_tests_cant": "Needs all failure paths after the threads were stopped.", "anchors": ["tools/check.c:43-144", "tools/introspection.c:1402-1424", "tools/introspection.c:1627-1661"]}
{"id": "C113", "title": "The dump shows what the metadata says", "statement": "Everything the metadata of a live patch says (ids, names, addresses, references, dependencies) can be read off the text that ulp dump prints, and nothing printed is wrong.", "quantifier": "all metadata with names of one line", "why_tests_cant": "Unique readability of a text is a statement about all pairs of metadata.", "anchors": ["tools/dump.c:33-97", "common/common.c:80-92"]}
{"id": "C114", "title": "ulp dump --buildid prints only the build id", "statement": "With --buildid the text printed is the build id of the target library and nothing else.", "quantifier": "all metadata, all comments", "why_tests_cant": "Holds for all metadata or not; a test sees one.", "anchors": ["tools/dump.c:33-122"]}
{"id": "C115", "title": "From descriptions to calls", "statement": "After any history of `ulp trigger` with containers packed from descriptions, of reverting them, of reverting all patches of a library, of checks and of enabling and disabling live patching, as long as no internal error was recorded, a call of a live-patchable function goes to the function which the newest description that is still applied names for it, or to the function's own body. Nothing left over in the metadata buffer from earlier requests matters.", "quantifier": "all descriptions, symbol tables, load addresses, histories and answers", "why_tests_cant": "The tests check single patches of the test suite; the claim spans the packer, the tool, the parser and libpulp, and any number of requests.", "anchors": ["tools/packer.c:512-905", "tools/packer.c:220-315", "tools/introspection.c:1436-1455", "common/common.c:251-508", "lib/ulp.c:182-213", "lib/ulp.c:634-750"]}
{"id": "C116", "title": "From descriptions to references", "statement": "Once a description has been applied, each reference in it holds the address at which the process has the variable it names: load address of the target plus the offset in its symbol table (or the one given); for thread-local variables, the TLS block number of the target and the offset in it.", "quantifier": "all descriptions, symbol tables, load addresses and earlier histories", "why_tests_cant": "A wrong offset, or a reference bound to another library, shows only with particular load addresses and symbol tables.", "anchors": ["tools/packer.c:197-218", "lib/ulp.c:634-750", "lib/symbol_loader.c:298-360"]}
{"id": "C117", "title": "Well-formed live patches are accepted", "statement": "After any history, if no error is recorded and nothing stands in the way (no thread in the allocator, build id matches, container loads, dependencies applied, not yet applied itself, metadata below 512 KiB), applying a well-formed description succeeds and records no error; reverting one that is applied and on which no other depends succeeds.", "quantifier": "all descriptions, histories and situations", "why_tests_cant": "Acceptance for every size of description depends on the limits of three buffers and on the state earlier requests left behind.", "anchors": ["tools/introspection.c:1891-1978", "lib/ulp.c:475-540", "lib/insn_queue.c:62-160"]}
{"id": "C118", "title": "Requests during the start of a process are harmless", "statement": "`ulp trigger` may be run while processes are starting. A request that meets a process whose libpulp reports to be loaded is served, refused or answered with \"try again\"; it does not crash the process, and it is refused if the user disabled live patching for that process with LIBPULP_DISABLE_ON_PATH, _USERS or _GROUPS.", "quantifier": "all executions of a starting process with any number of threads, all moments of a request", "why_tests_cant": "The window between the two constructors of libpulp is a few milliseconds wide; tests trigger patches long after the start.", "anchors": ["lib/ulp.c:58-63", "lib/interpose.c:257-380", "lib/Makefile.am:22-24"]}
{"id": "C119", "title": "Interposed functions always reach a function", "statement": "With libpulp preloaded, malloc, dladdr and the other eleven interposed functions may be called at any time, by any thread, by constructors that run before libpulp's, and from within dlsym; they never jump to address 0.", "quantifier": "all interleavings of any number of threads", "why_tests_cant": "Depends on the order in which the addresses are looked up, seen by another thread.", "anchors": ["lib/interpose.c:257-360", "lib/interpose.c:394-618"]}
{"id": "C120", "title": "Calls made before libpulp is ready are respected", "statement": "No request is granted while some thread is inside an interposed function of the allocator or loader, however early it entered it.", "quantifier": "all interleavings of any number of threads", "why_tests_cant": "Needs a thread that is older than libpulp's constructor.", "anchors": ["lib/interpose.c:371-420"]}
{"id": "C121", "title": "A command line of ulp means what it says", "statement": "Whatever the order and spelling of options and words (abbreviated, joined, mixed, after --), a correct command line runs the command it names with exactly the values given, the last one counting; any other exits with status 64 and runs nothing, and one that asks for help or the version exits with 0 and runs nothing.", "quantifier": "all command lines built from any options of a command in any spelling and any other words; all wrong options", "why_tests_cant": "The number of orders, abbreviations and joinings is unbounded; tests check a few fixed lines.", "anchors": ["tools/ulp.c:164-392", "tools/ulp.c:510-599", "tools/trigger.c:672-707"]}
{"id": "C122", "title": "The options of a command line are those of its command", "statement": "The options that are accepted are those of the command that is run, whatever values the options have and under whatever name the program was started.", "quantifier": "all command lines, all program names, all option values", "why_tests_cant": "A clash needs a value or program name equal to a command name, which no test uses.", "anchors": ["tools/ulp.c:164-176", "tools/ulp.c:533-538", "tools/ulp.c:352-360"]}
{"id": "C123", "title": "Commands that attach to processes are refused under ptrace_scope, and only they", "statement": "For an ordinary user and a level of Yama other than 0 the five commands that attach exit before touching a process, with status 1; every other command, user and level is unaffected.", "quantifier": "all command lines, users, levels of Yama", "why_tests_cant": "Needs the cross product of kernel settings, users and commands.", "anchors": ["tools/ulp.c:488-550", "tools/ptrace.c:637-655"]}
{"id": "C124", "title": "--disable-seccomp is accepted exactly with CAP_SYS_ADMIN", "statement": "ulp trigger --disable-seccomp goes on exactly if the permitted capabilities in /proc/self/status contain CAP_SYS_ADMIN, whatever the other fields of the file are.", "quantifier": "all capability sets, all other fields of the status file", "why_tests_cant": "A test runs with one capability set and one kernel's status file.", "anchors": ["tools/trigger.c:578-626", "tools/trigger.c:630-670"]}
{"id": "C125", "title": "ulp trigger with a user touches no process", "statement": "Every command line of ulp trigger that names a user ends with ENOSYS before a process is looked at.", "quantifier": "all spellings and values of -u, all other options", "why_tests_cant": "Tests try one line; the claim is about every way to write the option among others.", "anchors": ["tools/trigger.c:648-653", "tools/ulp.c:340-342"]}
{"id": "C126", "title": "The number given on the command line is the number used", "statement": "The number of retries and the time limit used are those written on the command line, and what is not a number is refused.", "quantifier": "all numbers and texts given to -r and --timeout", "why_tests_cant": "Wrapping shows only beyond 2^31, and trailing text is not tried.", "anchors": ["tools/ulp.c:299-306", "tools/ulp.c:376-388", "tools/ptrace.c:484-498"]}
{"id": "C127", "title": "A live patch is sent to the processes it fits, with a path they can open", "statement": "ulp trigger goes on to touch a process exactly if all functions of the live patch are in its container and the process has loaded the library of that name and build id, and otherwise reports which of these failed; what is sent is read by the process as that patch with the path of the container as seen from the process: /1/root/ for processes rooted in /proc, then --root, then the real path.", "quantifier": "all live patches, containers, prefixes, processes and sets of loaded libraries", "why_tests_cant": "Combinations of roots, prefixes, path lengths and loaded libraries are unbounded; tests use no prefix and one library.", "anchors": ["tools/trigger.c:86-134", "tools/introspection.c:1888-1980", "tools/introspection.c:2240-2362", "tools/introspection.c:2700-2751"]}
{"id": "C128", "title": "A process newer than the tool is left alone", "statement": "A process whose instruction queue has a version above the one of the tool is refused with EOLDULP before anything else is done, and the version plays no role for all others.", "quantifier": "all versions, processes and live patches", "why_tests_cant": "Tests run tool and library of one version.", "anchors": ["tools/insn_queue.c:128-172", "tools/trigger.c:97-102"]}
{"id": "C129", "title": "A thread entering a function while patches come and go continues correctly", "statement": "A thread that has called a livepatchable function and is stopped between any two instructions of the entry, for any number of apply, revert, revert-all, check and enable/disable requests, is never stuck in the entry, is through it after at most three instructions of its own, and goes on where calls of the function went at some moment between its call and then.", "quantifier": "all process images, histories of requests, functions, and interleavings of the thread's instructions with requests", "why_tests_cant": "Stopping a thread at each instruction of an entry between each pair of requests cannot be arranged in a test.", "anchors": ["lib/arch/x86_64/patch.c:41-169", "lib/ulp.c:1224-1259", "tools/introspection.c:1473-1616", "tools/introspection.c:1842-1870"]}
{"id": "C130", "title": "A reported success means that the live patch is in force", "statement": "When `ulp trigger` reports success for a process, then the last request libpulp served was the run's own one and was answered with 0, nothing is left in the instruction queue, and all calls of live-patchable functions go where they should after all requests that libpulp has accepted, in particular to the replacements of the patch just applied.", "quantifier": "for all process images, all sequences of earlier runs with any results, all failures of the tool at any step (stopping threads, writing buffers, running the routine, reading, executing or resetting the queue), all requests of other users between the attempts, and all numbers of retries", "why_tests_cant": "needs failures injected between every two steps of the tool, over unbounded histories of runs, attempts and other users", "anchors": ["tools/trigger.c:143-232", "tools/introspection.c:1675-1806", "tools/insn_queue.c:62-212", "lib/ulp.c:181-260"]}
{"id": "C131", "title": "Patches are in force as a whole or not at all, even when the tool fails midway", "statement": "After any number of runs of `ulp trigger`, whatever failed in them (other than a single write) and whatever they reported, all calls of live-patchable functions together go where they should after the requests that libpulp had accepted up to some moment: no patch is in force for some functions only, and none is skipped.", "quantifier": "for all process images, all sequences of runs, all failures at any step but in single writes, all requests of other users", "why_tests_cant": "unbounded interleavings of runs, failures and users; tests see only a few of the states in between", "anchors": ["tools/trigger.c:143-232", "tools/introspection.c:1675-1806", "tools/insn_queue.c:62-212", "lib/insn_queue.c:36-180"]}
{"id": "C132", "title": "A reported failure means that nothing changed", "statement": "When `ulp trigger` reports that a live patch could not be applied or reverted, the process is as it was before; and a failure in one run does not make all later runs fail.", "quantifier": "for all histories, all runs, all failures, all numbers of retries", "why_tests_cant": "failures in resetting the queue after it was executed cannot be provoked in tests, and their consequences show only in later runs", "anchors": ["tools/trigger.c:143-232", "tools/introspection.c:1675-1744", "tools/insn_queue.c:106-212", "lib/insn_queue.c:146-180"]}
{"id": "C133", "title": "Tools at work on the same process at the same time act one after the other", "statement": "Several runs of the tool (trigger, check, set_patchable) may be at work on the same process at the same time. At most one of them at a time runs libpulp's functions or changes the process, and no thread of the process runs meanwhile, even if tools are killed. Unless one is killed in that section, the process is at the end in the state in which the tools that got through would have left it one after the other, each with the answer it would have got then, so calls go to the newest patch applied.", "quantifier": "All interleavings of any number of tools with the process starting and ending threads, tools giving up, failing to detach, ending and being killed at any time outside of the section; all requests and states", "why_tests_cant": "Races between independent processes over ptrace cannot be enumerated by tests", "anchors": ["tools/introspection.c:1472-1616", "tools/introspection.c:1841-1870", "tools/introspection.c:1707-1801", "tools/insn_queue.c:174-212", "tools/ptrace.c:395-470"]}
{"id": "C134", "title": "ulp messages shows the log of one moment", "statement": "Run at any time while other tools have libpulp write messages, `ulp messages` either prints the newest messages of the log as of one moment between its start and its end, each of them whole, in order, none missing in between, and exits with 0; or it prints nothing and exits with 1. (Of messages without NUL bytes and not of exactly the size of the ring; the start of the process is over.)", "quantifier": "All interleavings of any number of tools, all messages, all ways in which attaching, reading piece by piece and detaching can fail", "why_tests_cant": "Whether a reader can see a message half written depends on who holds the main thread, in all schedules", "anchors": ["tools/messages.c:44-173", "lib/msg_queue.c:37-94", "tools/ptrace.c:241-289"]}
{"id": "C135", "title": "ulp messages looks at the process asked for", "statement": "With the number of a process after -p, `ulp messages` shows the messages of that process, and refuses anything that is not a number.", "quantifier": "All arguments", "why_tests_cant": "Tests try numbers of existing processes only", "anchors": ["tools/messages.c:146-153", "common/common.c:167-181"]}
{"id": "C136", "title": "No process can make ulp messages read outside of its buffer", "statement": "Whatever contents a process presents as its message queue, `ulp messages` reads only within its own copy of the ring.", "quantifier": "All contents of the structure", "why_tests_cant": "The contents are under control of the process and tests only see well-formed queues", "anchors": ["tools/messages.c:60-71"]}
{"id": "C137", "title": "No running thread ever sees a patch in part, whatever tools are at work", "statement": "Any number of tools may be at work on a process at the same time, any of their steps may fail (running a routine, finding, reading or resetting the queue), and they may give up or be killed at any point except in the middle of running a routine or executing the queue, with no single write failing. Whenever a thread of the process runs and no internal error is recorded, all calls together go where they should after the requests that libpulp had accepted up to some moment; after all requests if no queue is left over.", "quantifier": "All interleavings of any number of tools and threads, all requests, all failures", "why_tests_cant": "Needs all schedules of several tools combined with all failures", "anchors": ["tools/introspection.c:1472-1616", "tools/introspection.c:1841-1870", "tools/insn_queue.c:174-212", "tools/ptrace.c:500-625", "lib/ulp.c:451-536"]}
{"id": "C138", "title": "What the tool keeps about processes is released, each block once", "statement": "However many processes a command of ulp looks at, whatever these answer, and however often their threads are stopped, attempts fail and results are noted: the tool never releases a block twice, never releases or uses one that is not allocated, and at the end everything allocated for the processes is given back.", "quantifier": "all sequences of processes looked at and of work on them, all answers of the processes and the system at every read, all initial heaps", "why_tests_cant": "Tests see runs in which reads succeed; which block is freed depends on the position of the failing read, and a double free or a leak is rarely visible in a passing test.", "anchors": ["tools/introspection.c:182-254", "tools/introspection.c:1135-1378", "tools/introspection.c:1472-1620", "tools/introspection.c:1842-1870", "tools/patches.c:608-630", "tools/patches.c:182-200", "tools/trigger.c:226-239", "tools/check.c:42-144", "tools/messages.c:137-172"]}
{"id": "C139", "title": "A listing ends in order", "statement": "When the last process has been visited, the thread that lists processes has been waited for, its queue and all records are released, and the setting whether to use threads is as before the listing.", "quantifier": "all ways a listing can begin (process number, wildcard, /proc missing), all settings, all sequences of work", "why_tests_cant": "The case of /proc missing and the order of release and join are not reached by tests.", "anchors": ["tools/patches.c:138-203", "tools/pcqueue.c:115-125"]}
{"id": "C140", "title": "A refused description is explained", "statement": "For each description that ulp packer refuses, it prints the file name, the line, the column, the reason, that line of the description, and below it a mark from that column on; if a symbol is reported as not present in a file then it is not in that file, and the marked part is exactly that symbol; if something is missing after a colon that colon is marked.", "quantifier": "all descriptions, all files on disk, all options -t and -l", "why_tests_cant": "The column is computed in a dozen places, each with its own offsets, and printing walks the line again; tests have a few refused descriptions and do not look at what is marked.", "anchors": ["tools/packer.c:362-472", "tools/packer.c:512-899"]}
{"id": "C141", "title": "The line that is named is the one to blame", "statement": "If ulp packer refuses a description at some line then every description starting with the same lines gets the same message; if that line is emptied, no message is about it or a line before it; there is a message for each description that is not accepted, except those for which the behaviour of the program is undefined.", "quantifier": "all descriptions, all files on disk, all options -t and -l", "why_tests_cant": "It speaks about all continuations of a description and about pairs of descriptions.", "anchors": ["tools/packer.c:362-472", "tools/packer.c:512-899"]}
{"id": "C142", "title": "Killing the tool does not harm the process", "statement": "If the tool is killed at whatever moment of its work on a process, the process goes on as if the tool had never been there. (False: it does so only if the tool holds no thread. If the tool holds threads, the process stops, where the kernel delivers the signals that the threads were stopped for as ptrace(2) says; SIGCONT makes it go on unless the main thread had been given the registers of a routine of libpulp. If it had, the main thread never executes an instruction of the program again and the process dies of SIGTRAP.)", "quantifier": "for every schedule of threads, tool and kernel, every number of threads, every moment at which the tool is killed, every choice of the kernel whether a thread takes the signal it was stopped for, every later moment", "why_tests_cant": "the moment at which a signal reaches the tool is not under the control of a test, and what matters is every later moment", "anchors": ["tools/introspection.c:1472-1616", "tools/introspection.c:1841-1870", "tools/ptrace.c:390-470", "tools/ptrace.c:540-620", "lib/arch/x86_64/ulp_interface.S:40-73"]}
{"id": "C143", "title": "Killing the tool does not leave part of a patch visible", "statement": "If the tool is killed at whatever moment, a thread of the process that runs sees all calls go where they should after the requests that libpulp had accepted up to some moment: the whole of a patch or nothing of it. (True unless the tool is killed in the middle of a queue and the threads go on all the same: because somebody sends SIGCONT, or because the kernel forgets the signals that they were stopped for. Then a thread can run with one function patched and another not.)", "quantifier": "for every schedule of threads, tool and kernel, every program image, every sequence of well formed requests, every moment at which the tool is killed", "why_tests_cant": "needs the tool to be killed between two particular writes and a thread to run afterwards", "anchors": ["tools/insn_queue.c:174-212", "tools/introspection.c:1700-1800", "tools/ptrace.c:540-620"]}
{"id": "C144", "title": "The code that a live patch brings is the code in its container", "statement": "A live patch that was applied directs calls to the functions in the file that is its container. (True if that path was not opened before, or the file is still the one that was loaded. Once libpulp has opened a path, for a patch applied, refused or reverted since, every later live patch from that path brings the functions that were in the file then, and is reported as applied.)", "quantifier": "for every program image, every history of requests, of files being replaced, and of objects that the program opens and closes, every live patch, every patched function", "why_tests_cant": "needs a particular history of files and requests, and the answers are the same in all of them", "anchors": ["lib/ulp.c:246-253", "lib/ulp.c:263-275", "lib/ulp.c:288-298", "lib/ulp.c:419-429"]}
{"id": "C145", "title": "Code that calls are directed to stays in place", "statement": "Where a call of a live-patchable function goes, there is the function itself or code of one loaded object, and that object stays, unchanged and where it is, whatever requests are made later, succeed or fail, whatever files are replaced, whatever the program opens and closes.", "quantifier": "for every program image, every history of requests, files, and objects opened and closed by the program, every function, every later moment", "why_tests_cant": "quantifies over all later events; a test can only wait for some of them", "anchors": ["lib/ulp.c:246-253", "lib/ulp.c:288-298", "lib/ulp.c:419-429"]}
{"id": "C146", "title": "A refused live patch leaves nothing loaded", "statement": "If a live patch is refused then no new object is in the process. (True if it is refused because libpulp is busy, or because of the build id, a dependency, being applied already or a container that cannot be loaded, and for requests to revert. If it is refused later, for instance since a function is missing in the container, then the container stays loaded for good; so does the container of a patch that was reverted.)", "quantifier": "for every state of libpulp and of the loader, every live patch, every later history", "why_tests_cant": "the refusal that is reported says nothing about what is loaded, and the claim quantifies over all later histories", "anchors": ["lib/ulp.c:186-212", "lib/ulp.c:246-253", "lib/ulp.c:288-298", "lib/ulp.c:451-520"]}
{"id": "C147", "title": "Replacing live patches is all or nothing", "statement": "When `ulp trigger --revert-all=LIB PATCH` replaces the live patches of a library by a new one, then afterwards either the new one alone is in force for the library (success is reported), or the old ones still are (failure is reported); patches of other libraries stay.", "quantifier": "for every history of runs, every library, live patch, attempt and failure", "why_tests_cant": "Whether something is lost depends on what was applied before and on which of the two steps fails; tests replace patches by one that can be applied.", "anchors": ["tools/trigger.c:164-214", "tools/introspection.c:1746-1806", "lib/ulp.c:97-178"]}
{"id": "C148", "title": "Several live patches in one run are all in force at its end", "statement": "When `ulp trigger` is given a pattern that several live patches match, then all those for which it reports success are in force when it is done, and so are those that were in force before and were not to be reverted.", "quantifier": "for every history of runs, every number and order of live patches, with or without --revert-all", "why_tests_cant": "There are unboundedly many sets of live patches, histories and failures; tests try one or two live patches for a process.", "anchors": ["tools/trigger.c:262-367", "tools/trigger.c:85-252", "lib/ulp.c:97-178"]}
{"id": "C149", "title": "The order in which live patches are found does not matter", "statement": "When several live patches match the pattern, which of them are in force afterwards, and where calls go, does not depend on the order in which readdir returns the files.", "quantifier": "for every history of runs, every set of live patches and every order", "why_tests_cant": "The order of readdir is up to the file system and cannot be controlled by a test.", "anchors": ["tools/trigger.c:290-357", "lib/ulp.c:914-962", "lib/ulp.c:658-671"]}
{"id": "C150", "title": "Processes are selected by the name of their program", "statement": "`ulp patches -p <wildcard>` (and trigger, messages, set-patchable with -p) goes through exactly the live-patchable processes running a program whose name matches the wildcard; a number means the process of that number.", "quantifier": "All sets of processes, names, wildcards and matching functions, all contents of the static name buffer.", "why_tests_cant": "Which processes exist, how long their names are and what they renamed themselves to differs on every system; tests use one short-named program.", "anchors": ["common/common.c:118-145", "tools/patches.c:50-113", "tools/patches.c:138-178"]}
{"id": "C151", "title": "Exactly the processes with libpulp loaded are listed", "statement": "Without -p, the tool goes through exactly the processes that have libpulp loaded and initialised, once each, whatever other files processes have mapped.", "quantifier": "All sets of processes, all mapped files, all memory images.", "why_tests_cant": "A test cannot map all possible files into all possible processes; the failure needs a process that maps an unrelated file with libpulp.so in its path.", "anchors": ["tools/patches.c:206-225", "tools/patches.c:580-603", "tools/introspection.c:1282-1379"]}
{"id": "C152", "title": "Processes are selected by their owner", "statement": "With -u the tool goes through exactly the live-patchable processes of the users asked for, by name or number.", "quantifier": "All sets of processes, owners, user databases and wildcards.", "why_tests_cant": "Needs processes of several users, setuid programs and kernels without auditing.", "anchors": ["common/common.c:568-580", "tools/patches.c:77-92", "tools/patches.c:162-165"]}
{"id": "C153", "title": "The argument of ulp set_patchable means what it says", "statement": "`ulp set_patchable enable` and `disable` are understood in capital and small letters alike; any other word is refused with exit status 1, and no process is touched then.", "quantifier": "every argument, every set of processes and what happens to them", "why_tests_cant": "The argument is any string, and the two words are compared by different functions; a test tries the spellings its author thinks of.", "anchors": ["tools/set_patchable.c:run_set_patchable"]}
{"id": "C154", "title": "ulp set_patchable switches exactly the processes asked for", "statement": "After `ulp set_patchable` every live-patchable process of the programs (and users) asked for is as asked for if its threads could be stopped and the routine ran, unless it has an internal error; whatever goes wrong, no other process changes, and no process changes in any other way.", "quantifier": "every list of processes, states, wildcards, and every failure on the way", "why_tests_cant": "It is about all processes of a system at once and all failures at each of them.", "anchors": ["tools/set_patchable.c:run_set_patchable", "tools/set_patchable.c:enable_or_disable_patching", "tools/patches.c:process_list_next"]}
{"id": "C155", "title": "ulp set_patchable tells what it did", "statement": "A process said to be enabled or disabled now is so; exit status 0 means that all selected processes are as asked for; a process that is not, is named in the output.", "quantifier": "every list of processes, states, and every failure on the way", "why_tests_cant": "Failures to stop a process or errors in libpulp hardly occur in tests.", "anchors": ["tools/set_patchable.c:run_set_patchable", "tools/set_patchable.c:enable_or_disable_patching"]}
{"id": "C156", "title": "ulp livepatchable answers which libraries are livepatchable", "statement": "`ulp livepatchable FILE` exits with 0 exactly if FILE is a library built for livepatching (it has a table of patchable functions), and with 1, after a message, for any other file.", "quantifier": "every file, whatever its format and contents", "why_tests_cant": "Files of other formats, damaged files and files with unusual tables are not among the test cases.", "anchors": ["tools/livepatchable.c:run_livepatchable", "tools/post.c:find_section_by_name"]}
{"id": "C157", "title": "ulp post prepares a library or leaves it as it is", "statement": "`ulp post FILE` with exit status 0 has prepared the entries of all listed functions and changed nothing else; otherwise the file is as it was. Running it again changes nothing.", "quantifier": "every file with every table of functions and every table of symbols, and every failure to write", "why_tests_cant": "The tests run it on libraries built by the same build system, once.", "anchors": ["tools/post.c:run_post", "tools/post.c:nops_fixup", "tools/arch/x86_64/post-arch.c:merge_nops_at_addr"]}
{"id": "C158", "title": "Comments of a livepatch are those of its file", "statement": "The comments a command shows for a livepatch are the contents of its section .ulp.comments; a file without them, or that is no ELF file, has none.", "quantifier": "every file", "why_tests_cant": "Damaged files are not among the test cases.", "anchors": ["tools/patches.c:extract_ulp_comment_to_mem", "tools/elf-extra.c:get_elfscn_by_name", "tools/elf-extra.c:load_elf"]}
{"id": "C159", "title": "A patch reported as applied is in force", "statement": "While the check for a patch answers that it is applied, calls of the functions it replaces go to the replacements, also after the program has unloaded and loaded libraries; if not, applying it again puts it in force.", "quantifier": "every history of requests and every unloading and loading of a library, at the same place or elsewhere", "why_tests_cant": "The tests keep the target library loaded for the lifetime of the process.", "anchors": ["lib/ulp.c:__ulp_check_applied_patch", "lib/ulp.c:check_patch_sanity", "lib/interpose.c:dlclose", "lib/ulp.c:ulp_revert_all_units"]}
{"id": "C160", "title": "Reverting is safe whatever the program has loaded and unloaded", "statement": "Reverting a patch neither crashes the program nor changes anything but the entries of functions of the target library, whatever libraries the program has unloaded and loaded since.", "quantifier": "every sequence of requests, unloadings and loadings", "why_tests_cant": "Needs a plugin-like target and a particular order of events.", "anchors": ["lib/ulp.c:ulp_revert_all_units", "lib/arch/x86_64/patch.c:ulp_patch_addr", "lib/ulp.c:push_new_detour"]}
{"id": "C161", "title": "On POWER, calls of a patched function reach the newest patch", "statement": "After any history of successful and refused requests on a POWER process, a call of a livepatchable function executes, following the instructions at its entry and the stub in front of it, the replacement of the newest applied patch replacing it, or the function's own body if there is none.", "quantifier": "every image of functions prepared for livepatching, every history of requests fitting it, every contents of the stub's code", "why_tests_cant": "Depends on the encoding of the branch, the stub and the order of every apply and revert before.", "anchors": ["lib/ulp.c:__ulp_apply_patch", "lib/ulp.c:__ulp_revert_patches_from_lib", "lib/arch/powerpc64le/patch.c:ulp_patch_addr"]}
{"id": "C162", "title": "On POWER, reverting undoes exactly the patch", "statement": "On POWER, reverting an applied patch that no other depends on is accepted and makes the calls of every function reach what they would if the patch had never been applied; reverting all patches restores the entries of all functions byte for byte.", "quantifier": "every image, every history of requests, every stack of patches", "why_tests_cant": "Tests revert the top of a stack of one or two patches.", "anchors": ["lib/ulp.c:revert_all_detours", "lib/ulp.c:ulp_revert_patch", "lib/arch/powerpc64le/patch.c:ulp_patch_addr"]}
{"id": "C163", "title": "On POWER, requests write only stubs, entries and references", "statement": "On POWER, no history of requests changes a byte of the process other than the stubs and entries of the functions named by a request and the references declared by one.", "quantifier": "every image, every history of requests, every byte of memory", "why_tests_cant": "A test cannot compare all memory after every history.", "anchors": ["lib/arch/powerpc64le/patch.c:ulp_patch_addr", "lib/ulp.c:ulp_apply_all_units"]}
{"id": "C164", "title": "On POWER, references of a livepatch lead to the target's data", "statement": "After a successful apply on POWER, each reference declared by the patch holds the address of the target's datum, and for a thread-local one the pair of module and offset with which the thread library computes the address of that datum, taking its bias of the offset into account.", "quantifier": "every process, patch and list of references", "why_tests_cant": "The tests have one library and one module index.", "anchors": ["lib/ulp.c:ulp_apply_all_units", "include/arch/powerpc64le/arch_common.h"]}
{"id": "C165", "title": "On POWER, a refused apply leaves the process as it was", "statement": "When an apply request is refused on POWER, the code of the process is as it was before.", "quantifier": "every process and every request that is refused", "why_tests_cant": "Tests check the error code of a refusal and not the bytes in front of the function.", "anchors": ["lib/ulp.c:load_patch", "lib/arch/powerpc64le/patch.c:209-224"]}
{"id": "C166", "title": "An applied patch runs the code of its container file", "statement": "After a successful apply, calls of the replaced functions run the code that the container file holds at the time of the request, also if another container was applied and reverted from the same path before.", "quantifier": "every history of requests and of loading by the program, every sequence of contents of the file", "why_tests_cant": "Tests never replace a container file while the process runs.", "anchors": ["lib/ulp.c:load_so_handlers", "lib/ulp.c:load_so", "lib/ulp.c:unload_handlers"]}
{"id": "C167", "title": "A refused patch loads nothing", "statement": "When an apply request is refused, the container of the patch has not been loaded into the process, so none of its code has run.", "quantifier": "every process, file and request", "why_tests_cant": "Tests look at the exit code of a refused patch.", "anchors": ["lib/ulp.c:parse_metadata", "lib/ulp.c:load_patch"]}
{"id": "C168", "title": "Code that calls were redirected to stays loaded", "statement": "Wherever calls of a function are redirected to, the object with that code stays loaded at the same address, whatever is reverted, applied or closed by the program later, so that threads still in it can return.", "quantifier": "every history of requests and of loading by the program", "why_tests_cant": "A thread inside a replaced function at the time of a revert is a race.", "anchors": ["lib/ulp.c:unload_handlers", "lib/ulp.c:ulp_revert_patch", "lib/ulp.c:load_so_handlers"]}
{"id": "C169", "title": "A request that is cut short has no effect on later requests", "statement": "If a signal makes the tool give the borrowed thread back before `__ulp_apply_patch` has finished, later requests behave as if the cut request had not been made or had been completed: they do what they ask for, they are answered truthfully, and no patch is applied in place of another.", "quantifier": "Every process state between requests, every patch description, every step of the routine at which the thread can be taken away, every following request and history of requests.", "why_tests_cant": "A test would have to deliver a signal at each instruction of a routine that runs for microseconds in another process, and then try every possible next request.", "anchors": ["lib/ulp.c:181-212", "lib/ulp.c:306-327", "lib/ulp.c:474-532", "common/common.c:263-528", "tools/ptrace.c:574-612", "tools/introspection.c:1842-1872"]}
{"id": "C170", "title": "A patch is in force wholly or not at all even if a signal arrives", "statement": "Whenever the tool gives the borrowed thread back, either all functions of the patch of the request are replaced or none is.", "quantifier": "Every image and history of requests, every patch, every step of the routine at which the thread can be taken away.", "why_tests_cant": "The number of instants at which a signal may arrive, times the number of patches and histories, cannot be tried; the window is microseconds long.", "anchors": ["lib/ulp.c:634-679", "lib/ulp.c:474-502", "tools/introspection.c:1718-1741", "tools/ptrace.c:574-612"]}
{"id": "C171", "title": "A request that is not refused comes to an end", "statement": "A live patch request that libpulp does not refuse as busy always finishes: it never waits for a lock of the C library that a thread of the stopped process holds.", "quantifier": "Every number of threads, every history of calls of library functions by them, every instant at which the tool stops them, every thread chosen to serve, every size of patch.", "why_tests_cant": "Whether a thread is inside a given library function when it is stopped depends on timing that a test cannot control, and a test that passes says nothing about the other functions and instants.", "anchors": ["lib/interpose.c:370-388", "lib/interpose.c:88-98", "lib/msg_queue.c:142-178", "lib/arch/x86_64/patch.c:157-164", "common/common.c:504-506", "lib/ulp.c:181-212"]}
{"id": "C172", "title": "Colours only colour", "statement": "Whatever the tool reports on a terminal, turning colours on changes only how the text looks: the terminal shows exactly the characters that are written without colours, only the words that tell an outcome or a status stand out, each in the colour of that outcome, and after the output the terminal is in the state it was in before. Nothing that a process or a file is called can change the look of the terminal.", "quantifier": "For every list of processes, results, patches, statuses, libraries and names, every message of the packer, and every terminal that follows the standard for such sequences.", "why_tests_cant": "Tests run without a terminal and compare plain text. Whether each path of the printing code switches back, for all combinations of results, and what a terminal makes of the bytes, is not seen by them.", "anchors": ["tools/trigger.c:370-475", "tools/patches.c:510-577", "tools/packer.c:378-460", "tools/ulp.c:395-420", "include/terminal_colors.h"]}
{"id": "C173", "title": "Colours are used when asked for, or when they are of use", "statement": "Without an option, and with --color=auto, colours are used exactly if standard output is a terminal that is not dumb and NO_COLOR is not set. --color=yes and --color=no turn them on and off, the last one given counts, and other words are refused.", "quantifier": "For every environment and every sequence of such options.", "why_tests_cant": "Environment, terminal and options combine without bound; tests have no terminal.", "anchors": ["tools/ulp.c:362-373", "tools/ulp.c:395-411", "tools/ulp.c:527-539"]}
{"id": "C174", "title": "--quiet is quiet", "statement": "A command given --quiet (\"Don't produce any output\") writes nothing to its standard output and standard error.", "quantifier": "For every command that takes the option, every list of processes and results, and every failure.", "why_tests_cant": "The failures that make the tool speak anyway cannot be provoked by tests, and tests do not look at the output of quiet commands.", "anchors": ["tools/trigger.c:489-566", "tools/patches.c:649-668", "tools/check.c:43-144", "tools/introspection.c:85-127", "include/ulp_common.h:268-276"]}
{"id": "C175", "title": "ulp patches shows each live patch on a line of its own", "statement": "Every applied live patch that ulp patches shows has a line of its own in the output, with its name and the time when it was applied.", "quantifier": "For every list of processes, libraries and applied live patches, of old and new versions of libpulp.", "why_tests_cant": "Tests use processes with the libpulp just built, never one that does not record the time.", "anchors": ["tools/patches.c:373-396", "tools/patches.c:289-371"]}
{"id": "C176", "title": "A request is carried out on the program that was looked at", "statement": "The addresses at which the tool writes are those of the program that the process runs at the time of the writing: if a process starts another program, or ends and its number is used again, nothing is written at addresses taken from the old one.", "quantifier": "every system of processes and tools, every order of their steps, every program started in between", "why_tests_cant": "The window between collecting the data of a process and stopping it is open in every run, and whether a process starts another program in it is a matter of timing.", "anchors": ["tools/patches.c:49-113", "tools/patches.c:608-629", "tools/introspection.c:1336-1379", "tools/introspection.c:1472-1611"]}
{"id": "C177", "title": "A request changes the asked process and no other", "statement": "While tools are at work, the memory of every process that no tool has stopped changes by its own doing only, and the memory of a stopped process by the writes of the one tool that has stopped it.", "quantifier": "every system of processes and tools, every order of their steps, including forks, new processes, and deaths", "why_tests_cant": "Processes that share memory exist for moments only (vfork, posix_spawn), and a test sees the processes it started.", "anchors": ["tools/introspection.c:1472-1611", "tools/introspection.c:1401-1423", "tools/introspection.c:1841-1893"]}
{"id": "C178", "title": "No running process, and no child at its birth, has a request in part", "statement": "While a process runs, no request to its memory is under way, no two tools are at work in one memory, and a child that is forked starts with a memory in which every request is whole and goes its own way from there.", "quantifier": "every system of processes and tools, every order of their steps", "why_tests_cant": "A child born in the middle of a request would need a fork at one of a few instructions.", "anchors": ["tools/introspection.c:1472-1611", "tools/introspection.c:1841-1893"]}
{"id": "C179", "title": "A description of a library is read as it says, or refused", "statement": "`ulp packer` reads the JSON description of a library from any file: if all that it needs is there, the library is what the description says, whatever the order of the entries and whatever else is in the file; if anything is missing or of a wrong kind, the description is refused.", "quantifier": "every JSON tree, every file content for the choice between ELF and JSON", "why_tests_cant": "A test has the descriptions that `ulp extract` writes; files that were edited, cut or made by other programs are without number.", "anchors": ["tools/extract.c:391-441", "tools/extract.c:497-548", "tools/extract.c:560-586"]}
{"id": "C180", "title": "Threads that log at the same time stay within the ring", "statement": "The message log has no lock. However the steps of any number of threads that log any messages at the same time follow on each other, no thread reads or writes outside of the ring buffer, and the positions that the log records are within it.", "quantifier": "For every size of ring, every number of threads, all messages without NUL bytes and every order of their steps.", "why_tests_cant": "A test runs a few threads; the orders of steps that matter are rare and cannot be chosen.", "anchors": ["lib/msg_queue.c:33-94", "lib/msg_queue.c:101-131", "lib/arch/powerpc64le/patch.c:265-320"]}
{"id": "C181", "title": "A thread that logs comes to an end whatever others log", "statement": "Every thread that logs a message comes to the end of it after a bounded number of steps of its own, whatever other threads log at the same time, and the length that the log records never exceeds the ring.", "quantifier": "For every size of ring, every number of threads, all messages and every order of their steps.", "why_tests_cant": "The hang needs a certain order of the steps of three threads and a ring that holds NUL bytes only.", "anchors": ["lib/msg_queue.c:37-94", "lib/msg_queue.c:101-131", "lib/msg_queue.c:142-178", "include/msg_queue.h:63-77"]}
{"id": "C182", "title": "Messages logged at the same time are shown whole", "statement": "Messages that threads log, be it at the same time, are shown whole, each as often as it was logged, and nothing is shown that nobody logged.", "quantifier": "For every size of ring, all messages and every order of the steps of the threads.", "why_tests_cant": "A test cannot choose the order of the steps of threads, let alone try all of them.", "anchors": ["lib/msg_queue.c:33-94", "lib/msg_queue.c:101-131", "tools/messages.c:59-70"]}
{"id": "C183", "title": "The log says what went wrong", "statement": "When libpulp finds an error (libpulp_errx, set_libpulp_error_state_with_reason) or warns (WARN, DEBUG), the log that ulp messages shows afterwards says where and what, with the arguments given in the text, and the error state is the one that the error calls for.", "quantifier": "For all texts, arguments, places, contents of memory and of the log before, on both architectures.", "why_tests_cant": "No test provokes these errors; that a va_list is handed to a function that takes arguments is not diagnosed by the compiler, and what is shown instead depends on the architecture.", "anchors": ["lib/error.c:60-74", "lib/error.c:87-100", "lib/msg_queue.c:101-131", "lib/msg_queue.c:140-178", "lib/symbol_loader.c:203-204", "lib/interpose.c:276-342"]}
{"id": "C184", "title": "Libraries that stay loaded are seen while others come and go", "statement": "When a tool looks at a process whose other threads load and unload libraries meanwhile, it sees every library that is loaded all the time.", "quantifier": "Every list of loaded libraries, every interleaving of the reads of the tool with loading, unloading and reuse of memory.", "why_tests_cant": "A test has to unload a library between two particular reads of the tool and have its memory reused; no test controls this.", "anchors": ["tools/introspection.c:parse_libs_dynobj", "tools/introspection.c:get_libname_dynobj", "tools/introspection.c:dig_main_link_map", "tools/introspection.c:initialize_data_structures"]}
{"id": "C185", "title": "A listing shows the live patches of one moment", "statement": "The live patches that ulp patches shows of a process are all those applied to it at one moment while the command ran, and those in force at this moment, whatever other tools do to the process meanwhile.", "quantifier": "Every number of tools at work on the process, every interleaving of their steps with the reads of the listing, every history before.", "why_tests_cant": "A test has no control over how the reads of one tool fall between the steps of others.", "anchors": ["tools/introspection.c:ulp_read_state", "tools/introspection.c:read_ulp_applied_patch", "tools/introspection.c:hijack_threads"]}
{"id": "C186", "title": "Descriptions are made by a bounded number of jobs, one for each library", "statement": "When setup_package.sh makes the descriptions of the libraries of a package in parallel, there are never more jobs than processors, it never gets stuck, and in the end there was one job for each library.", "quantifier": "all numbers of processors, all directories and libraries, all results of jobs, all orders in which jobs end", "why_tests_cant": "Which interleavings occur depends on timing; a test sees a few of them.", "anchors": ["scripts/setup_package.sh:82-118", "scripts/setup_package.sh:618-690"]}
{"id": "C187", "title": "A description that could not be made is noticed", "statement": "When the description of a library cannot be made, setup_package.sh stops or ends with a failure (false: the status handed back is that of a counter).", "quantifier": "all results of all jobs, all orders", "why_tests_cant": "A test would have to make extraction fail in each way and at each place; the claim is about every combination of failures.", "anchors": ["scripts/setup_package.sh:97-118", "scripts/setup_package.sh:589-616"]}
{"id": "C188", "title": "Only the packages asked for are taken", "statement": "setup_package.sh takes from the list of a repository exactly the packages of the name and architecture asked for, and stops if there are none (false: any name that ends in the one asked for will do).", "quantifier": "all lists of packages, all names and architectures", "why_tests_cant": "The contents of repositories change; a test has one list.", "anchors": ["scripts/setup_package.sh:240-251", "scripts/setup_package.sh:885-893"]}
{"id": "C189", "title": "A package's file is named after it", "statement": "The parts of a package that setup_package.sh works with are those of the list, the file is name-version-release.arch.rpm, and different packages have different files.", "quantifier": "all packages", "why_tests_cant": "There are unboundedly many names and versions, with hyphens and dots in them.", "anchors": ["scripts/setup_package.sh:218-238"]}
{"id": "C190", "title": "Packages past their support are dropped by age", "statement": "setup_package.sh drops exactly the packages older than thirteen months, unless asked not to (false for times with different numbers of digits: they are compared as texts).", "quantifier": "all times of files and all limits", "why_tests_cant": "The comparison depends on two times out of an unbounded range; tests run at one time.", "anchors": ["scripts/setup_package.sh:938-951"]}
{"id": "C191", "title": "Libraries that cannot or need not be described are passed over", "statement": "A live-patchable library with its debug information is described from both into the file named after it; one without, or one that is not live-patchable, is passed over (false for the latter: continue has no effect in a function).", "quantifier": "all paths of libraries, all numbers of debug files", "why_tests_cant": "Holds for every set of files that a package may contain, and through the option parser of the tool.", "anchors": ["scripts/setup_package.sh:565-616", "tools/ulp.c:270-420"]}
{"id": "C192", "title": "A waiting system call goes on after live patching", "statement": "A thread of the target that waits in a system call when a tool stops the process goes on waiting in that call, with the same arguments, after the tool ran routines of libpulp in it and let it go. False for calls that the kernel does not restart after a stop, such as epoll_wait: the program sees EINTR. A thread in no system call has its general registers back.", "quantifier": "all threads, registers, system calls and error codes, all sequences of routines run in one hijack and all effects of their functions", "why_tests_cant": "Tests live patch a handful of programs that wait in usleep or read; which call is interrupted when depends on timing, and the error code that the kernel leaves in rax is never seen by a test.", "anchors": ["tools/ptrace.c:500-575", "tools/introspection.c:1552", "tools/introspection.c:1857", "lib/arch/x86_64/ulp_interface.S:40-73"]}
{"id": "C193", "title": "The registers of a thread are as before live patching", "statement": "A thread in which routines of libpulp were run goes on with the registers that it had when it was stopped. Holds for the general registers, and for threads in which nothing was run; false for the vector and floating-point registers of the main thread, which are neither saved nor restored.", "quantifier": "all threads, registers and effects of functions", "why_tests_cant": "A test would have to stop a program at an instruction that uses vector registers, and to notice a wrong result; the test programs wait in system calls, where these registers are dead.", "anchors": ["tools/ptrace.c:449-467", "tools/introspection.c:1552", "tools/introspection.c:1857"]}
{"id": "C194", "title": "Routines are entered as the calling convention requires", "statement": "However and wherever the main thread was interrupted, the function that a routine calls is entered once, with the stack aligned and the direction flag clear. The alignment always holds; the direction flag is as in the interrupted code.", "quantifier": "all registers of the interrupted thread, all routines and functions", "why_tests_cant": "The direction flag is set only within a few instructions of some copy loops; no test stops a program there.", "anchors": ["tools/ptrace.c:524-564", "lib/arch/x86_64/ulp_interface.S:40-73"]}
{"id": "C195", "title": "errno is as before live patching", "statement": "A program that looks at errno after a failed call finds the error number of that call, also if it was live patched in between. False: the functions that are run in the main thread set errno (read_data sets it to zero, dlopen and open may fail), and nothing puts it back.", "quantifier": "all threads, error numbers and effects of functions", "why_tests_cant": "Needs a stop between the failure of a call and the look at errno, a window of a few instructions.", "anchors": ["lib/ulp.c:347", "lib/ulp.c:422", "lib/insn_queue.c:239", "tools/introspection.c:1857"]}
{"id": "C196", "title": "On POWER, a routine calls its function once, as the ABI requires", "statement": "Wherever the main thread was stopped, in a system call that the kernel restarts or not, the routine that the tool runs in it enters its function exactly once, with libpulp's table of contents in r2 and an aligned stack, and reaches its trap with the function's result, memory and the link register as they should be.", "quantifier": "all registers and memories of the thread, all places of the routine and of the table of contents within reach, all functions that obey the ABI", "why_tests_cant": "Whether the kernel moves the program counter back depends on the system call that was interrupted and on the instruction it was made with (sc or scv); a test on one machine sees one case.", "anchors": ["lib/arch/powerpc64le/ulp_interface.S:34-123", "include/arch/powerpc64le/arch_common.h:14", "include/arch/powerpc64le/arch_common.h:47", "tools/ptrace.c:524-564"]}
{"id": "C197", "title": "On POWER, the stack of the interrupted thread is as before", "statement": "After live patching the stack of the thread in which routines were run is as before, including the 288 bytes below the stack pointer that functions may use without moving it.", "quantifier": "all threads, all lists of routines, all functions that obey the ABI", "why_tests_cant": "A test program that waits in a system call uses nothing below its stack pointer.", "anchors": ["lib/arch/powerpc64le/ulp_interface.S:34-123", "include/arch/powerpc64le/arch_common.h:8", "tools/ptrace.c:545"]}
{"id": "C198", "title": "On POWER, a thread goes on with the registers of a mere stop", "statement": "The general registers, link register and condition bits with which a thread goes on after routines were run in it are those with which it would have gone on had it only been stopped: a waiting call that is restarted is made again with the same arguments, and a thread in no call has all registers back.", "quantifier": "all registers, ways into the kernel, errors, all lists of routines and functions", "why_tests_cant": "As for C192: timing decides.", "anchors": ["tools/ptrace.c:449-467", "tools/introspection.c:1552", "tools/introspection.c:1857", "lib/arch/powerpc64le/ulp_interface.S:34-123"]}
{"id": "C199", "title": "No process can keep the tools busy for ever", "statement": "Whatever is in the memory of a process, a tool that inspects it (program headers, dynamic sections, link map, names, symbols, notes, list of applied live patches) comes to a result, so that the process, which is stopped meanwhile, goes on.", "quantifier": "all contents of the memory of the process, of any size", "why_tests_cant": "A test has a process with memory as the loader and libpulp left it; nothing tells from it whether a loop over pointers read from there ends for every memory, and a test of a loop that does not end has no end either.", "anchors": ["tools/introspection.c:379-419", "tools/introspection.c:645-752", "tools/introspection.c:1243-1325", "tools/introspection.c:2536-2650", "tools/ptrace.c:357-392"]}
{"id": "C200", "title": "The file of a program is found among the mappings of its process", "statement": "Of a process whose program is not position-independent (load bias 0), the tools take the address at which the file of the program is mapped first for the place of its ELF header, and find nothing only if it is not mapped; of any other object it is the load bias.", "quantifier": "all names of programs, all lists of mappings of any length, with any paths, as the kernel shows them", "why_tests_cant": "Tests run one program with one path; that the text of /proc/pid/maps is split right depends on the paths of all files that a process maps and on the name that the kernel keeps of it.", "anchors": ["tools/introspection.c:533-587", "tools/introspection.c:1143-1157", "common/common.c:117-145"]}
{"id": "C201", "title": "Looking for a program among the mappings has no undefined behaviour", "statement": "Whatever a process is called and whatever files it has mapped, the tools read only within the text of its mappings.", "quantifier": "all names, all lists of mappings with any paths, as the kernel shows them", "why_tests_cant": "A read outside of the buffer happens only with paths that no test has, and need not show even then.", "anchors": ["tools/introspection.c:552-586", "common/common.c:51-62"]}
{"id": "C202", "title": "The version that the tools work with is the one libpulp has", "statement": "When a tool looks at a process, the version of libpulp that it works with, and by which it chooses the layout of the structures in the process, is the one whose text libpulp exports: of two libpulps the tool finds the newer one newer, and never takes one for another.", "quantifier": "for all version texts, at all addresses of all processes, whatever was in the tool's buffer before", "why_tests_cant": "Tests run against the one libpulp that was built with the tool, whose version is one fixed text", "anchors": ["tools/introspection.c:934-939", "common/common.c:582-604", "lib/ulp.c:53", "tools/ptrace.c:315-345"]}
{"id": "C203", "title": "Reading the version of libpulp stays within what has been read", "statement": "Whatever a process has where the version of libpulp should be, reading the version neither uses bytes of the tool's buffer that were never set nor bytes behind the buffer.", "quantifier": "for all contents of memory, all addresses, all sets of readable addresses and all former contents of the buffer", "why_tests_cant": "Tests use a process with a proper version text; what an uninitialised buffer holds differs from run to run", "anchors": ["tools/introspection.c:934-939", "tools/ptrace.c:315-345"]}
{"id": "C204", "title": "On POWER, a thread entering a function while patches come and go continues correctly", "statement": "On POWER, a thread that has called a livepatchable function and is stopped at any instruction of its entry, of the stub in front of it or of the start of the trampoline, while any number of live patches are applied and reverted, is never left at an instruction that is not the one it was about to execute, is through after a bounded number of instructions, and goes on where calls of the function went at some moment since its call.", "quantifier": "for all process images, all histories of requests before and during the call, all places where the thread is stopped, all functions with or without setup of the TOC pointer", "why_tests_cant": "Tests cannot stop a thread at each of the sixteen instructions of an entry, and run on x86-64", "anchors": ["lib/arch/powerpc64le/ulp_prologue.S:46-52", "lib/arch/powerpc64le/ulp_prologue.S:250-287", "lib/arch/powerpc64le/patch.c:91-224", "lib/ulp.c:1224-1259", "tools/introspection.c:1842-1870"]}
{"id": "C205", "title": "From descriptions to calls, on POWER", "statement": "On POWER, after any history of `ulp trigger` with containers packed from descriptions, of reverting them, of reverting all patches of a library, of checks and of enabling and disabling live patching, as long as no internal error was recorded, a call of a live-patchable function, whether it starts with its NOP or with the setup of its TOC pointer, goes to the function which the newest description that is still applied names for it, or to the function's own body.", "quantifier": "all descriptions, symbol tables, load addresses, process images, histories and answers", "why_tests_cant": "The claim spans the packer, the tool, the parser and libpulp and any number of requests; the stub and the branch are written separately, and only tests on POWER would run them", "anchors": ["tools/packer.c:512-905", "common/common.c:251-508", "lib/ulp.c:182-213", "lib/ulp.c:634-750", "lib/arch/powerpc64le/patch.c:91-224"]}
{"id": "C206", "title": "From descriptions to references, on POWER", "statement": "On POWER, once a description has been applied, each reference in it holds the address at which the process has the variable it names; one to a thread-local variable holds the number of the target's TLS block and an offset with which `__tls_get_addr` gives the variable's place in that block of the calling thread.", "quantifier": "all descriptions, symbol tables, load addresses, TLS blocks and earlier histories", "why_tests_cant": "The offset of thread-local variables is shifted by 0x8000 on POWER only; a wrong shift shows only with thread-local references there", "anchors": ["tools/packer.c:197-218", "lib/ulp.c:634-750", "lib/symbol_loader.c:298-360", "include/arch/powerpc64le/arch_common.h:5"]}
{"id": "C207", "title": "Well-formed live patches are accepted on POWER", "statement": "On POWER, after any history, if no error is recorded and nothing stands in the way (no thread in the allocator, build id matches, container loads, dependencies applied, not yet applied itself, metadata below 512 KiB), applying a well-formed description succeeds and records no error, although a function takes more than twice the room in the queue that it takes on x86-64; reverting one that is applied and on which no other depends succeeds.", "quantifier": "all descriptions, histories and situations", "why_tests_cant": "Whether the largest description that fits the metadata buffer also fits the queue of instructions depends on the sizes of three buffers and of the writes of an architecture", "anchors": ["tools/introspection.c:1891-1978", "lib/ulp.c:475-540", "lib/insn_queue.c:62-160", "lib/arch/powerpc64le/patch.c:209-224"]}
{"id": "C208", "title": "ulp patches shows when a live patch was applied", "statement": "`ulp patches` shows each live patch whose target is loaded with the time at which it was applied, if libpulp in the process keeps that time (since 0.3.1), and without one if it does not. FALSE of a libpulp whose version has a suffix (as 0.3.17-rc1): its version is taken to be 0, and no live patch of the process is shown with a time.", "quantifier": "all processes, versions, lists of applied live patches and of objects", "why_tests_cant": "The tool and libpulp of one build are tested together; another version, or a suffix, means another libpulp in the process than the tool was built with", "anchors": ["tools/introspection.c:934-942", "tools/introspection.c:2536-2583", "tools/patches.c:377-396", "tools/patches.c:538-577", "common/common.c:583-628"]}
{"id": "C209", "title": "A function is never left half redirected on x86-64", "statement": "If the tool ends (is killed, or a request fails) at whatever ptrace request of the writes that change the entry of a function, a call of the function goes where it went before or where it goes after. (True when an unpatched function is patched and when a replacement is taken back. False when a patched function is patched anew: the address is written by two words, and between them calls go to an address whose two lowest bytes are those of the new replacement and whose others are those of the old one, which is neither of them unless both are in the same aligned 64 KiB or at the same place in theirs.)", "quantifier": "for every memory, every function with or without endbr64, every pair of replacements, every request at which the tool ends, words being written whole or up to a page boundary", "why_tests_cant": "needs the tool to be killed between two particular ptrace requests of the same write and a thread to call the function afterwards; which addresses are reached depends on where the livepatches are loaded", "anchors": ["tools/ptrace.c:write_bytes_ptrace", "tools/insn_queue.c:38-48", "lib/arch/x86_64/patch.c:115-169"]}
{"id": "C210", "title": "A function is never left half redirected on POWER", "statement": "The same on POWER, where a stub of 52 bytes in front of the function and then the instruction at its entry are written. (True when an unpatched function is patched and when a replacement is taken back. False when a patched function is patched anew: the address in the stub is written by halves, and between them calls go to the lower half of the new address combined with the upper half of the old one, which is neither unless both are in the same aligned 4 GiB or at the same place in theirs.)", "quantifier": "for every memory, every function with or without setup of its TOC pointer, every pair of replacements, every request at which the tool ends, words being written whole or up to a page boundary", "why_tests_cant": "needs the tool to be killed between two particular ptrace requests on a POWER machine with livepatches loaded more than 4 GiB apart", "anchors": ["tools/ptrace.c:write_bytes_ptrace", "tools/insn_queue.c:38-48", "lib/arch/powerpc64le/patch.c:209-224"]}
{"id": "C211", "title": "References of a livepatch are set by the time its functions are called", "statement": "At every moment at which the tool may end while executing libpulp's queue (between two writes), a call that reaches a function of the livepatch finds the references of the livepatch set. The code queues the entries of all functions first: there always is a moment at which all functions are redirected and no reference is set. While a livepatch is reverted its references stay as they are at every moment, and once the queue is executed the process is in the state that follows the request.", "quantifier": "all process images, all histories of requests, all fitting livepatches, all numbers of writes made", "why_tests_cant": "Needs the tool to be killed between two particular writes to the process, for any history and any number of functions and references.", "anchors": ["lib/ulp.c:634-753 ulp_apply_all_units", "tools/insn_queue.c:172-209 insnq_interpret_from_process_"]}
{"id": "C212", "title": "References of a livepatch are set by the time its functions are called, on POWER", "statement": "As C211 in a process on POWER, where each function takes two writes: there always is a moment at which all functions of the livepatch are redirected and none of its references is set; while a livepatch is reverted its references stay as they are at every moment, and once the queue is executed the process is in the state that follows the request.", "quantifier": "all process images on POWER, all histories of requests, all fitting livepatches, all numbers of writes made", "why_tests_cant": "Needs POWER hardware and the tool to be killed between two particular writes to the process, for any history.", "anchors": ["lib/ulp.c:634-753 ulp_apply_all_units", "lib/arch/powerpc64le/patch.c:209-224 ulp_patch_addr", "tools/insn_queue.c:172-209 insnq_interpret_from_process_"]}
{"id": "C213", "title": "A reference of a livepatch is right or as it was before", "statement": "Wherever the tool ends (killed or failing) while it writes the references of a livepatch, each of them holds what it is to hold, or what it held before. So it is for references to ordinary variables, which take one word. The reference to a thread-local variable takes two words: there always is a request at which the tool may end so that the reference holds the variable's module and another offset, referring to another place of that module. If the tool gets to its end, all references are right.", "quantifier": "all lists of references that do not overlap, all contents of memory, all requests at which the tool may end, x86-64 and POWER", "why_tests_cant": "Needs the tool to be killed between two particular ptrace requests, for any number of references.", "anchors": ["lib/ulp.c:719-750 ulp_apply_all_units", "tools/ptrace.c:110-143 write_bytes_ptrace", "tools/insn_queue.c:38-48"]}
{"id": "C214", "title": "A tool that ends before making the changes leaves a process that is lost for livepatching", "statement": "If the tool of a request to apply or revert ends after libpulp has answered and before it executes the queue, nothing in the memory of the program has changed. The next request to apply or revert anything is refused with EINSNQ, and yet its tool makes exactly the changes of the request that was abandoned. From then on every request to apply or revert is refused, and nothing changes any more.", "quantifier": "every state, every history of requests before and afterwards, every request that is abandoned and every next one, x86-64 and POWER", "why_tests_cant": "The tool has to be killed between two of its steps, and the claim is about all later requests.", "anchors": ["lib/ulp.c:97-212 __ulp_revert_patches_from_lib, __ulp_apply_patch", "lib/insn_queue.c:163-177 insnq_ensure_emptiness", "tools/introspection.c:1722-1741,1783-1801", "tools/insn_queue.c:174-212"]}
{"id": "C215", "title": "On POWER, a reported success means that the live patch is in force", "statement": "When `ulp trigger` reports success for a process on POWER, then the last request libpulp served was the run's own one and was answered with 0, nothing is left in the instruction queue, and all calls of live-patchable functions, made through their global entry, go where they should after all requests that libpulp has accepted, in particular to the replacements of the patch just applied.", "quantifier": "for all process images on POWER and prologue templates of 44 bytes, all sequences of earlier runs with any results, all failures of the tool at any step, all requests of other users between the attempts, and all numbers of retries", "why_tests_cant": "needs a POWER machine and failures injected between every two steps of the tool, over unbounded histories of runs, attempts and other users", "anchors": ["tools/trigger.c:143-232", "tools/introspection.c:1675-1806", "tools/insn_queue.c:62-212", "lib/ulp.c:181-260", "lib/arch/powerpc64le/patch.c:73-232"]}
{"id": "C216", "title": "On POWER, patches are in force as a whole or not at all, even when the tool fails midway", "statement": "After any number of runs of `ulp trigger` on a process on POWER, whatever failed in them (other than a single write) and whatever they reported, all calls of live-patchable functions together go where they should after the requests that libpulp had accepted up to some moment: neither the prologues nor the branches to them are in force for some functions only.", "quantifier": "for all process images on POWER, all sequences of runs, all failures at any step but in single writes, all requests of other users", "why_tests_cant": "a redirection takes two separate writes on POWER, and tests see only a few of the states between them", "anchors": ["tools/trigger.c:143-232", "tools/introspection.c:1675-1806", "tools/insn_queue.c:62-212", "lib/insn_queue.c:36-180", "lib/arch/powerpc64le/patch.c:73-232"]}
{"id": "C217", "title": "On POWER, a reported failure means that nothing changed", "statement": "When `ulp trigger` reports that a live patch could not be applied to or reverted from a process on POWER, the process is as it was before; and a failure in one run does not make all later runs fail.", "quantifier": "for all histories, all runs, all failures, all numbers of retries", "why_tests_cant": "failures in resetting the queue after it was executed cannot be provoked in tests, and their consequences show only in later runs", "anchors": ["tools/trigger.c:143-232", "tools/introspection.c:1675-1744", "tools/insn_queue.c:106-212", "lib/insn_queue.c:146-180", "lib/arch/powerpc64le/patch.c:73-232"]}
{"id": "C218", "title": "On POWER, tools at work on one process at the same time act one after the other", "statement": "While a tool changes a process on POWER, no thread of it runs and no other tool changes it. Unless a tool is killed while it changes the process: whatever tools are at work at the same time, whenever none is at it, the process is as if those that got through had been at work one after the other, each with the answer it got, and calls through global entries go to the newest patch.", "quantifier": "for all process images on POWER and prologue templates of 44 bytes, all numbers of tools, all requests, all interleavings of their steps with each other and with threads that start and end", "why_tests_cant": "unbounded interleavings of tools and threads; a redirection takes two writes on POWER and tests do not stop between them", "anchors": ["tools/introspection.c:1472-1616", "tools/introspection.c:1622-1806", "tools/introspection.c:1841-1870", "tools/insn_queue.c:174-212", "lib/arch/powerpc64le/patch.c:73-232"]}
{"id": "C219", "title": "On POWER, no running thread ever sees a patch in part, whatever tools are at work", "statement": "Any number of tools may be at work on a process on POWER at the same time, any of their steps may fail (running a routine, finding, reading or resetting the queue), and they may give up or be killed at any point except in the middle of running a routine or executing the queue, with no single write failing. Whenever a thread of the process runs and no internal error is recorded, all calls through global entries together go where they should after the requests that libpulp had accepted up to some moment; after all requests if no queue is left over.", "quantifier": "All interleavings of any number of tools and threads, all requests, all failures; all process images on POWER and prologue templates of 44 bytes", "why_tests_cant": "Needs all schedules of several tools combined with all failures, on a POWER machine", "anchors": ["tools/introspection.c:1472-1616", "tools/introspection.c:1841-1870", "tools/insn_queue.c:174-212", "tools/ptrace.c:500-625", "lib/ulp.c:451-536", "lib/arch/powerpc64le/patch.c:73-232"]}
{"id": "C220", "title": "Replacing live patches is all or nothing on POWER", "statement": "When `ulp trigger --revert-all=LIB PATCH` replaces the live patches of a library of a process on POWER by a new one, then afterwards either the new one alone is in force for the library (success is reported), or the old ones still are (failure is reported), down to where calls through the trampolines go; patches of other libraries stay.", "quantifier": "for every history of runs, every library, live patch, attempt and failure, every image of the process and every trampoline of the size in the code", "why_tests_cant": "Whether something is lost depends on what was applied before and on which of the two steps fails; tests replace patches by one that can be applied, and mostly not on POWER.", "anchors": ["tools/trigger.c:164-214", "tools/introspection.c:1746-1806", "lib/arch/powerpc64le/patch.c:73-232"]}
{"id": "C221", "title": "Several live patches in one run are all in force at its end on POWER", "statement": "When `ulp trigger` is given a pattern that several live patches match, for a process on POWER, then all those for which it reports success are in force when it is done, and so are those that were in force before and were not to be reverted, and calls go accordingly.", "quantifier": "for every history of runs, every number and order of live patches, with or without --revert-all, every image of the process", "why_tests_cant": "There are unboundedly many sets of live patches, histories and failures; tests try one or two live patches for a process.", "anchors": ["tools/trigger.c:262-367", "tools/trigger.c:85-252", "lib/arch/powerpc64le/patch.c:73-232"]}
{"id": "C222", "title": "The order in which live patches are found does not matter on POWER", "statement": "When several live patches match the pattern, for a process on POWER, then which of them are in force afterwards, and where calls go, does not depend on the order in which readdir returns the files.", "quantifier": "for every history of runs, every set of live patches and every order", "why_tests_cant": "The order of readdir is up to the file system and cannot be controlled by a test.", "anchors": ["tools/trigger.c:290-357", "lib/ulp.c:914-962", "lib/arch/powerpc64le/patch.c:73-232"]}
{"id": "C223", "title": "A listing shows the live patches of one moment on POWER", "statement": "The live patches that ulp patches shows of a process on POWER are all those applied to it at one moment while the command ran, and those in force at this moment, down to where calls through the trampolines go, whatever other tools do to the process meanwhile.", "quantifier": "every number of tools at work on the process, every interleaving of their steps with the reads of the listing, every history before, every image of the process", "why_tests_cant": "A test has no control over how the reads of one tool fall between the steps of others, and tests are mostly not run on POWER.", "anchors": ["tools/introspection.c:2536-2583", "tools/introspection.c:2614-2650", "tools/introspection.c:1472-1616", "lib/arch/powerpc64le/patch.c:73-232"]}
{"id": "C224", "title": "Killing the tool does not harm the process on POWER", "statement": "If the tool is killed at whatever moment of its work on a process on POWER, the process goes on as if the tool had never been there. (False: it does so only if the tool holds no thread. If the tool holds threads, the process stops, where the kernel delivers the signals that the threads were stopped for as ptrace(2) says; SIGCONT makes it go on unless the main thread had been given the registers of a routine of libpulp. If it had, the main thread never executes an instruction of the program again and the process dies of SIGTRAP.)", "quantifier": "for every schedule of threads, tool and kernel, every number of threads, every moment at which the tool is killed, every choice of the kernel whether a thread takes the signal it was stopped for, every later moment", "why_tests_cant": "the moment at which a signal reaches the tool is not under the control of a test, and what matters is every later moment", "anchors": ["tools/introspection.c:1472-1616", "tools/introspection.c:1841-1870", "tools/ptrace.c:500-625", "lib/arch/powerpc64le/ulp_interface.S:33-69"]}
{"id": "C225", "title": "Killing the tool does not leave part of a patch visible on POWER", "statement": "If the tool is killed at whatever moment, a thread of the process on POWER that runs sees all calls go where they should after the requests that libpulp had accepted up to some moment: the whole of a patch or nothing of it. (True unless the tool is killed in the middle of a queue and the threads go on all the same, because somebody sends SIGCONT or because the kernel forgets the signals that they were stopped for. Then threads can run with any number of the changes made and the others not.)", "quantifier": "for every schedule of threads, tool and kernel, every program image, every sequence of well formed requests, every moment at which the tool is killed", "why_tests_cant": "needs the tool to be killed between two particular writes and a thread to run afterwards", "anchors": ["tools/insn_queue.c:174-212", "tools/introspection.c:1700-1800", "tools/ptrace.c:500-625", "lib/arch/powerpc64le/patch.c:73-232"]}
{"id": "C226", "title": "A patch reported as applied is in force (POWER)", "statement": "On POWER, while the check for a patch answers that it is applied, calls of the functions it replaces go to the replacements, also after the program has unloaded and loaded libraries; if not, applying it again puts it in force.", "quantifier": "every history of requests and every unloading and loading of a library, at the same place or elsewhere", "why_tests_cant": "The tests keep the target library loaded for the lifetime of the process.", "anchors": ["lib/ulp.c:__ulp_check_applied_patch", "lib/ulp.c:check_patch_sanity", "lib/interpose.c:dlclose", "lib/arch/powerpc64le/patch.c:ulp_patch_addr"]}
{"id": "C227", "title": "Reverting is safe whatever the program has loaded and unloaded (POWER)", "statement": "On POWER, reverting a patch neither crashes the program nor changes anything but the entries of functions of the target library, whatever libraries the program has unloaded and loaded since; where the function is no longer, nothing is written.", "quantifier": "every sequence of requests, unloadings and loadings, and every content of memory", "why_tests_cant": "Needs a plugin-like target, a particular order of events and other code at the place of the function.", "anchors": ["lib/ulp.c:ulp_revert_all_units", "lib/arch/powerpc64le/patch.c:ulp_patch_addr", "lib/arch/powerpc64le/patch.c:ulp_patch_prologue_layout", "lib/arch/powerpc64le/patch.c:get_branch_offset"]}
{"id": "C228", "title": "A request on POWER that is cut short has no effect on later requests", "statement": "If a signal makes the tool give the borrowed thread of a process on POWER back before `__ulp_apply_patch` has finished, later requests behave as if the cut request had not been made or had been completed: they do what they ask for, they are answered truthfully, and no patch is applied in place of another.", "quantifier": "Every process state between requests, every patch description, every trampoline, every step of the routine at which the thread can be taken away, every following request and history of requests.", "why_tests_cant": "A test would have to deliver a signal at each instruction of a routine that runs for microseconds in another process on a POWER machine, and then try every possible next request.", "anchors": ["lib/ulp.c:181-212", "lib/ulp.c:306-327", "lib/ulp.c:474-532", "common/common.c:263-528", "tools/ptrace.c:574-612", "tools/introspection.c:1842-1872", "lib/arch/powerpc64le/patch.c:209-224"]}
{"id": "C229", "title": "On POWER a patch is in force wholly or not at all even if a signal arrives", "statement": "Whenever the tool gives the borrowed thread of a process on POWER back, either all functions of the patch of the request are replaced or none is.", "quantifier": "Every image and history of requests, every patch, every trampoline of 44 bytes, every step of the routine at which the thread can be taken away.", "why_tests_cant": "The number of instants at which a signal may arrive, times the number of patches and histories, cannot be tried; the window is microseconds long.", "anchors": ["lib/ulp.c:634-679", "lib/ulp.c:474-502", "lib/arch/powerpc64le/patch.c:93-224", "tools/introspection.c:1718-1741", "tools/ptrace.c:574-612"]}
