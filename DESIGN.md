# Formal model of libpulp: design

Target: SUSE/libpulp, source in `/repo` (read as text, never built or run).
Prover: Lean 4.33.0. Project in `lean/`. No Mathlib module is imported so far; everything is core Lean.

## How to read it

- `properties.jsonl`: the properties, in terms of what a user sees.
- `MANIFEST.json`: for each property the theorems that settle it, and whether they settle all of it (`proved`) or part of it (`partial`).
- `lean/Verif/<Topic>/Model*.lean`: what the C code does. Each definition cites the file and lines of `/repo` it transcribes, and says where it simplifies.
- `lean/Verif/<Topic>/Spec.lean`: what a user expects, written without the helpers of the model. Small specifications stand directly in the theorem statements or at the top of `Props.lean`.
- `lean/Verif/<Topic>/Props*.lean`: the theorems. Names start with the property (`C07_...`). Beside each theorem is an `example` that meets its hypotheses with a concrete, non-trivial case.
- `seeded/LOG.jsonl`: wrong programs tried against the theorems. Each line has the definition that was edited, the edit, the claim this breaks, the theorems that failed, and the theorems that were tightened because they did not fail.

Conventions.

- Undefined behaviour (access out of bounds, use of unallocated memory, an assertion that fails) is an outcome of its own in the models, never a default value.
- A loop that may not end in C is a step function run with fuel, or a relation. "It ends" is a theorem that some fuel suffices, "it does not end" is the theorem that none does.
- Concurrency is a transition system (`Step`, `Steps`), with an invariant proved by induction over all executions. Memory is sequentially consistent.
- Where a property is false of the code, its negation is proved, in general where possible and otherwise with a witness (an execution or an input). A theorem with suffix `_partial` then proves the property under the hypothesis that excludes the cases of the negation. The manifest note says what is missing.

## Layout

| Topic | Code | What is modelled | Properties |
|---|---|---|---|
| `Abandoned` | lib/ulp.c, lib/insn_queue.c (insnq_ensure_emptiness), tools/introspection.c (between the routine and the queue) | requests whose tool ends after libpulp's answer and before the queue is executed, on x86-64 and POWER: what they change, what the next request changes, and what can be changed afterwards | C214 |
| `Alloc` | lib/interpose.c | posix_memalign and aligned_alloc | C45 |
| `AsUnsafe` | lib/interpose.c, lib/ulp.c | counters of asynchronous-unsafe calls and loader locks, any number of threads | C33, C55 |
| `Base` | include/error_common.h, common/common.c | error codes, byte memory, little-endian words, byte strings |  |
| `BuildId` | lib/ulp.c, tools/introspection.c | note walkers and build id checks of both sides | C26, C27, C54 |
| `Check` | tools/check.c (run_check), tools/introspection.c (patch_applied, set_id_buffer, extract_ulp_from_so_to_mem), lib/ulp.c (__ulp_check_applied_patch, ulp_get_applied_patch) | The command `ulp check`, composed with the packer and the parser of `Metadata`. `run_and_redirect` returning 0 is taken to mean that the routine ran (see C71). | C111, C112 |
| `Cli` | tools/ulp.c (command line), tools/arguments.h, the option tables in tools/*.c, check_ptrace_scope in tools/ptrace.c, check_sys_admin and the start of run_trigger in tools/trigger.c | The command line from `argv` to the command that is run: argp (glibc; permuting mode, abbreviations, joined short options, values joined or apart, `--`), the choice of the option table, `parser`, `handle_end_of_arguments`, the check of ptrace_scope and the dispatch. Not modelled: POSIXLY_CORRECT, colours as such, messages, ENABLE_AFL. | C121, C122, C123, C124, C125, C126 |
| `Container` | lib/ulp.c | which file the code of an applied patch comes from: dlopen of containers over histories in which files change and the program loads and unloads objects | C166, C167, C168 |
| `Crowd` | tools/introspection.c, tools/insn_queue.c, tools/ptrace.c | any number of tools at work on one process with failures and kills, and threads running in between; an action of a tool passes through any states | C137 |
| `Cut` | lib/ulp.c (apply path in small steps), common/common.c (parse order), tools/introspection.c (registers given back) | `__ulp_apply_patch` as a small-step machine that can be left after any step, what stays behind (`__ulp_metadata_ref`, locks, half applied patch, queue), and what later requests then do. Uses Runtime for the effects of whole functions. Each function undone takes one step of a revert; a buffer that cannot be parsed is given up at once. | C169, C170 |
| `Diag` | tools/packer.c | Messages of ulp packer about a description (parse_error, the places passed to it, the SIGSEGV handler). Not modelled: the description changing between being read and being opened again for the message, line numbers beyond int, getline failing for lack of memory; %s stops at NUL in the reason, which the model keeps as it is taken from strings without NUL. | C140, C141 |
| `Dsc` | tools/packer.c (parse_description, add_dependency, get_target_addrs, get_target_ref_addrs, get_ulp_elf_metadata) | Reading a description file and making the patch of it. Files are given by their contents and by what ulp_so_info_open makes of them (topic Extract); allocation always succeeds; the buffer for comments is in topic Listing. | C80, C81, C82, C83, C84 |
| `Dump` | tools/dump.c | The text `ulp dump` prints for parsed metadata, as bytes. | C113, C114 |
| `Early` | lib/ulp.c (ulp_apply_all_units: order of the writes), tools/insn_queue.c (insnq_interpret_from_process_) | the process between two writes of the tool while it executes libpulp's queue, on x86-64 and POWER: all functions of a livepatch are redirected before any of its references is set; a revert leaves references alone at every moment | C211 |
| `Ehdr` | tools/introspection.c (get_ehdr_addr), common/common.c | Where the ELF header of an object is: load bias, or the first line of /proc/pid/maps with the name of the program, on the text as the kernel writes it, with strtok, getline and strtoul as the C library has them. Lines have no NUL bytes; memory for them is available. | C200, C201 |
| `Endless` | tools/introspection.c | Whether the loops over what is read from a process end: the loop over notes (anew, with lengths of 32 bits), and those of Inspect (dynamic sections, link map, names, symbols) and Status (applied patches), for memory of arbitrary contents. Memory and stack of the tool are unlimited. | C199 |
| `ErrState` | lib/interpose.c, tools/set_patchable.c, lib/ulp.c | how error state comes up at start, disabling and enabling | C48, C52, C57 |
| `Extract` | tools/extract.c, tools/packer.c (build ids) | How ulp extract and the packer read a library: symbol tables, the search for the build id note, the JSON form, debug information. libelf and json-c are trusted: libelf hands out symbol tables and notes (gelf_getnote is modelled after its documentation, with 4-byte alignment), json-c keeps trees of strings and 32-bit integers. Allocations succeed. | C75, C76, C77, C78, C79 |
| `Files` | tools/livepatchable.c, tools/post.c, tools/elf-extra.c, tools/patches.c:226-275 | The commands `ulp livepatchable` and `ulp post` as wholes (the latter with Post), and the lookup of sections by name; libelf is represented by its answers. | C156, C157, C158 |
| `Flow` | tools/packer.c, tools/introspection.c, common/common.c, lib/symbol_loader.c, lib/ulp.c | the models of packer, tool, parser, symbol lookup and libpulp put together: from descriptions to the functions of a process | C115, C116, C117 |
| `Heap` | lib/ulp.c (load_metadata, unload_metadata, load_patch, ulp_state_update, ulp_apply_all_units, ulp_state_remove), common/common.c (parse_metadata_from_mem, free_metadata), tools/introspection.c (release_ulp_*) | Allocation and release of the memory of metadata and of applied patches. Contents are not modelled; each allocation or read may fail at any point. | C108, C109, C110 |
| `Hijack` | tools/introspection.c, tools/ptrace.c | attaching to and detaching from all threads of a running process | C35 |
| `InsnQueue` | lib/insn_queue.c, common/insn_queue.c, tools/insn_queue.c | encoders, decoder, both interpreters, crash points of the tool | C04, C05, C06, C07, C08 |
| `Inspect` | tools/introspection.c (379-419, 603-806, 841-955, 1045-1130, 1135-1180, 1199-1380) | How the tools find out what is loaded in a stopped process: auxiliary vector, program headers, dynamic section, link map, symbols of libpulp, readiness. A process is its memory with what of it can be read, and its auxiliary vector; read_memory and read_string are those of topic Ptrace. Loops over memory of the process have fuel, and results hold for all large enough fuel. Not modelled: notes (topic BuildId), allocation failures, numbers of program headers of 2^31 and above. | C92, C93, C94 |
| `Json` | ['tools/extract.c'] | Reading the JSON description of a library from an arbitrary JSON tree, with the conversions of json-c as documented (C179), and the round trip of C75 through these trees. Crashes on missing lists of symbols or nameless symbols, and silent defaults for addresses, are proved for all trees. | C75, C179 |
| `Killed` | tools/introspection.c (hijack_threads, restore_threads), tools/ptrace.c (attach, run_and_redirect, detach), tools/insn_queue.c (insnq_interpret_from_process), lib/arch/x86_64/ulp_interface.S | The tool is killed while it is at work: per thread whether it is traced, stopped (by SIGSTOP or SIGTRAP), has a SIGSTOP pending, and has its own registers or those of a routine; the tool's phases as a transition system on top of the requests and queues of Session; death of the tracer and SIGCONT. The facts about the kernel are those of ptrace(2); whether a thread takes the signal that it was stopped for is left open, since Linux forgets it once the tracer has waited. Crowd's step for the death of the tool is a simplification of this: there the main thread simply goes on. Not modelled: other signals, a process that ends by itself, SIGCONT while the tool is alive, failures of the tool. | C142, C143 |
| `Kin` | ['tools/patches.c', 'tools/introspection.c'] | Processes that fork, share their memory by vfork, start another program or end while tools look at them, stop them, write and let go: a transition system over process numbers, memories and tools (C176, C177, C178). The tool keeps addresses from when it looked and never checks that the program is still the same, so the properties hold only without execve, reuse of numbers, or shared memory; the failures are proved for every initial system. | C176, C177, C178 |
| `Listing` | tools/patches.c, tools/packer.c | process iteration and selection, label printing, comment collection | C49, C51, C64, C65, C66, C67 |
| `Loader` | lib/ulp.c (load_so_handlers, load_so, load_so_symbol, unload_handlers) | The containers of live patches as objects of the process: dlopen, dlsym and dlclose by libpulp and by the program, files that are replaced, on top of the requests of Runtime. The facts about the loader are those of dlopen(3) and glibc: an object is found again by the name it was opened with or else by its inode, counted, and unmapped when nobody uses it. Not modelled: objects that a container depends on, DT_SONAME, symbols found in dependencies, constructors, files that are overwritten in place, relative names. | C144, C145, C146 |
| `Loadtime` | tools/introspection.c, tools/patches.c | the models of how the version of libpulp is read (Version) and of what `ulp patches` prints (Status) put together: which times it shows | C208 |
| `LogRace` | ['lib/msg_queue.c', 'lib/arch/powerpc64le/patch.c'] | Several threads that push messages to the log at once: msgq_strpush cut into its reads and writes of the ring, its three numbers and the static buffer for formatting. (C180, C181, C182) | C180, C181, C182 |
| `Many` | tools/trigger.c:85-367, tools/introspection.c:1746-1806 | `ulp trigger` with `--revert-all` and with several live patches, as a sequence of runs of `Verif.Session`. Which files are taken for live patches is in `Verif.Trigger`; the tool's checks before the first attempt are an arbitrary error (`Verif.Prepare` models them). Stack checking is not modelled. | C147, C148, C149 |
| `Md4` | tools/md4.c | the digest against a specification transcribed from RFC 1320 | C43 |
| `Messages` | tools/messages.c, lib/msg_queue.c | ulp messages: which process it looks at, reading the queue piece by piece while other tools have libpulp log messages, printing any contents; messages logged at the start of the process are not modelled | C134, C135, C136 |
| `Metadata` | tools/packer.c, tools/introspection.c, common/common.c, lib/gdb_interface.c | writers of apply and revert metadata, path insertion, the parser with its allocations | C13, C14, C15, C16, C17 |
| `Midway` | lib/arch/x86_64/patch.c, lib/ulp.c (through Runtime and X86), tools/introspection.c (restore_threads) | A thread in the entry of a function, stopped and continued for requests. Built on Runtime (requests, memory) and X86 (instructions of the entry). Instruction fetch after the thread is continued sees the memory as written; hardware prefetching is not modelled. | C129 |
| `MiniElf` | lib/minielf.c, lib/gdb_interface.c | Reading of a section by the process itself when gdb asks for a live patch. A file is the list of its bytes, a read returns what is asked for or what is left; local variables carry which bytes were never written. Modelled up to the call of load_patch, with the metadata buffer of topic Metadata. | C89, C90, C91 |
| `Moment` | tools/introspection.c | ulp patches reads the list of applied live patches while other tools are at work on the process. (C185) | C185 |
| `Moving` | tools/introspection.c | The tools walk the link map while other threads of the process load and unload libraries: only the main thread is stopped. (C184) | C184 |
| `MsgQueue` | lib/msg_queue.c, tools/messages.c | the message ring, statement by statement, and its reader | C01, C02, C03 |
| `Names` | common/common.c:118-145, 568-580; tools/patches.c:50-113, 138-225, 580-603 | What the tool takes a process for from /proc: name, owner, libpulp mapped; and the list of processes that results (on top of Listing and Inspect). Facts about Linux in Spec: comm has the first 15 bytes of the program's name, files in /proc of a process that is not dumpable belong to root, the head of a line of maps has only digits, rwxps, blanks. fnmatch and getpwuid are arbitrary functions. A wait for a process that never yields a finite link map is not modelled (enough steps are assumed). | C150, C151, C152 |
| `Pack` | tools/packer.c (parse_build_id, write_patch_id, write_reverse_patch, run_packer), tools/elf-extra.c (embed_patch_metadata_into_elf), common/common.c (create_path_to_tmp_file) | The last part of the packer: the patch id, embedding by objcopy and temporary files. The container is its build id note and its named sections; objcopy is one of five outcomes, and adds or replaces the section if it exits with 0; writing of temporary files succeeds. The notes are read as in Extract, the description as in Dsc, the metadata is that of Metadata, the digest that of Md4. | C85, C86, C87, C88 |
| `Paint` | tools/ulp.c, tools/trigger.c, tools/patches.c, tools/packer.c, tools/check.c, include/terminal_colors.h | the text the tool writes: colours, against a model of a terminal, and --quiet | C172, C173, C174, C175 |
| `PcQueue` | tools/pcqueue.c | the producer/consumer queue at semaphore and memory access granularity | C34 |
| `Post` | tools/arch/x86_64/post-arch.c, tools/post.c | replacement of the entry NOPs in a library image | C44 |
| `Power` | lib/ulp.c, lib/arch/powerpc64le/patch.c | histories of requests on POWER: the counterpart of Runtime with POWER entries, stubs and thread-local bias | C161, C162, C163, C164, C165, C212, C214, C215, C216, C217, C218, C219, C220, C221, C222, C223, C224, C225, C226, C227, C228, C229 |
| `PowerCrowd` | tools/introspection.c, tools/ptrace.c, tools/insn_queue.c as in `Crowd`; lib/arch/powerpc64le/patch.c as in `Power` | Many tools at work on a process on POWER, with failures and kills: the steps of `Crowd` with libpulp as in `Power`. |  |
| `PowerCut` | lib/ulp.c:181-228, :306-327, :434-532, :634-753, :1145-1259; common/common.c:263-528; lib/arch/powerpc64le/patch.c:209-224 | Requests on POWER that a signal cuts short at any step: the process and the steps of `Cut`, with functions replaced and references written as in `Power`. The writes of one function are queued in one step. |  |
| `PowerFlow` | tools/packer.c, tools/introspection.c, common/common.c, lib/symbol_loader.c, lib/ulp.c | The models of the packer, the tool, the parser and libpulp on POWER put together: from the text of a description to calls and references of a process on POWER (Flow for the other architecture). The bytes of the stub are a parameter. | C205, C206, C207 |
| `PowerKilled` | tools/introspection.c:1472-1870, tools/ptrace.c:500-625, tools/insn_queue.c:174-212, lib/arch/powerpc64le/ulp_interface.S:33-69 | A tool killed while at work on a process on POWER: threads, signals and tool as in `Killed`, libpulp as in `Power`. What the kernel does is from ptrace(2). |  |
| `PowerMany` | tools/trigger.c:85-367, tools/introspection.c:1746-1806; lib/arch/powerpc64le/patch.c as in `Power` | `ulp trigger` on POWER with `--revert-all` and with several live patches, as a sequence of runs of `Verif.PowerSession`. |  |
| `PowerMoment` | tools/introspection.c:2536-2583, :2614-2650; lib/arch/powerpc64le/patch.c as in `Power` | Listing live patches of a process on POWER while other tools are at work on it: the listing of `Moment` among the tools of `PowerTools`. |  |
| `PowerSession` | tools/trigger.c, tools/introspection.c, tools/insn_queue.c as in `Session`; lib/arch/powerpc64le/patch.c as in `Power` | Whole runs of `ulp trigger` on a process on POWER (state of `Power`), with the failures of `Session` at every step. The steps of the tool are the same; what differs is what libpulp queues and where calls go. The template of the prologue is any 44 bytes. |  |
| `PowerTools` | tools/introspection.c, tools/insn_queue.c as in `Tools`; lib/arch/powerpc64le/patch.c as in `Power` | Several tools at work at the same time on a process on POWER: the steps of `Tools` with libpulp as in `Power`. |  |
| `PowerUnload` | lib/ulp.c:1224-1259, lib/arch/powerpc64le/patch.c:93-224, lib/interpose.c:556-570 | A livepatched program on POWER that unloads and loads libraries between requests: as `Unload`, with libpulp's runtime on POWER (`Power`). |  |
| `Ppc` | lib/arch/powerpc64le/patch.c, ulp_prologue.S | branch encoding, entry patching, instruction-level trampoline and shadow stack | C46, C47, C58, C59, C60, C61, C62, C63 |
| `PpcEntry` | lib/arch/powerpc64le/ulp_interface.S, tools/ptrace.c (run_and_redirect), include/arch/powerpc64le/arch_common.h | The routines that tools run in a stopped thread on POWER, instruction by instruction, with the kernel's restart of system calls. Not modelled: floating-point and vector registers, failing requests of ptrace, signals; the functions that the routines call are arbitrary functions that obey the ABI. | C196, C197, C198 |
| `PpcMidway` | lib/arch/powerpc64le/ulp_prologue.S, patch.c, lib/ulp.c, tools/introspection.c | A thread on POWER that is stopped anywhere between its call of a function and the load of the new address in the trampoline, while requests are served. The instructions of the stub are taken as executed as meant if they are in place (what they do with registers is in Ppc); everything about requests is from Power. | C204 |
| `Prepare` | tools/trigger.c (trigger_one_process up to the loop), tools/introspection.c (adjust_prefix_for_chroot, the path in extract_ulp_from_so_to_mem, check_livepatch_functions_matches_metadata, check_patch_sanity), tools/insn_queue.c (insnq_check_compatibility) | What is checked before a process is touched, and which path the process gets. Built on Metadata (extraction and parsing) and BuildId (the comparison of libraries). `realpath`, `load_elf` and `parse_so_elf` are functions of the file system. | C127, C128 |
| `Ptrace` | tools/ptrace.c | word and bulk reads and writes of remote memory, string reads, redirection registers, stack alignment | C09, C10, C11, C12 |
| `Reason` | ['lib/error.c', 'lib/msg_queue.c'] | The messages of libpulp_errx, set_libpulp_error_state_with_reason, WARN and DEBUG as far as formats, variable arguments and the layout of a va_list in memory on both architectures decide about them (C183). | C183 |
| `Records` | tools/introspection.c (release_*, parse_main_dynobj, get_libname_dynobj, hijack_threads, restore_threads), tools/patches.c (insert_target_process, process_list_begin/end), tools/pcqueue.c (delete), tools/trigger.c (results), tools/check.c, tools/messages.c | Memory of the records the tools keep about processes: a heap on which every allocation, release and use through a pointer that may be stale is a step; triples with a frame rule show that code owns what it frees. | C138, C139 |
| `Redirect` | tools/ptrace.c (run_and_redirect and what it calls), tools/introspection.c (run_and_redirect callers), lib/arch/x86_64/ulp_interface.S | The thread, the kernel and the tool while one of libpulp's routines is run in a hijacked thread: wait statuses, the waiting loop with its clock, signals that stop a traced thread, restoring registers, and how the result is reported. One thread is modelled; the routine's body is a number of steps with a return value. Signals are a multiset of pending numbers; masks and handlers are not modelled. | C71, C72, C73, C74 |
| `Refs` | lib/ulp.c (ulp_apply_all_units: references), tools/ptrace.c (write_bytes_ptrace), tools/insn_queue.c | the references of a livepatch being written word by word, up to the request at which the tool ends, on x86-64 and POWER; lemmas `queued_x86` and `queued_power` tie the writes to those that `Runtime` and `Power` queue | C213 |
| `Report` | tools/trigger.c:370-475 | What `ulp trigger` prints about a process: choice between condensed and long form, and the lines of each. Colours, process name and texts of the errors are left out. | C103, C104, C105 |
| `Resume` | tools/ptrace.c (get_regs, set_regs, run_and_redirect), tools/introspection.c (hijack_threads, restore_threads), lib/arch/x86_64/ulp_interface.S | General registers, vector registers and errno of a thread from the stop to the release, with the kernel's restart of system calls. Not modelled: failing requests of ptrace, signals, the restart block of the kernel, ppc64le. | C192, C193, C194, C195 |
| `Runtime` | lib/ulp.c | apply, revert, revert-all, check and state requests over the whole state of libpulp and the process memory; arbitrary histories | C06, C18, C19, C20, C21, C22, C23, C24, C25, C28, C29, C30, C50 |
| `SelfWrite` | lib/insn_queue.c:188-365 (= lib/ulp.c:382-414, 856-903) | Writes of libpulp into its own process when it interprets its instruction queue itself: reading /proc/self/maps, mprotect, copying, restoring. The file describes the pages exactly (hypothesis `Honest`); open, mprotect may fail at any point with any errno; failing reads of the file are not modelled. The queue does not overlap the pages written. | C100, C101, C102 |
| `Session` | tools/trigger.c (loop of `trigger_one_process`), tools/introspection.c (`apply_patch`, `revert_patches_from_lib`), tools/insn_queue.c (`insnq_interpret_from_process_`, `insnq_get_from_remote_process`, `insnq_update_remote`) | Whole runs of `ulp trigger` on a process with libpulp (state of `Runtime`): attempts, reverting and applying, executing the queue, failures at every step, other users between the attempts, and sequences of runs. A routine is taken to run to its end or not at all. | C130, C131, C132 |
| `Setup` | scripts/setup_package.sh | The script that makes descriptions of the libraries of a package: its jobs and tokens, the choice of packages, file names, age limit, and the commands it runs. Bash 4.4 or later. Not modelled: downloads, unpacking, clean-up, classify_rpms. (C186-C191) | C186, C187, C188, C189, C190, C191 |
| `StackCheck` | tools/introspection.c:2368-2523, tools/trigger.c:143-232 with ENABLE_STACK_CHECK | The stack check of `ulp trigger --check-stack`: range of the library from the lines of the maps file (with `strstr`, `strtoul`), walking of all stacks, and the loop of attempts around it. The unwinder (libunwind) is a parameter: the stack of each thread is whatever it delivers, ended or broken off. | C95, C96 |
| `Startup` | lib/ulp.c, lib/interpose.c | the two constructors of libpulp, the interposed functions and requests while a process starts, as a transition system over threads | C118, C119, C120 |
| `Status` | tools/introspection.c:2536-2689, tools/patches.c:377-577, tools/arch/*/post-arch.c (check_preamble) | What `ulp patches` prints about a process: applied live patches read from its memory, live-patchable objects, error state. The process does not change meanwhile, attaching and detaching succeed, allocations succeed; labels of live patches are in topic Text; lines are structured values, not text. | C97, C98, C99 |
| `Switch` | tools/set_patchable.c | The command `ulp set_patchable` as a whole: its argument, the processes it goes through (with Names), what it does to each (with ErrState), its output and exit status. | C153, C154, C155 |
| `SymLoad` | lib/symbol_loader.c | lookup of functions, load addresses and loader locks in the loaded objects, also under the requests of `Runtime` | C68, C69, C70 |
| `Text` | common/common.c, tools/extract.c | string and path helpers, error names, wildcards, labels, build id texts, temporary names | C38, C39, C40, C41, C42, C53 |
| `Tools` | tools/introspection.c, tools/insn_queue.c, tools/ptrace.c | several tools at work on one process at the same time: ownership of threads by ptrace, attaching, giving up, the critical section step by step, detaching, being killed; the loops of hijack_threads are in Hijack, and only their visible steps here | C133 |
| `Torn` | tools/ptrace.c:110-143, tools/insn_queue.c:38-48, lib/arch/x86_64/patch.c:115-169, lib/arch/powerpc64le/patch.c:209-224 | Where a call of a function goes if the tool ends at any ptrace request of the writes that change its entry, on both architectures: the entry writes of `X86`/`Ppc` executed word by word by the `write_bytes_ptrace` of `Ptrace`, up to a request chosen arbitrarily. A request may have written part of its word, but only a multiple of the alignment of functions (a word crossing a page boundary). What the tool does if it survives a failed write (the queue is decoded further at a wrong place) is in `InsnQueue`; how the threads come to run afterwards is in `Killed`. | C209, C210 |
| `Trigger` | tools/trigger.c, tools/ulp.c | retries, counters, exit status | C36, C37, C56 |
| `Unload` | lib/ulp.c:1224-1259, lib/arch/x86_64/patch.c:115-169, lib/interpose.c:556-570 | A livepatched program that unloads and loads libraries between requests: libpulp's runtime (Runtime) with a map of what is mapped, crashes by reading unmapped memory during reverts; x86-64. Reads during apply are of functions just looked up and taken to be mapped. | C159, C160 |
| `Version` | tools/introspection.c (version of libpulp) | How the tools read the version of libpulp from a process: the text `__ulp_version` into an uninitialised array of 32 bytes, result unchecked, then `ulp_version_from_string`. Three numbers below 65536 give the right version and order; a suffix gives 0; the reading is defined exactly if the text ends within 32 bytes and its words can be read. | C202, C203 |
| `Waits` | lib/interpose.c (trylock), lib/msg_queue.c (logging), the calls of the C library made by lib/ulp.c and common/common.c | Which locks of the C library serving a request needs, which may be held by the threads that the tool stopped, and what the checks see of them. The C library is modelled by the locks its functions take (one arena per allocating function, no failing allocations, no tzset reading files). | C171 |
| `Walk` | tools/trigger.c:262-367, common/common.c:51-62, 558-566 | Search for live patches matching a wildcard, recursive or not: which files are handed to trigger_one_process. The file system is a function that does not change during the search; fnmatch is a parameter; dirname follows glibc. | C106, C107 |
| `X86` | lib/arch/x86_64/patch.c | entry patching and the prologue bytes, with a small-step semantics of the instructions in entry pads | C31, C32 |

## Outcome per property

229 properties, 71 proved as stated, 158 partial.

| Property | Title | Status | Note |
|---|---|---|---|
| C01 | Message log always shows the newest messages, in order | partial | all histories except a message of exactly the ring size |
| C02 | Logging never leaves the ring and always returns | partial | false of the code for a message of exactly the ring size (proved), true otherwise |
| C03 | No message is dropped while there is room | proved |  |
| C04 | What libpulp queues is what the tool executes | proved | Every sequence of accepted print/write requests is decoded by the tool to exactly those requests in order. |
| C05 | Queueing never overruns the queue; a refused request changes nothing but is recorded | proved | A request that does not fit leaves the queue as it was and records EINSNQ; for all histories. |
| C06 | A tool crash never lets a half-executed batch be silently mixed with a new one | proved | For all crash points of the tool, at byte granularity; a process left with a non-empty queue refuses requests with EINSNQ. |
| C07 | A failed memory write is reported | partial | False in general: the interpreter moves backwards after a failed write and may report success (negation proved with a six-write witness; C07_first_write_failing_reads_outside shows in general that a failing first write makes it read outside of the queue). The partial theorems cover the failing last write, and a failing write anywhere whose predecessor is a write that fills its slot and ends in a byte that is no instruction type. |
| C08 | Queues of a newer format are never executed | proved |  |
| C09 | Remote write touches exactly the requested bytes | proved | write_bytes_ptrace with an arbitrary failing request (a failing POKE may have written some bytes of its word); addresses do not wrap. |
| C10 | Reading a remote string returns exactly the string | partial | Right whenever the words covering the string are readable. False as stated: a string whose last word crosses the end of the readable memory cannot be read, and read_string_allocated leaves the buffer unterminated when the string does not fit (both proved). |
| C100 | Libpulp finds the true protection of a page | partial | True as long as no line of 2048 bytes or more comes first; false otherwise: such a line hides all mappings behind it. |
| C101 | A write of libpulp into its own process is done completely, leaving protections alone | partial | Reported writes and atomicity proved. False: a write ending at a page boundary is refused if the next page is not mapped, and pages stay writable if mprotect refuses a later page. |
| C102 | Success reported by the gdb interface means that all requests were performed | partial | False: the errno of a failed write is taken for the size of the instruction, and EMFILE is the size of a write of up to 8 bytes. Proved if nothing is refused, and for a single write. |
| C103 | The trigger report names exactly the applied and failed patches | proved | Both directions, for both output forms. |
| C104 | The report agrees with the totals | partial | False of the code: errors counted as skipped other than EBUILDID and ENOTARGETLIB are printed as FAILED in the long form (general negation). Proved if such errors do not occur. |
| C105 | --no-summarization lists every patch tried | partial | False of the code when all results are the same minor error: nothing is printed (proved in general). Proved in all other cases. |
| C106 | A wildcard selects exactly the matching live patches | partial | Exact characterisation of the files tried, with the paths longer than 255 bytes that the code skips excluded in the spec. False of the code with --recursive for directories with matching names (general negation); otherwise proved. fnmatch is a parameter; the file system does not change during the search. |
| C107 | The search for live patches ends and stays within its buffer | partial | Termination and absence of overflow proved for paths that do not end in a slash; for those that do, divergence is proved whenever the folder has a subdirectory. |
| C108 | Unloading metadata releases each block once | proved | Allocation and release only; every allocation and read may fail at any point. |
| C109 | A request leaves behind only the state of the patch | partial | False of the code: free_metadata frees neither the structure nor the dependencies, so every request leaks. Proved: that every refused request leaks, exactly what a granted request leaves, and that the tools leave nothing after a complete parse. |
| C11 | Bulk remote transfers complete or fail | partial | Holds if the kernel transfers all or nothing. False for split transfers: the iovecs are not advanced, so a transfer split in halves is reported complete without its second half, and others never end (proved). |
| C110 | Applying and reverting a patch gives the memory back | partial | False of the code: each round leaves 3 + dependencies + units + new roots blocks (container name, metadata structures, dependencies of the metadata, detours, roots). Proved exactly, and that n rounds leave at least 3n blocks. |
| C111 | The exit status of ulp check tells whether the patch is applied | partial | False of the code: errors reading the container give 1, which is also the answer "applied"; in an error state all patches are reported as not applied; with a long path an unassigned pointer is used. Proved: these three, what 0 means, and that the status is right when nothing fails (through the packer and the parser). |
| C112 | ulp check leaves the process as it was | proved |  |
| C113 | The dump shows what the metadata says | partial | False of the code: patch_offset is printed from target_offset, only 20 of the 32 bytes of the patch id, no dependencies and no target names are shown, and build ids shorter than 20 bytes are read past their end. Proved: two metadata with the same dump agree in everything else (C113_shown_partial), and the rest cannot be seen (C113_hidden). |
| C114 | ulp dump --buildid prints only the build id | partial | False of the code: the references (and comments) are printed as well. Proved, with: the first line is the build id. |
| C115 | From descriptions to calls | proved | The chain Dsc (packer) - Metadata (extract and parse) - SymLoad (lookup) - Runtime (libpulp). Situation assumed for applied patches: the target is the first loaded object with its name in the path, names stand for one offset, dlsym finds the new functions. That the .ulp section survives packing is Verif.Pack. |
| C116 | From descriptions to references | proved | References must not overlap each other. |
| C117 | Well-formed live patches are accepted | proved | Allocations succeed. |
| C118 | Requests during the start of a process are harmless | partial | False of the code: load_state is set by the first constructor, the lock pointers by the second; a request in between uses a NULL pointer (proved for each statement in between), one shortly after is granted although live patching is disabled (proved). Proved for all requests after the start. |
| C119 | Interposed functions always reach a function | partial | Proved if the four functions of the loader exist. If one does not, libpulp records an error and still calls it (proved). |
| C12 | Hijacked thread's stack is not corrupted | proved | The register computation of run_and_redirect for both architectures. |
| C120 | Calls made before libpulp is ready are respected | partial | False for calls that started before libpulp knew the functions, which are not counted (proved). Proved for all others, and that after the start there are no new such calls. |
| C121 | A command line of ulp means what it says | proved | argp is modelled (glibc is not part of the repository): permuting mode, abbreviations, joined short options. The table of options is that of the first word that names a command (C122). |
| C122 | The options of a command line are those of its command | partial | False in general: the table of options is chosen by the first word equal to a command name, also if it is the value of an option or the program name. Holds if none of them is such a name. |
| C123 | Commands that attach to processes are refused under ptrace_scope, and only they | proved | The status 1 of the refusal is the one by which ulp check says that a patch is applied. Levels are one character and a newline, as the kernel writes them; anything else fails an assertion. |
| C124 | --disable-seccomp is accepted exactly with CAP_SYS_ADMIN | proved | The status file has the form the kernel writes: every line begins with a word, the capabilities are 16 hexadecimal digits. |
| C125 | ulp trigger with a user touches no process | proved | The option is documented but not supported. |
| C126 | The number given on the command line is the number used | partial | False for retries from 2^31 on (taken modulo 2^32) and for digits followed by other text (ignored); holds for decimal numbers below 2^31, and for time limits below 2^63. |
| C127 | A live patch is sent to the processes it fits, with a path they can open | partial | False for long paths: from 4095 bytes on the tool reports missing metadata, and with a process rooted in /proc a --root of 4088 bytes or more overflows a static buffer. Holds below, for build ids of 20 bytes. |
| C128 | A process newer than the tool is left alone | proved | A version that cannot be read counts as old. |
| C129 | A thread entering a function while patches come and go continues correctly | partial | Proved for libraries processed by ulp post and requests that add or remove one version of the function at a time. False otherwise: revert-all of two patches of a function leaves the trampoline with the older, superseded one, where a stopped thread continues; without ulp post a thread between the two nops executes the second byte of the jump. |
| C13 | Packed metadata is what the process parses | proved | create_patch_metadata_file, extract_ulp_from_so_to_mem and parse_metadata_from_mem, for allocations that succeed; whatever follows in the buffer. The dependency and reference lists are those the packer holds (its description parser prepends). |
| C130 | A reported success means that the live patch is in force | partial | False when the tool does not know the address of the queue (EOLDLIBPULP is ignored): C130_unknown_queue_never, for every process and every patch; and when a single write fails in certain ways (C07). Proved for all other failures. |
| C131 | Patches are in force as a whole or not at all, even when the tool fails midway | proved | Unless libpulp has recorded an internal error; failing single writes are excluded (C06, C07). |
| C132 | A reported failure means that nothing changed | partial | False when the queue cannot be reset after it was executed: the patch is in force, failure is reported (C132_failed_in_force_always: after every history, for every patch that libpulp accepts and any number of retries), and every later run fails. Proved for runs without failures after libpulp was asked. |
| C133 | Tools at work on the same process at the same time act one after the other | proved | Mutual exclusion through the main thread's tracer, and serialisability, for all interleavings. C133_gets_through shows that the steps suffice for a tool to complete; C133_killed that the condition on kills is needed, C133_killed_always that this is so for every process, every history and every request that changes anything. That hijack_threads succeeds only with all threads attached is C35. |
| C134 | ulp messages shows the log of one moment | proved | Snapshot consistency for all schedules, composed with C01; that tools run libpulp's functions only with the main thread attached is C133. Messages logged while the process starts are not modelled. |
| C135 | ulp messages looks at the process asked for | partial | Proved for numbers below 2^31, which all process numbers are. The full property is false of the code: atoi cuts larger numbers, so that the messages of another process are shown (C135_other_process, for all of them below 2^63). |
| C136 | No process can make ulp messages read outside of its buffer | partial | Exact condition proved (if and only if). The full property is false of the code: bottom and distance are not checked (C136_outside). |
| C137 | No running thread ever sees a patch in part, whatever tools are at work | proved | Combines C131 and C133. Kills in the middle of an action and failing single writes are excluded (see C06 and C133_killed for what they leave). |
| C138 | What the tool keeps about processes is released, each block once | partial | No block is released twice or used after release, for all runs; exactly one block is lost for every process of which the auxiliary vector or the link map cannot be read (proved, C138_lost: dig_load_bias and get_libname_dynobj return without freeing), so giving everything back is proved under the hypothesis that this does not happen. The task directory of a process lists the process itself (Linux). The case of C49_first_failure_ends, in which a listing with threads ends while the thread still runs, is not modelled here. |
| C139 | A listing ends in order | partial | False if /proc cannot be opened and threads are used: pthread_join is called for a thread never started (proved). Starting the thread and the queue succeed. |
| C14 | Revert metadata names the same patch | proved | Same, for write_reverse_patch. |
| C140 | A refused description is explained | partial | The layout is proved for all descriptions. That the marked part is the reported symbol holds for lines without NUL characters and nonempty names; with a NUL character more is marked (C140_nul). |
| C141 | The line that is named is the one to blame | proved | C141_always: refinement to the reader of Verif.Dsc; a NULL pointer used there becomes the message of the SIGSEGV handler, which names the line but not the reason (C141_reference_without_colon). |
| C142 | Killing the tool does not harm the process | partial | False as stated; proved: nothing happens if the tool holds no thread (C142_unaffected_partial). Otherwise, if threads take the signals they were stopped for (ptrace(2)), the process never is as before unless somebody helps (C142_halted); if the kernel forgets them it goes on, provided that all threads have stopped and the main one has its own registers (C142_goes_on_partial). SIGCONT at any later moment helps unless the main thread had been given the registers of a routine (C142_sigcont_partial); if it had, it never runs the program again and the process can die from any later moment (C142_lost). Facts about the kernel are from ptrace(2). |
| C143 | Killing the tool does not leave part of a patch visible | partial | Proved if threads take the signals they were stopped for and nobody sends SIGCONT, or if the tool was not in the middle of a queue when it was killed (C143_whole_partial); false otherwise: for every request and every number of its changes, threads can run with these and without the others (C143_any_part; C143_sigcont and C143_forgotten are cases in which one of two functions is patched). |
| C144 | The code that a live patch brings is the code in its container | partial | False as stated. Proved if the path was not opened before or the file is the same (C144_container_partial). In general a path that libpulp has opened once gives the old code for ever (C144_stale); C144_replaced is a complete history with the answer 0. |
| C145 | Code that calls are directed to stays in place | proved | C145_code_stays: the object is there now and after every later history; C145_one: no other object covers the address. |
| C146 | A refused live patch leaves nothing loaded | partial | False as stated. Proved for the answers given before the container is opened (C146_refused_partial). In general an opened container stays whatever the answer (C146_left); C146_refused_loaded is a refused patch with its container loaded. |
| C147 | Replacing live patches is all or nothing | partial | False in general: patches are reverted before the new one is known to be applicable. A live patch that depends on one in force for the same library always fails and leaves the library without patches (C147_left_without). True of runs that report success; when failure is reported either nothing has changed or all patches of the library are gone (C147_failure). The tool is assumed to know where the queue is. |
| C148 | Several live patches in one run are all in force at its end | partial | True without --revert-all. False with it: each live patch reverts those applied before it in the same run, so that only the last one for the library is in force although success is reported for all (C148_last_only). |
| C149 | The order in which live patches are found does not matter | partial | False in general: a live patch found before one that it depends on is refused (C149_wrong_order), and of two live patches for the same function the one found last is in force (C149_last_wins). True when dependencies are found first; and in any order all are in force after as many runs as there are live patches (C149_again). |
| C15 | Malformed metadata cannot corrupt the process | partial | Safe for every buffer without four consecutive 0xFF bytes and every pattern of failing allocations. False in general: a length field of 0xFFFFFFFF overflows the allocation size to 0 and the rest of the metadata is copied there (proved for all such metadata). |
| C150 | Processes are selected by the name of their program | partial | Proved for programs with names of at most 15 bytes whose processes kept them. False of longer names: given in full they never select anything, and no wildcard tells apart programs whose names share the first 15 bytes. Names with a slash count by what follows it. A number is always a process number. |
| C151 | Exactly the processes with libpulp loaded are listed | partial | Proved if every process that maps a file with libpulp.so in its path has libpulp loaded and ready. False otherwise: a process that maps such a file without having libpulp hides all processes if it comes first, or makes the one before it be handled twice. |
| C152 | Processes are selected by their owner | partial | Proved if /proc tells the owners, none of which is root, and all have names. False of processes that are not dumpable and of kernels without auditing: they are selected for every user name and for no user number. |
| C153 | The argument of ulp set_patchable means what it says | partial | "disable" is compared with strcmp, so that DISABLE is refused (negation proved); all else proved. |
| C154 | ulp set_patchable switches exactly the processes asked for | proved | The effect is stated for programs with short names (topic Names shows what happens to others); the bounds on changes hold for every selection. |
| C155 | ulp set_patchable tells what it did | partial | The exit status is 0 whatever happened, with -r 0 nothing is tried, and processes with internal errors are passed over silently (negations proved). |
| C156 | ulp livepatchable answers which libraries are livepatchable | partial | a yes is always right about the section; exact for 64-bit files with named sections; a null pointer is used for others, and the contents of the table are not looked at (negations proved) |
| C157 | ulp post prepares a library or leaves it as it is | partial | failure keeps the file, success changes entries only, and a second run changes nothing; functions without a symbol are skipped silently, and a failing write may leave anything (negations proved) |
| C158 | Comments of a livepatch are those of its file | partial | exact for files whose sections have names; a file with sections but without names makes the command compare with a null pointer (negation proved) |
| C159 | A patch reported as applied is in force | partial | False of the code: libpulp does not notice that a library was unloaded and loaded again; the check still answers applied, and a new apply is refused as already applied, while calls go to the unpatched function. Reverting first repairs it if the library came back at the same place. |
| C16 | Truncated metadata is rejected | partial | Every proper prefix of apply metadata is rejected when parsed with its own size (the trigger tool). False in the process, where zeros follow, and for revert metadata with names whose length is a multiple of 256 (both proved). |
| C160 | Reverting is safe whatever the program has loaded and unloaded | partial | False of the code: addresses of functions once patched are kept for ever, and a later revert of the same patch reads there (crash if unmapped, even if the patch had been reverted before unloading) and may write there. Proved: safe as long as the livepatchable functions themselves stay mapped and untouched. |
| C161 | On POWER, calls of a patched function reach the newest patch | proved | Histories of requests on POWER over the whole process memory; where a call goes is found by decoding the entry and the stub. |
| C162 | On POWER, reverting undoes exactly the patch | proved |  |
| C163 | On POWER, requests write only stubs, entries and references | proved |  |
| C164 | On POWER, references of a livepatch lead to the target's data | proved |  |
| C165 | On POWER, a refused apply leaves the process as it was | partial | False of the code: a function without the NOP is refused only after the 52 bytes in front of it have been queued to be overwritten (C165_refused_overwrites, for every such function); a livepatch refused with ENONEWFUNC, ENOADDRESS or EUNKNOWN while it is being applied leaves all of its functions replaced (C165_refused_keeps_*, for every such livepatch). The partial theorem covers every refusal except these four codes. |
| C166 | An applied patch runs the code of its container file | partial | False of the code: containers are never closed, so that dlopen returns the object loaded from the first file at that path (C166_earlier_code, for every history). Proved for paths and files not loaded before. |
| C167 | A refused patch loads nothing | partial | False of the code: a patch naming a function that its container lacks is refused after the container was loaded (C167_refused_loads). Proved for the refusals made before. |
| C168 | Code that calls were redirected to stays loaded | proved |  |
| C169 | A request that is cut short has no effect on later requests | partial | Holds for requests that are not cut, or cut before the metadata are allocated or after the routine returned. False otherwise: the next request works on the metadata of the cut one (earlier_instead, wrong_patch, twice, read_*), uses unset pointers (undefined), or is refused for ever when the cut was inside the allocator or the loader (stuck). |
| C17 | gdb path and trigger path build the same metadata | proved | inject_lp_path against extract_ulp_from_so_to_mem for the same path string; the trigger tool additionally resolves the path with realpath, which is not modelled. |
| C170 | A patch is in force wholly or not at all even if a signal arrives | partial | False: cut between two functions, the code is that of a patch with the first functions only. Holds for cuts before the first function is replaced. |
| C171 | A request that is not refused comes to an end | partial | False: every apply and every revert of a patch logs, logging takes the lock of the time zone, which the checks do not look at (apply_waits, revert_waits, happens); likewise functions of the allocator that are not interposed (upkeep_waits). Holds if no thread was stopped inside such a function (watched_partial). C171_exactly says exactly when a request ends. |
| C172 | Colours only colour | partial | Proved against a model of a terminal for ulp trigger, ulp patches and the messages of ulp packer, for names without escape characters. Names with escape characters are written as they are, and then the claim is false (shown). |
| C173 | Colours are used when asked for, or when they are of use | partial | Proved for no option and for yes, no and auto. Other words are not refused but turn colours on, also when writing to a file (shown). |
| C174 | --quiet is quiet | partial | False of the code: ulp trigger prints its totals, ulp patches prints everything, and messages called fatal are always printed (shown). Proved: no other message remains, and ulp check is quiet unless threads could not be let go or the routine did not end. |
| C175 | ulp patches shows each live patch on a line of its own | partial | Proved if the time of every patch is known. Patches without a time, as in processes with libpulp before 0.3.1, run together on one line (shown). |
| C176 | A request is carried out on the program that was looked at | partial | False of the code: nothing checks, after the process is stopped, that it still runs the program whose addresses were collected. Proved for every initial system and every new program; holds without execve and endings, and from the moment of stopping on. |
| C177 | A request changes the asked process and no other | partial | False of the code for a process and its child by vfork, whose memory is the same; proved for all processes that do not share memory. |
| C178 | No running process, and no child at its birth, has a request in part | partial | False of the code for a process and its child by vfork; proved for all processes that do not share memory. |
| C179 | A description of a library is read as it says, or refused | partial | Complete descriptions are read as they say; those without library, name or build id are refused. False of the code otherwise: a missing list of symbols or a nameless symbol crashes the tool, a missing address is taken as 0 and a large one as 2^31-1. |
| C18 | Calls reach the newest applied patch | proved | any history from a fresh process; requires that no internal error is recorded at the end (see C22, C25 for what happens then) |
| C180 | Threads that log at the same time stay within the ring | proved | Sequentially consistent steps; each of vsnprintf, memset, memcpy and strlen is one step. |
| C181 | A thread that logs comes to an end whatever others log | partial | False if empty messages are logged too (C181_empty_hangs), and for messages of exactly the size of the ring (C02). Proved for all other messages, with an explicit bound. |
| C182 | Messages logged at the same time are shown whole | partial | False of the code (C182_mixed, C182_torn: the static buffer into which messages are formatted is shared). Proved for threads that log one after the other. |
| C183 | The log says what went wrong | partial | False for libpulp_errx with a conversion in its text (lib/symbol_loader.c:203), as the va_list is passed to msgq_push: on x86-64 the name is always shown as an opening parenthesis, on POWER as bytes of an address. Proved for texts without conversions and for WARN and DEBUG; the log is assumed to have room (C03). |
| C184 | Libraries that stay loaded are seen while others come and go | partial | False in general (C184_missed, C184_gives_up): only the main thread is stopped, so a library can be unloaded while the tool is at it, and all libraries behind it are missed. Proved for the libraries in front of all that come and go, such as a preloaded libpulp. |
| C185 | A listing shows the live patches of one moment | partial | That the shown list is the list of one moment, with no tool inside, is proved for all executions. That it is in force then is proved if no tool is killed inside; it is false otherwise (C185_killed). |
| C186 | Descriptions are made by a bounded number of jobs, one for each library | proved | For all results and orders of the jobs. |
| C187 | A description that could not be made is noticed | partial | False: no failure is ever noticed (negation proved for all runs). What holds: all other libraries are tried. |
| C188 | Only the packages asked for are taken | partial | False in general: longer names that end in the one asked for are taken. Which packages are taken is characterised exactly. |
| C189 | A package's file is named after it | proved | For packages with a version and a release. |
| C19 | Reverting a patch undoes exactly that patch | proved | in states without recorded internal error |
| C190 | Packages past their support are dropped by age | partial | False in general: times are compared as texts. Holds for times of the same number of digits. |
| C191 | Libraries that cannot or need not be described are passed over | partial | False for libraries that are not live-patchable. The rest holds, through the parser of the tool. |
| C192 | A waiting system call goes on after live patching | partial | False of the code for system calls that the kernel does not restart; the negation is proved for every error code but the four that mean a restart. That stops without a signal interrupt such calls is a fact about Linux, in the trusted base. |
| C193 | The registers of a thread are as before live patching | partial | False of the code for vector and floating-point registers; the negation is proved for every function that changes them. |
| C194 | Routines are entered as the calling convention requires | partial | False of the code if the interrupted thread has the direction flag set; the negation is proved for every such thread. |
| C195 | errno is as before live patching | partial | False of the code; the negation is proved for every function that leaves an error number. |
| C196 | On POWER, a routine calls its function once, as the ABI requires | proved | Functions are assumed to keep to the ABI (stack pointer, caller's frame) when entered as it requires. |
| C197 | On POWER, the stack of the interrupted thread is as before | proved | Likewise. |
| C198 | On POWER, a thread goes on with the registers of a mere stop | proved | General registers only: vector registers are not saved on POWER either, see C193. |
| C199 | No process can keep the tools busy for ever | partial | False of the code: a link map or a list of live patches that leads back to itself, or a note whose lengths add up to 0 in 32 bits, is followed for ever (C199_*_never). Proved: these are the only cases; in all others reading ends, whatever is in memory. |
| C20 | The applied list is a set; re-applying is refused without effect | proved | check is exact while no internal error is recorded |
| C200 | The file of a program is found among the mappings of its process | partial | False of the code: programs with names of more than 15 bytes or in directories with a blank in their name are not found, and another file may be taken for the program. Proved otherwise: names of at most 15 bytes and no blanks in paths. |
| C201 | Looking for a program among the mappings has no undefined behaviour | partial | False of the code: with a path that has a part starting with a blank the tool reads bin_name[4294967295]. Proved for all lists of mappings without such paths. |
| C202 | The version that the tools work with is the one libpulp has | partial | Holds of texts of three numbers below 65536 whose words can be read. False with a suffix: the version is then 0. |
| C203 | Reading the version of libpulp stays within what has been read | partial | Defined exactly if the text ends within 32 bytes and its words can be read; false of longer texts, as the result of read_string_allocated is not looked at. |
| C204 | On POWER, a thread entering a function while patches come and go continues correctly | partial | Proved for requests that add or remove at most one version of the function each. False otherwise: revert-all of two patches of a function leaves the older one in the stub, where a stopped thread continues (execution given); C204_always_a_version is what holds for all requests. |
| C205 | From descriptions to calls, on POWER | proved | The POWER counterpart of C115. The 44 bytes of the stub are a parameter; C196 and C197 and C198 have what their execution does. |
| C206 | From descriptions to references, on POWER | proved | The POWER counterpart of C116. |
| C207 | Well-formed live patches are accepted on POWER | proved | The POWER counterpart of C117: 96 bytes of the queue for a function, 40 for a reference. |
| C208 | ulp patches shows when a live patch was applied | partial | C208_suffix is the general negation for versions with a suffix. C208_times_shown_partial has what holds of versions a.b.c; missing are versions that cannot be read (C203) and objects without symbols (C98). |
| C209 | A function is never left half redirected on x86-64 | partial | Proved for functions patched for the first time, for replacements taken back, and for replacements in the same aligned 64 KiB. The rest is false of the code: C209_torn gives, for every two other replacements, the request at which ending the tool sends calls to neither. |
| C21 | Dependencies stay satisfied | proved |  |
| C210 | A function is never left half redirected on POWER | partial | Proved for functions patched for the first time, for replacements taken back, and for replacements in the same aligned 4 GiB. The rest is false of the code: C210_torn gives, for every two other replacements, the request at which ending the tool sends calls to neither. |
| C211 | References of a livepatch are set by the time its functions are called | partial | The full statement is false of the code: C211_functions_first shows, for every successful apply in every history, a moment at which all functions are redirected and no reference is set. What holds: references stay during a revert, and the end of the queue gives the state of C18 and C50. |
| C212 | References of a livepatch are set by the time its functions are called, on POWER | partial | The full statement is false of the code on POWER as well: C212_functions_first shows the moment in general. What holds: references stay during a revert, and the end of the queue gives the state of C161 and C164. |
| C213 | A reference of a livepatch is right or as it was before | partial | The full statement is false of the code for thread-local variables: C213_torn shows, for every such reference, a request at which the tool may end and the reference is neither right nor as before. C213_thread_partial shows that this is the only other outcome; for ordinary variables the statement holds. Assumes that a request that ends the tool has written nothing of its word. |
| C214 | A tool that ends before making the changes leaves a process that is lost for livepatching | proved | Both architectures. That nothing changes any more is for histories of well formed requests (all of them decodable); the rest is for every state. |
| C215 | On POWER, a reported success means that the live patch is in force | partial | False when the tool does not know the address of the queue (C215_unknown_queue_never, for every process and patch) and when a single write fails in certain ways (C07). Proved for all other failures. |
| C216 | On POWER, patches are in force as a whole or not at all, even when the tool fails midway | proved | Unless libpulp has recorded an internal error; failing single writes are excluded (C06, C07). |
| C217 | On POWER, a reported failure means that nothing changed | partial | False when the queue cannot be reset after it was executed (C217_failed_in_force_always: after every history, for every patch that libpulp accepts and any number of retries). Proved for runs without failures after libpulp was asked. |
| C218 | On POWER, tools at work on one process at the same time act one after the other | proved | For all interleavings. C218_killed_always: the condition on kills is needed for every process, history and request that changes anything. |
| C219 | On POWER, no running thread ever sees a patch in part, whatever tools are at work | proved | Unless libpulp has recorded an internal error; failing single writes and kills in the middle of an action are excluded in the statement. |
| C22 | Internal errors freeze livepatching | partial | The claim holds when the queue is empty. It is false otherwise, proved in general: whatever writes an earlier request left in the queue are made with the next request, which is answered with the error (C22_leftover_executed). |
| C220 | Replacing live patches is all or nothing on POWER | partial | False in general, as C147: a live patch that depends on one in force for the same library always fails and leaves the library without patches (C220_left_without). True of runs that report success; when failure is reported either nothing has changed or all patches of the library are gone (C220_failure). The tool is assumed to know where the queue is. |
| C221 | Several live patches in one run are all in force at its end on POWER | partial | True without --revert-all. False with it: each live patch reverts those applied before it in the same run, so that only the last one for the library is in force although success is reported for all (C221_last_only). |
| C222 | The order in which live patches are found does not matter on POWER | partial | False in general: a live patch found before one that it depends on is refused (C222_wrong_order), and of two live patches for the same function the one found last is in force (C222_last_wins). True when dependencies are found first; and in any order all are in force after as many runs as there are live patches (C222_again). |
| C223 | A listing shows the live patches of one moment on POWER | partial | That the shown list is the list of one moment, with no tool inside, is proved for all executions. That it is in force then is proved if no tool is killed inside; it is false otherwise (C223_killed). |
| C224 | Killing the tool does not harm the process on POWER | partial | False as stated, as C142; proved: nothing happens if the tool holds no thread (C224_unaffected_partial). Otherwise, if threads take the signals they were stopped for, the process never is as before unless somebody helps (C224_halted); if the kernel forgets them it goes on, provided that all threads have stopped and the main one has its own registers (C224_goes_on_partial). SIGCONT helps unless the main thread had been given the registers of a routine (C224_sigcont_partial); if it had, it never runs the program again and the process can die from any later moment (C224_lost). Facts about the kernel are from ptrace(2). |
| C225 | Killing the tool does not leave part of a patch visible on POWER | partial | Proved if threads take the signals they were stopped for and nobody sends SIGCONT, or if the tool was not in the middle of a queue when it was killed (C225_whole_partial); false otherwise: for every request and every number of its changes, threads can run with these and without the others (C225_any_part; C225_sigcont and C225_forgotten are cases in which one of two functions is patched). |
| C226 | A patch reported as applied is in force (POWER) | partial | False of the code as on x86-64 (C159): libpulp does not notice that a library was unloaded and loaded again; the check still answers applied, and a new apply is refused as already applied, while calls go to the unpatched function. Reverting first repairs it if the library came back at the same place. |
| C227 | Reverting is safe whatever the program has loaded and unloaded (POWER) | partial | False of the code: a later revert reads at addresses of functions once patched (crash if unmapped). On POWER it also writes the 52 bytes of the trampoline before such an address whatever is there, if another patch still replaces the function (the check for the NOP comes after the write). Proved: the code from these addresses on is kept unless it looks like an entry; safe as long as the livepatchable functions themselves stay mapped and untouched. |
| C228 | A request on POWER that is cut short has no effect on later requests | partial | Holds for requests that are not cut, or cut before the metadata are allocated or after the routine returned. False otherwise, as on x86: the next request works on the metadata of the cut one (earlier_instead, wrong_patch, twice, read_*), uses unset pointers (undefined), or is refused for ever when the cut was inside the allocator or the loader (stuck). Later requests after a cut between the two writes of one function are not covered. |
| C229 | On POWER a patch is in force wholly or not at all even if a signal arrives | partial | False: cut between two functions, the code is that of a patch with the first functions only. Holds for cuts before the first function is replaced, and for each function by itself even if cut between the two writes for it. Cuts within a revert are not covered. |
| C23 | Disable/enable only toggles the user block | proved |  |
| C24 | A busy process is left untouched | proved |  |
| C25 | A refused patch redirects nothing | partial | False for the four errors found while units are being applied (ENOPATCHABLE, ENONEWFUNC, ENOADDRESS, EUNKNOWN): proved in general, for every process without an error and every livepatch refused with one of them, that the memory is that of a process in which the first functions, or all functions and the first references, have been applied (C25_refused_keeps_*). True for all other errors (C25_refused_without_effect_partial). |
| C26 | A patch is only applied to the library build it was made for | partial | False of the code: the sense of memcmp is inverted (lib/ulp.c:1007). Proved: the exact decision of check_build_id, that any same-length different build id of any library makes it accept, and that it refuses when only the right one is loaded. The partial theorem keeps what is left (some library has a build id of that length). |
| C27 | The trigger tool refuses the wrong library build | partial | Proved as iff for the three results with 20-byte build ids. For longer ones only the first 20 bytes are compared, for shorter ones memcmp reads past the buffer: both proved. |
| C28 | Revert-all reverts everything of that library | partial | true when no patch of another library depends on this one's; otherwise revert-all never returns (proved for every such reachable state) |
| C29 | Universe counter orders patches | proved |  |
| C30 | Only entry pads and declared references are modified | proved | any history, including those with refused requests and internal errors; functions and references of refused patches count as named |
| C31 | Non-patchable functions are refused and untouched | partial | x86-64. False for functions that begin with a short jump of their own (negation proved in general: every such function is accepted, and patching and unpatching it loses its jump and the bytes in front of it); true otherwise. |
| C32 | Entry patching is valid machine code | proved | Against a small-step semantics of the five instructions in entry pads. |
| C33 | Patching never overlaps an allocator or loader call | proved | Invariant over all executions of a transition system with any number of threads, nested calls and loader locks, threads stopped during a request (as the trigger tool does). C33_broken_when_not_stopped shows that this premise is needed. Calls made before the real functions are resolved are not modelled. C33_counter_off_always and C33_broken_always show in general that without stopping the other threads the counter gets too low by any amount and requests then proceed inside that many calls; C33_refused_always that idle processes are refused with EAGAIN from then on. |
| C34 | Process work queue is FIFO and loses nothing | proved | Invariant over all interleavings of one producer and one consumer, each semaphore operation and memory access a step, any capacity >= 1 and any element type; sequentially consistent memory. A sem_wait that fails (EINTR) is not a step: enqueue then returns an error without storing. |
| C35 | Hijacking is all or nothing | partial | Transition system of the tool against a process whose threads run, start and end. Success: proved that all threads are attached if none ends meanwhile; a thread that starts another one and ends behind the listing escapes (execution given). Failure: proved that nothing stays attached, except in two cases shown false of the code: waitpid failing in attach(), and the unchecked detach after a failing get_regs. Restoring: proved in full. C35_thread_escapes_always shows for any process with two or more threads how one escapes when threads start others and end meanwhile. |
| C36 | Trigger retries a bounded number of times and reports the last result | proved | All retry counts and all behaviours of the process. Also shown: a failing release is not reported when the patch was applied. |
| C37 | Exit status reflects failures | partial | Holds for counters with a livepatch file, and for the exit status if some error code is not a multiple of 256. False otherwise: EUNKNOWN (256) becomes exit status 0, and with a wildcard the exit status is always 0. |
| C38 | Version numbers round-trip and compare correctly | proved |  |
| C39 | Build ids print faithfully | proved |  |
| C40 | Basename is the part after the last slash | proved |  |
| C41 | Every libpulp error code has its own message | partial | true for EUNKNOWN..EDLOPEN, false for ENOLIBDL and ENOLIBC (missing comma in the table, proved) |
| C42 | Temporary file choice terminates with an unused name | partial | true if the first candidate is unused; false otherwise: after one conflict the function never returns, and unreadable files count as unused (proved) |
| C43 | Patch ids use standard MD4 | proved | for inputs whose padded length fits 64 bits; memory allocation is assumed to succeed |
| C44 | Post-processing keeps functions patchable and changes one byte | proved | x86_64, all libraries whose patchable entries do not overlap, whenever the tool succeeds; C44_succeeds says when it does, and C44_tls_symbol_confuses shows that symbols with misleading values are undefined behaviour. libelf writing the file is not modelled. |
| C45 | Early allocation emulation obeys the C/POSIX contract | partial | posix_memalign as stated for all alignments and sizes; aligned_alloc for all alignments but 0, which is accepted with size 0 (proved). |
| C46 | POWER: branch encoding reaches the trampoline | proved | For all negative word-aligned displacements of the 24 bits used; C46_not_for_forward shows that others (which are never requested) are not encoded. |
| C47 | POWER: return addresses are restored in LIFO order | proved | For every execution of a thread over the instruction-level model of the trampoline; __tls_get_addr may do whatever the ABI allows. Not included: non-local exits (C61) and signal handlers inside the trampoline (C62). |
| C48 | Disable-by-environment blocks exactly the matching processes | partial | Any fnmatch relation; token splitting proved against a declarative description. Holds if readlink gives a path shorter than PATH_MAX; otherwise the code writes outside its buffer (proved). |
| C49 | Process listing visits every live-patchable process once | partial | Proved if data can be collected of all selected processes, and that the worker thread makes no difference in any interleaving. False otherwise: a failure for the first process ends the iteration with nothing (and with the thread may hang the tool), later failures repeat the process before; both proved in general. |
| C50 | References point at the target's data | proved |  |
| C51 | Printing patch labels stays inside the patch description | partial | Proved for texts that do not end in a character that can end a label. False of texts that end in a label: the scan steps over the NUL (proved for all texts ending in a bug number). |
| C52 | Enable/disable command acts only when needed and is idempotent | proved | For commands one after the other and any failure of hijacking, running or restoring. Also shown: the report after a failed hijack is undefined, and of commands at the same time only the parity of their number counts, so that any even number of concurrent disable commands can leave the process enabled. |
| C53 | Malformed build id texts are refused | partial | true for hexadecimal texts shorter than 20 or of at least 40 characters; false for 20..38 hexadecimal digits and for other characters (proved) |
| C54 | The tool finds the build id of every loaded library | partial | False of the code: the rounding `len += len % 4` is right only for even lengths. Proved for even lengths; proved that a build id after a 1-byte descriptor is missed and that an 18-byte build id is taken for a 20-byte one. |
| C55 | Being busy in the loader is temporary | partial | False of the code: dl_locks_held asserts that the futex words of the loader locks are 0 or 1, but a contended lock has 2; libpulp then goes into an error state for good. Proved in general, with the part that holds. |
| C56 | A busy process is tried again | partial | Holds when only reverting or only applying. Negation proved for both at once: busy after a successful revert is not tried again. |
| C57 | An error found at start-up is not forgotten | partial | Holds if no pattern matches. Negation proved: with a matching pattern the error is replaced by "blocked by user", and enabling makes the process patchable. |
| C58 | On POWER, activating and deactivating a patch changes only the entry | proved | For functions with the NOP at their entry or 8 bytes behind it, which is what get_branch_offset looks for. |
| C59 | On POWER, refusing to patch a function changes nothing | partial | False of the code for activations: the prologue is queued before the check, so the 52 bytes before a refused function are overwritten (proved for all refused functions). Proved for deactivations. |
| C60 | On POWER, the new function gets its caller's arguments and its results arrive | partial | Proved if __tls_get_addr preserves r4, r7-r11 and CTR, as its short path does. False for what the ABI allows: C60_any_jump shows that the trampoline may then jump anywhere. |
| C61 | On POWER, a non-local exit out of a livepatched function does not disturb later returns | partial | False of the code: after a non-local exit out of a livepatched function into a livepatched function the latter returns behind the call of the former (proved for all such executions). Proved for exits that leave no livepatched call. |
| C62 | On POWER, a signal handler may call livepatched functions | partial | False of the code: a handler that runs between the store of the used size and the reads of the entry overwrites the entry (proved for all states). Proved for handlers that run outside of the trampoline. |
| C63 | On POWER, the shadow stack of a thread that exits is freed | partial | False of the code: pthread_setspecific is never called, so the destructor never runs (proved for any number of growths). |
| C64 | Only the processes asked for are selected | partial | Proved except for root's processes and those of nameless users when a user name is asked for, which are selected always (proved). |
| C65 | All bug labels of a patch are shown | proved | For all texts in which each label is followed by a separator; a label at the very end of the text is the case of C51. |
| C66 | All comments of a description are embedded into the patch | partial | False of the code: read_comment leaves one byte unwritten behind each comment. If it is zero only the first comment is embedded, else the byte is embedded too (both proved for all comments). Proved for one comment and a zero byte. |
| C67 | Comments of any length stay within the packer's buffer | partial | Proved for lines shorter than 128 KiB; false for a first line of 128 KiB or more (proved). |
| C68 | Livepatches go to the library they name | partial | Holds if no object before the library has the library's name anywhere in its path and the program was not started under that name. False otherwise: names are compared with strstr and the first match wins (proved for all such processes). |
| C69 | A livepatch for a library that is not loaded does nothing | partial | The request is always answered with an error (proved), but before that the patch is recorded as applied and its functions are taken to be at their bare offsets (proved for all idle processes). |
| C70 | Preloading libpulp does not stop a program from starting | partial | Proved for C library 2.31 and newer whose dynamic linker has a DT_HASH section. False otherwise: the program exits (proved). What happens with the locks afterwards is C55. |
| C71 | A routine reported as finished did run to its end | partial | Proved when no signal reaches the process during the operation. In general false: any stop of the thread counts as success, so a signal that arrives while the routine runs makes the tool take it for finished with whatever the result register holds; the negation is proved for every routine. |
| C72 | The tool reports the routine's own result | partial | Proved when the interrupted thread's result register differs from the routine's error code. Otherwise the tool reports that the hook did not run, which is proved for every error code other than EAGAIN. |
| C73 | Live patching loses no signal | partial | Proved when no signal is sent between attaching and detaching. In general false: the tool continues the thread without passing on the signal it stopped for; proved for every signal other than SIGKILL. |
| C74 | After a time-out the process goes on as before | partial | The wait ends after the configured time (proved). The process is restored only when the routine was seen to stop; after a time-out the thread never returns to its own code and is killed by the trap at the routine's end once the tool is gone (both proved). |
| C75 | A library description in JSON says the same as the library | partial | Proved exactly when it holds: if and only if all offsets fit a signed 32-bit integer. For offsets of 2 GiB and above the offset read back is another one (proved). |
| C76 | Debug information of another build is not used | partial | Proved for debug information of the same build. Debug information of another build only gives a warning, and its offsets are recorded under the library's build id; debug information without a build id makes the tool use a NULL pointer (both proved). |
| C77 | A name in a description stands for the function of that name in the library | partial | Proved for names all of whose symbols have the same value. An undefined symbol hides a definition, and of several static functions only the last is found (both proved). |
| C78 | The tools find the build id of a library file | partial | Proved if the build id is the first note of its section. Otherwise false: the search continues at offset 1, and misses the build id or does not end (both proved). |
| C79 | Libraries with unsupported build ids are refused | partial | Nothing else than 20 bytes is accepted (proved), but longer build ids overflow the buffer and shorter ones abort the tool (proved for all). |
| C80 | Packed metadata says what the description says | proved | For descriptions of the grammar in Dsc/Spec.lean; what libelf and json-c return is taken as the library information. |
| C81 | The packer accepts only functions that exist | partial | False of the code: a function the target only imports counts as its own, with address 0. What holds for every accepted text is proved. |
| C82 | No description makes the packer touch invalid memory | partial | False of the code for the six kinds of text shown; proved safe for all texts without them. Comment lines are C66 and C67. |
| C83 | A live patch can be declared to depend on another | partial | False of the code: every dependency that is an ELF file is refused. Dependencies given as raw metadata are recorded (C80). |
| C84 | Offsets given explicitly are used | partial | False of the code for an explicit target offset of zero; true for offsets from 1 to 2^63-1. |
| C85 | Success of the packer means that the metadata is embedded | partial | False in general: the status of objcopy is never looked at, a failure to embed the comments is lost in a shadowed variable, and a failing execv returns in the child of vfork; each is proved. What is proved: with a working objcopy all sections are embedded and reach the process as described, and failures before objcopy runs are reported. |
| C86 | Packing again replaces what was packed before | partial | Holds for .ulp and .ulp.rev, and for .ulp.comments if the second description has comments; otherwise the old comments stay, which is proved. |
| C87 | Different live patches have different ids | partial | Only the first 16 of the 20 bytes of a build id are used: ids differ if those differ, and coincide if those and the descriptions agree; both proved. |
| C88 | A temporary file is always found and never one in use | partial | A path that is found is unused; but the conflict flag is never reset, so after one conflict the search never ends, which is proved. |
| C89 | gdb loads the same metadata as the trigger tool | partial | Proved for all 64-bit ELF files whose section names take at most 1280 bytes; for others the code has undefined behaviour (C90). |
| C90 | No container makes the gdb interface access invalid memory | partial | False in general, proved for four kinds of files: more than 1280 bytes of section names, headers larger than 64 bytes, names outside of the table, and metadata of less than 33 bytes. Lookup of a section is proved safe for files with sane headers and string table, whatever else they contain. |
| C91 | A bad container does not disable live patching | partial | False for files whose section headers have another size than 64 bytes: after them nothing is ever loaded. Proved for all other files. |
| C92 | The tools see every loaded library | partial | False of programs without PT_PHDR (bias taken to be 0), proved; also needs 15 readable bytes behind each name. Proved for all other process images. |
| C93 | The tools find libpulp's entry points where they are | partial | False of libraries with only a GNU hash table (no symbol found) and of symbols after one whose name is at the end of readable memory; both proved. Proved for all other process images with exactly one complete libpulp. |
| C94 | A process is used only after libpulp's constructor has run | partial | Under the conditions of C92 and C93; with only a GNU hash table the answer is 'try again later' at every time. |
| C95 | With --check-stack no live patch is applied over running code | partial | The check is characterised exactly, parsing of the maps file included. False of libraries whose name in the metadata is not in the lines of the maps file (for instance a symbolic link), and of the first address of the library; proved as C95_other_name and C95_first_address_missed. |
| C96 | A failed stack check changes nothing and is reported | partial | Proved for all runs with a live patch. False of --revert-all without a live patch: the check dereferences a null pointer while all threads are stopped (C96_revert_all_crashes). |
| C97 | ulp patches shows exactly the applied live patches | partial | Whole output characterised, for lists of any length. False when the metadata names the target by another base name than the file loaded has (nothing shown), of two libraries of the same base name (shown with both), and when a name ends within a word of the end of readable memory (undefined behaviour). |
| C98 | ulp patches shows exactly the live-patchable libraries | partial | Whole output characterised for objects with 1 to 8000 dynamic symbols counted by DT_HASH. False of objects without DT_HASH (uninitialised variable), of libraries whose functions start with endbr64 (not shown), and of functions beyond the first 8000 symbols. |
| C99 | The status shown is libpulp's error state | proved |  |

## Trusted base

- Lean's kernel (4.33.0).
- The axioms listed per theorem below: at most `propext`, `Classical.choice` and `Quot.sound`. There are no axioms of our own, no `sorry`, no `native_decide`, no `bv_decide`. Concrete examples use `decide`, `rfl` and `decide +kernel`, which the kernel evaluates.
- That the definitions in the models say what the cited C lines do. Nothing is extracted or compiled from the C code. The seeded edits in `seeded/LOG.jsonl` show that the theorems depend on the details of the definitions; they do not show that the definitions agree with the C code.
- That the specifications say what the English statements say.
- The environment as described in each model: the kernel (`ptrace`, `process_vm_readv`, `/proc`, signals), the C library (`malloc`, `realloc`, `snprintf`, `fnmatch`, `dl_iterate_phdr`, `dlopen`, `posix_memalign`), libelf, the processor. They appear as parameters or oracles with stated assumptions, as much as possible universally quantified (a failure may happen at any call).

## What is not modelled

- Building, packaging, `configure`, the test suite, the man pages.
- libelf itself: the models of the tools that read or write ELF files (Post, Prepare, Files, Extract, Inspect, BuildId) start from what libelf or the mapped bytes return, damaged files included where a property is about them.
- Reading of `/proc` text files beyond the fields that the models of Inspect and StackCheck take from them.
- The argument parser of the C library (`argp`); what `tools/ulp.c` does with the parsed arguments is modelled in Cli.
- `lib/interpose.c`: the order of library initialisation before the real functions are resolved.
- The lazy-loading glibc symbols of `lib/symbol_loader.c` for versions other than those cited in the models.
- Weak memory. The only shared memory of the tools is the queue of `tools/pcqueue.c`, whose accesses are ordered by semaphores; threads of the process are stopped while a request runs.
- Output formatting except where a property is about it.
- Signals other than where a property is about them.

## Axioms per theorem

No axioms:

- `Verif.BuildId.C27_functions_must_match`
- `Verif.AsUnsafe.C33_refused_always`
- `Verif.ErrState.C52_internal_error`
- `Verif.Messages.C136_outside`

`propext`:

- `Verif.InsnQueue.C08_newer_queue_never_executed`
- `Verif.BuildId.C27_short_build_id_ub`
- `Verif.X86.C31_foreign_jump_destroyed`
- `Verif.AsUnsafe.C33_broken_when_not_stopped`
- `Verif.Hijack.C35_wait_failure_leaves_attached`
- `Verif.Hijack.C35_getregs_failure_leaves_attached`
- `Verif.Hijack.C35_flag`
- `Verif.Trigger.C37_wildcard_exits_zero`
- `Verif.Text.C41_last_messages_wrong`
- `Verif.ErrState.C48_no_path_writes_outside`
- `Verif.ErrState.C52_internal_error_concurrent`
- `Verif.ErrState.C52_report_undefined`
- `Verif.ErrState.C52_concurrent_disable_enables`
- `Verif.ErrState.C52_concurrent_enable_disables`
- `Verif.ErrState.C52_one_at_a_time`
- `Verif.AsUnsafe.C55_busy_is_temporary_partial`
- `Verif.Ppc.C59_refused_deactivation_partial`
- `Verif.Ppc.C59_any_nop_accepted`
- `Verif.Ppc.C63_never_freed`
- `Verif.Ppc.C63_partial`
- `Verif.Listing.C64_root_always`
- `Verif.Listing.C64_nameless_always`
- `Verif.Extract.C76_no_buildid_debuginfo`
- `Verif.Extract.C79_accepted_length_partial`
- `Verif.Pack.C88_unused_partial`
- `Verif.Pack.C88_no_conflict`
- `Verif.Pack.C88_conflict_hangs`
- `Verif.MiniElf.C91_error_state_blocks`
- `Verif.MiniElf.C91_bad_file_disables`
- `Verif.Status.C99_old`
- `Verif.Check.C111_one_is_ambiguous`
- `Verif.Check.C111_error_state`
- `Verif.Cli.C121_command_named`
- `Verif.Cli.C122_value_taken_for_command`
- `Verif.Cli.C122_program_taken_for_command`
- `Verif.Cli.C123_free`
- `Verif.Cli.C124_no_proc`
- `Verif.Cli.C124_not_asked`
- `Verif.Messages.C135_refused`
- `Verif.Files.C156_exact_partial`
- `Verif.Files.C156_not_elf`
- `Verif.Files.C156_narrow_crashes`
- `Verif.Files.C156_nameless_crashes`
- `Verif.Files.C156_contents_ignored`
- `Verif.Files.C157_failure_keeps_file`
- `Verif.Files.C158_no_file`
- `Verif.Files.C158_no_names_undefined`
- `Verif.Waits.C171_happens`
- `Verif.Paint.C174_patches_all`
- `Verif.Paint.C175_joined`
- `Verif.Setup.C189_parts`
- `Verif.Setup.C191_described_partial`
- `Verif.Setup.C191_no_debuginfo_partial`
- `Verif.Setup.C191_not_livepatchable`
- `Verif.Setup.C191_described_alone_partial`

`Quot.sound`, `propext`:

- `Verif.InsnQueue.C05_queue_overflow_refused`
- `Verif.Runtime.C06_nonempty_queue_refused`
- `Verif.InsnQueue.C07_failed_write_reported_as_success`
- `Verif.Ptrace.C11_bulk_partial`
- `Verif.Ptrace.C11_split_transfer_lost`
- `Verif.Ptrace.C11_split_transfer_hangs`
- `Verif.Metadata.C13_extract_succeeds`
- `Verif.Metadata.C17_gdb_same_metadata`
- `Verif.Runtime.C22_libpulp_refuses`
- `Verif.Runtime.C22_leftover_queue_executed`
- `Verif.Runtime.C23_toggle_only_blocks`
- `Verif.Runtime.C25_refused_patch_redirects`
- `Verif.Runtime.C25_refused_keeps_first`
- `Verif.Runtime.C25_refused_keeps_functions`
- `Verif.Runtime.C25_refused_keeps_all`
- `Verif.BuildId.C27_long_build_id_prefix_only`
- `Verif.AsUnsafe.C33_proceeds_only_when_idle`
- `Verif.AsUnsafe.C33_others_outside_while_served`
- `Verif.AsUnsafe.C33_counter_off_always`
- `Verif.AsUnsafe.C33_broken_always`
- `Verif.PcQueue.C34_fifo`
- `Verif.PcQueue.C34_complete`
- `Verif.PcQueue.C34_in_bounds`
- `Verif.PcQueue.C34_no_overwrite`
- `Verif.Hijack.C35_success`
- `Verif.Hijack.C35_restore`
- `Verif.Hijack.C35_round_trip`
- `Verif.Trigger.C36_restore_failure_unreported`
- `Verif.Text.C39_buildid_round_trip`
- `Verif.Text.C39_buildid_print_injective`
- `Verif.Text.C39_buildid_fits`
- `Verif.Text.C40_basename`
- `Verif.Text.C40_basename_unique`
- `Verif.Text.C42_unused_first_candidate_partial`
- `Verif.Text.C42_returned_name_unused_partial`
- `Verif.Text.C42_conflict_never_ends`
- `Verif.Text.C42_unreadable_file_reused`
- `Verif.Md4.C43_md4_unique`
- `Verif.ErrState.C48_blocked_iff_listed_partial`
- `Verif.Listing.C49_all_once_partial`
- `Verif.Listing.C49_thread_same`
- `Verif.Listing.C49_first_failure_ends`
- `Verif.Listing.C49_failure_repeats`
- `Verif.Listing.C49_first_failure_hangs`
- `Verif.Listing.C51_no_overread_partial`
- `Verif.ErrState.C52_changes`
- `Verif.ErrState.C52_effect`
- `Verif.ErrState.C52_idempotent`
- `Verif.Text.C53_buildid_text_partial`
- `Verif.Text.C53_short_buildid_undefined`
- `Verif.Text.C53_garbage_uninitialized`
- `Verif.AsUnsafe.C55_contended_lock_disables_for_good`
- `Verif.Trigger.C56_busy_retried_partial`
- `Verif.Trigger.C56_busy_after_revert_not_retried`
- `Verif.ErrState.C57_start_error_kept_partial`
- `Verif.ErrState.C57_start_error_forgotten`
- `Verif.Ppc.C58_deactivate`
- `Verif.Ppc.C59_refused_activation_overwrites`
- `Verif.Listing.C64_selected_partial`
- `Verif.Listing.C66_one_comment_partial`
- `Verif.Listing.C66_only_first_comment`
- `Verif.Listing.C66_heap_byte_embedded`
- `Verif.Listing.C67_within_buffer_partial`
- `Verif.Listing.C67_overflow`
- `Verif.SymLoad.C68_named_library_partial`
- `Verif.SymLoad.C68_by_name_partial`
- `Verif.SymLoad.C68_applied_functions_partial`
- `Verif.SymLoad.C68_wrong_library`
- `Verif.SymLoad.C68_program_named_like_library`
- `Verif.SymLoad.C69_not_loaded_fails_partial`
- `Verif.SymLoad.C69_bare_offset`
- `Verif.SymLoad.C69_recorded`
- `Verif.SymLoad.C70_no_hash_crash`
- `Verif.SymLoad.C70_old_libc_crash`
- `Verif.Redirect.C71_routine_calls_once`
- `Verif.Redirect.C71_success_iff_stop`
- `Verif.Redirect.C71_premature`
- `Verif.Redirect.C71_success_without_running`
- `Verif.Redirect.C72_reported_not_run`
- `Verif.Redirect.C73_signal_lost`
- `Verif.Redirect.C73_pending_signal_lost`
- `Verif.Redirect.C74_gives_up`
- `Verif.Redirect.C74_never_returns`
- `Verif.Redirect.C74_timeout_kills`
- `Verif.Extract.C77_lookup_partial`
- `Verif.Extract.C77_undefined_shadows`
- `Verif.Extract.C77_duplicates`
- `Verif.Dsc.C82_safe_partial`
- `Verif.Dsc.C82_no_target`
- `Verif.Dsc.C82_long_target`
- `Verif.Dsc.C83_dependency_refused`
- `Verif.Pack.C85_early_failure_reported`
- `Verif.Pack.C85_objcopy_failure_ignored`
- `Verif.Pack.C85_comments_failure_ignored`
- `Verif.Pack.C85_exec_failure_crashes`
- `Verif.MiniElf.C90_short_section`
- `Verif.StackCheck.C96_tried_again`
- `Verif.StackCheck.C96_revert_all_crashes`
- `Verif.Report.C103_report_names_applied_and_failed`
- `Verif.Report.C104_report_agrees_with_totals_partial`
- `Verif.Report.C104_skipped_reported_as_failed`
- `Verif.Report.C105_every_patch_listed_partial`
- `Verif.Check.C111_zero_partial`
- `Verif.Check.C111_long_path`
- `Verif.Check.C111_range`
- `Verif.Check.C112_process`
- `Verif.Dump.C113_shown_partial`
- `Verif.Dump.C113_hidden`
- `Verif.Dump.C113_patch_offset`
- `Verif.Dump.C113_short_build_id`
- `Verif.Dump.C114_more`
- `Verif.Dump.C114_first_line_partial`
- `Verif.Startup.C119_reaches_function_partial`
- `Verif.Cli.C122_correct_line_refused`
- `Verif.Prepare.C127_long_path`
- `Verif.Prepare.C127_overflow`
- `Verif.Prepare.C128_newer`
- `Verif.Session.C130_unknown_queue`
- `Verif.Session.C130_unknown_queue_never`
- `Verif.Session.C132_failed_but_in_force`
- `Verif.Tools.C133_one_inside`
- `Verif.Tools.C133_one_by_one`
- `Verif.Tools.C133_killed`
- `Verif.Tools.C133_killed_always`
- `Verif.Messages.C134_address`
- `Verif.Messages.C135_process_number_partial`
- `Verif.Messages.C135_other_process`
- `Verif.Messages.C136_length`
- `Verif.Records.C139_no_proc`
- `Verif.Diag.C140_empty`
- `Verif.Diag.C140_nul`
- `Verif.Killed.C142_unaffected_partial`
- `Verif.Killed.C142_halted`
- `Verif.Killed.C142_goes_on_partial`
- `Verif.Killed.C142_sigcont_partial`
- `Verif.Killed.C142_lost`
- `Verif.Killed.C143_any_part`
- `Verif.Loader.C146_refused_partial`
- `Verif.Loader.C146_left`
- `Verif.Names.C150_by_name_partial`
- `Verif.Names.C150_same_start`
- `Verif.Names.C150_slash`
- `Verif.Names.C150_ended`
- `Verif.Names.C150_number`
- `Verif.Names.C151_mapped`
- `Verif.Names.C152_by_number_partial`
- `Verif.Names.C152_by_name_partial`
- `Verif.Names.C152_unseen_any_name`
- `Verif.Switch.C154_changes`
- `Verif.Switch.C154_effect`
- `Verif.Switch.C155_told_partial`
- `Verif.Switch.C155_status_always_zero`
- `Verif.Switch.C155_no_retries`
- `Verif.Switch.C155_errors_silent`
- `Verif.Files.C156_yes_has_section`
- `Verif.Files.C157_nothing_done_is_success`
- `Verif.Files.C157_bad_ends`
- `Verif.Power.C165_refused_keeps_functions`
- `Verif.Power.C165_refused_keeps_all`
- `Verif.Container.C167_refused_loads_nothing_partial`
- `Verif.Container.C168_never_unloaded`
- `Verif.Cut.C169_uncut_partial`
- `Verif.Cut.C169_after_partial`
- `Verif.Cut.C169_twice`
- `Verif.Waits.C171_exactly`
- `Verif.Waits.C171_watched_partial`
- `Verif.Waits.C171_refused_partial`
- `Verif.Waits.C171_apply_waits`
- `Verif.Waits.C171_revert_waits`
- `Verif.Waits.C171_upkeep_waits`
- `Verif.Paint.C172_plain_partial`
- `Verif.Paint.C172_packer_partial`
- `Verif.Paint.C172_names_as_they_are`
- `Verif.Paint.C172_recoloured`
- `Verif.Paint.C173_default`
- `Verif.Paint.C173_last_counts_partial`
- `Verif.Paint.C173_other_words`
- `Verif.Paint.C174_messages`
- `Verif.Paint.C174_trigger_totals`
- `Verif.Paint.C174_check_speaks`
- `Verif.Paint.C175_own_line_partial`
- `Verif.Json.C179_kind`
- `Verif.Moving.C184_first_partial`
- `Verif.Moment.C185_one_moment`
- `Verif.Moment.C185_can_be_made`
- `Verif.Setup.C186_bounded`
- `Verif.Setup.C186_each_once`
- `Verif.Setup.C187_others_done_partial`
- `Verif.Setup.C187_unnoticed`
- `Verif.Setup.C189_distinct`
- `Verif.Resume.C193_other_threads`
- `Verif.PpcMidway.C204_revert_all_stale`
- `Verif.Early.C211_end_partial`
- `Verif.Power.Early.C212_end_partial`
- `Verif.Abandoned.C214_nothing_yet`
- `Verif.Power.Abandoned.C214_nothing_yet`
- `Verif.Power.Run.C215_unknown_queue`
- `Verif.Power.Run.C215_unknown_queue_never`
- `Verif.Power.Run.C217_failed_but_in_force`
- `Verif.Power.Crew.C218_one_inside`
- `Verif.Power.Crew.C218_one_by_one`
- `Verif.Power.Crew.C218_killed`
- `Verif.Power.Crew.C218_killed_always`
- `Verif.Power.Glance.C223_one_moment`
- `Verif.Power.Glance.C223_can_be_made`
- `Verif.Power.Run.Slain.C224_unaffected_partial`
- `Verif.Power.Run.Slain.C224_halted`
- `Verif.Power.Run.Slain.C224_goes_on_partial`
- `Verif.Power.Run.Slain.C224_sigcont_partial`
- `Verif.Power.Run.Slain.C224_lost`
- `Verif.Power.Run.Slain.C225_any_part`
- `Verif.Power.Cut.C228_uncut_partial`
- `Verif.Power.Cut.C228_after_partial`
- `Verif.Power.Cut.C228_twice`

`Classical.choice`, `Quot.sound`, `propext`:

- `Verif.MsgQueue.C01_log_shows_newest_partial`
- `Verif.MsgQueue.C02_log_push_safe_partial`
- `Verif.MsgQueue.C02_full_ring_message_hangs`
- `Verif.MsgQueue.C02_hang_at_real_size`
- `Verif.MsgQueue.C03_nothing_dropped_while_room`
- `Verif.InsnQueue.C04_queue_round_trip`
- `Verif.InsnQueue.C04_queue_round_trip_in_process`
- `Verif.InsnQueue.C05_queue_overflow_history`
- `Verif.InsnQueue.C06_crash_never_mixes`
- `Verif.InsnQueue.C07_failed_write_reported_partial`
- `Verif.InsnQueue.C07_first_write_failing_reads_outside`
- `Verif.InsnQueue.C07_failed_write_memory_partial`
- `Verif.InsnQueue.C07_middle_write_reported_partial`
- `Verif.Ptrace.C09_write_exact`
- `Verif.Ptrace.C09_write_bytes`
- `Verif.Ptrace.C09_failure_reported`
- `Verif.Ptrace.C10_read_string_partial`
- `Verif.Ptrace.C10_read_string_allocated_partial`
- `Verif.Ptrace.C10_allocated_too_long_unterminated`
- `Verif.Ptrace.C10_string_at_mapping_end_fails`
- `Verif.Ptrace.C12_stack_below_red_zone`
- `Verif.Metadata.C13_roundtrip`
- `Verif.Metadata.C14_revert_roundtrip`
- `Verif.Metadata.C15_parser_safe_partial`
- `Verif.Metadata.C15_length_ff_overflows`
- `Verif.Metadata.C16_accepted_is_complete_partial`
- `Verif.Metadata.C16_cut_apply_rejected_partial`
- `Verif.Metadata.C16_cut_in_process_accepted`
- `Verif.Metadata.C16_cut_revert_accepted`
- `Verif.Runtime.C18_calls_reach_newest`
- `Verif.Runtime.C19_revert_undoes_exactly`
- `Verif.Runtime.C19_apply_then_revert`
- `Verif.Runtime.C19_revert_accepted`
- `Verif.Runtime.C20_applied_is_a_set`
- `Verif.Runtime.C20_check_exact`
- `Verif.Runtime.C20_reapply_refused`
- `Verif.Runtime.C21_dependencies_satisfied`
- `Verif.Runtime.C21_missing_dependency_refused`
- `Verif.Runtime.C21_depended_on_not_reverted`
- `Verif.Runtime.C22_internal_error_freezes_partial`
- `Verif.Runtime.C22_leftover_executed`
- `Verif.Runtime.C23_disable_enable`
- `Verif.Runtime.C24_busy_untouched`
- `Verif.Runtime.C24_retry_same`
- `Verif.Runtime.C25_refused_without_effect_partial`
- `Verif.Runtime.C25_unreadable_refused`
- `Verif.BuildId.C26_check_build_id_partial`
- `Verif.BuildId.C26_check_build_id_iff`
- `Verif.BuildId.C26_accepts_wrong_build_id`
- `Verif.BuildId.C26_refuses_right_build_id`
- `Verif.BuildId.C27_check_patch_sanity_partial`
- `Verif.Runtime.C28_revert_all_partial`
- `Verif.Runtime.C28_revert_all_hangs`
- `Verif.Runtime.C29_counter_never_decreases`
- `Verif.Runtime.C29_counter_counts`
- `Verif.Runtime.C29_largest_in_force`
- `Verif.Runtime.C30_only_pads_and_references`
- `Verif.X86.C31_non_patchable_refused_partial`
- `Verif.X86.C31_foreign_jump_accepted`
- `Verif.X86.C31_foreign_jump_lost`
- `Verif.X86.C32_entry_redirects`
- `Verif.X86.C32_disabled_falls_through`
- `Verif.AsUnsafe.C33_flag_counts_calls`
- `Verif.AsUnsafe.C33_busy_only_when_inside`
- `Verif.PcQueue.C34_no_deadlock`
- `Verif.Hijack.C35_success_all_partial`
- `Verif.Hijack.C35_thread_escapes`
- `Verif.Hijack.C35_failure_partial`
- `Verif.Hijack.C35_thread_escapes_always`
- `Verif.Trigger.C36_attempts`
- `Verif.Trigger.C36_result`
- `Verif.Trigger.C36_events`
- `Verif.Trigger.C37_file_counters`
- `Verif.Trigger.C37_file_ret`
- `Verif.Trigger.C37_file_exit_status_partial`
- `Verif.Trigger.C37_unknown_error_exits_zero`
- `Verif.Trigger.C37_wildcard_counters_partial`
- `Verif.Text.C38_version_round_trip`
- `Verif.Text.C38_version_text`
- `Verif.Text.C38_version_order`
- `Verif.Text.C41_own_message_partial`
- `Verif.Md4.C43_md4_is_rfc1320`
- `Verif.Post.C44_frame`
- `Verif.Post.C44_idempotent`
- `Verif.Post.C44_succeeds`
- `Verif.Post.C44_entry`
- `Verif.Post.C44_tls_symbol_confuses`
- `Verif.Alloc.C45_posix_memalign`
- `Verif.Alloc.C45_aligned_alloc_partial`
- `Verif.Alloc.C45_aligned_alloc_zero`
- `Verif.Ppc.C46_branch_decodes`
- `Verif.Ppc.C46_not_for_forward`
- `Verif.Ppc.C47_returns_to_caller`
- `Verif.Ppc.C47_return_is_transparent`
- `Verif.Runtime.C50_references_point_at_target`
- `Verif.Listing.C51_overread`
- `Verif.ErrState.C52_concurrent_parity`
- `Verif.ErrState.C52_concurrent_undone`
- `Verif.BuildId.C54_tool_finds_build_id_partial`
- `Verif.BuildId.C54_misses_build_id`
- `Verif.BuildId.C54_pads_short_build_id`
- `Verif.BuildId.C54_other_length_ignored`
- `Verif.Ppc.C58_activate`
- `Verif.Ppc.C58_round_trip`
- `Verif.Ppc.C60_arguments_partial`
- `Verif.Ppc.C60_results_partial`
- `Verif.Ppc.C60_any_jump`
- `Verif.Ppc.C61_longjmp_misreturns`
- `Verif.Ppc.C61_partial`
- `Verif.Ppc.C62_handler_outside_partial`
- `Verif.Ppc.C62_handler_in_window`
- `Verif.Listing.C65_labels_shown`
- `Verif.SymLoad.C70_starts_partial`
- `Verif.Redirect.C71_ran_to_end_partial`
- `Verif.Redirect.C72_result_reported_partial`
- `Verif.Redirect.C73_no_signal_lost_partial`
- `Verif.Redirect.C74_released_partial`
- `Verif.Extract.C75_json_roundtrip_partial`
- `Verif.Extract.C75_large_offset`
- `Verif.Json.C75_tree_roundtrip_partial`
- `Verif.Extract.C76_same_build_partial`
- `Verif.Extract.C76_foreign_debuginfo`
- `Verif.Extract.C78_first_note_partial`
- `Verif.Extract.C78_second_note_missed`
- `Verif.Extract.C78_search_never_ends`
- `Verif.Extract.C79_long_id_overflows`
- `Verif.Extract.C79_short_id_aborts`
- `Verif.Dsc.C80_describes`
- `Verif.Dsc.C80_reaches_process`
- `Verif.Dsc.C81_accepted_partial`
- `Verif.Dsc.C81_second_target_refused`
- `Verif.Dsc.C81_imported_function_accepted`
- `Verif.Dsc.C82_leading_colon`
- `Verif.Dsc.C82_nul_line`
- `Verif.Dsc.C82_reference_without_colon`
- `Verif.Dsc.C82_reference_with_one_offset`
- `Verif.Dsc.C84_offsets_used_partial`
- `Verif.Dsc.C84_zero_offset_ignored`
- `Verif.Dsc.C84_zero_offset_refused`
- `Verif.Dsc.C84_huge_offset`
- `Verif.Dsc.C84_negative_offset`
- `Verif.Pack.C85_embedded_partial`
- `Verif.Pack.C85_reaches_process`
- `Verif.Pack.C85_status_ignored`
- `Verif.Pack.C86_repack_partial`
- `Verif.Pack.C86_stale_comments`
- `Verif.Pack.C87_id`
- `Verif.Pack.C87_distinct_partial`
- `Verif.Pack.C87_same_id`
- `Verif.MiniElf.C89_section_partial`
- `Verif.MiniElf.C89_reported_partial`
- `Verif.MiniElf.C89_reaches_process_partial`
- `Verif.MiniElf.C90_safe_partial`
- `Verif.MiniElf.C90_long_strtbl`
- `Verif.MiniElf.C90_large_headers`
- `Verif.MiniElf.C90_name_outside`
- `Verif.MiniElf.C91_state_kept_partial`
- `Verif.Inspect.C92_objects_partial`
- `Verif.Inspect.C92_no_pt_phdr`
- `Verif.Inspect.C92_no_debug_tag`
- `Verif.Inspect.C93_entry_points_partial`
- `Verif.Inspect.C93_not_loaded`
- `Verif.Inspect.C93_gnu_hash`
- `Verif.Inspect.C93_name_at_end`
- `Verif.Inspect.C93_headers_elsewhere`
- `Verif.Inspect.C94_ready_partial`
- `Verif.Inspect.C94_gnu_hash`
- `Verif.Inspect.C94_not_loaded`
- `Verif.StackCheck.C95_check_iff`
- `Verif.StackCheck.C95_inside_refused_partial`
- `Verif.StackCheck.C95_broken_stack_refused`
- `Verif.StackCheck.C95_outside_accepted`
- `Verif.StackCheck.C95_other_name`
- `Verif.StackCheck.C95_first_address_missed`
- `Verif.StackCheck.C96_no_change_when_refused`
- `Verif.StackCheck.C96_refusal_reported`
- `Verif.Status.C97_patches_shown_partial`
- `Verif.Status.C97_other_name`
- `Verif.Status.C97_same_name`
- `Verif.Status.C97_name_at_end`
- `Verif.Status.C98_libraries_shown_partial`
- `Verif.Status.C98_gnu_hash`
- `Verif.Status.C98_endbr64`
- `Verif.Status.C98_many_symbols`
- `Verif.Status.C99_status`
- `Verif.SelfWrite.C100_protection_as_listed_partial`
- `Verif.SelfWrite.C100_long_line_hides_the_rest`
- `Verif.SelfWrite.C101_reported_write_is_done`
- `Verif.SelfWrite.C101_write_all_or_nothing`
- `Verif.SelfWrite.C101_possible_write_is_done`
- `Verif.SelfWrite.C101_write_up_to_page_end_refused`
- `Verif.SelfWrite.C101_refused_page_leaves_others_writable`
- `Verif.SelfWrite.C102_possible_requests_performed_partial`
- `Verif.SelfWrite.C102_success_without_any_write`
- `Verif.SelfWrite.C102_single_write_report_partial`
- `Verif.Report.C105_uniform_skips_not_listed`
- `Verif.Walk.C106_files_tried`
- `Verif.Walk.C106_files_tried_current`
- `Verif.Walk.C106_exactly_patches_partial`
- `Verif.Walk.C106_directory_tried_as_file`
- `Verif.Walk.C107_search_ends_partial`
- `Verif.Walk.C107_trailing_slash_diverges`
- `Verif.Heap.C108_apply`
- `Verif.Heap.C108_revert`
- `Verif.Heap.C108_tool`
- `Verif.Heap.C109_refused_leaks`
- `Verif.Heap.C109_apply_partial`
- `Verif.Heap.C109_tool`
- `Verif.Heap.C110_grows`
- `Verif.Heap.C110_exact_partial`
- `Verif.Check.C111_status_partial`
- `Verif.Dump.C113_packed_partial`
- `Verif.Flow.C115_calls_follow_descriptions`
- `Verif.Flow.C116_references_point_at_variables`
- `Verif.Flow.C117_accepted`
- `Verif.Flow.C117_revert_accepted`
- `Verif.Flow.C117_malformed_refused`
- `Verif.Startup.C118_requests_partial`
- `Verif.Startup.C118_early_request_crashes`
- `Verif.Startup.C118_early_request_granted`
- `Verif.Startup.C118_missing_named`
- `Verif.Startup.C119_missing_function`
- `Verif.Startup.C120_nobody_inside_partial`
- `Verif.Startup.C120_later_partial`
- `Verif.Startup.C120_early_call`
- `Verif.Cli.C121_meaning`
- `Verif.Cli.C121_information`
- `Verif.Cli.C121_wrong`
- `Verif.Cli.C122_own_options_partial`
- `Verif.Cli.C123_scope`
- `Verif.Cli.C123_check_says_applied`
- `Verif.Cli.C124_seccomp`
- `Verif.Cli.C125_user`
- `Verif.Cli.C126_retries_partial`
- `Verif.Cli.C126_timeout_partial`
- `Verif.Cli.C126_retries_wrong`
- `Verif.Prepare.C127_apply_partial`
- `Verif.Prepare.C127_revert_partial`
- `Verif.Midway.C129_thread_continues_partial`
- `Verif.Midway.C129_always_a_version_partial`
- `Verif.Midway.C129_revert_all_stale`
- `Verif.Midway.C129_unmerged_stuck`
- `Verif.Session.C130_success_in_force_partial`
- `Verif.Session.C130_patched_partial`
- `Verif.Session.C131_all_or_nothing`
- `Verif.Session.C131_nothing_left`
- `Verif.Session.C132_failure_changes_nothing_partial`
- `Verif.Session.C132_never_again`
- `Verif.Session.C132_failed_in_force_always`
- `Verif.Tools.C133_calls`
- `Verif.Tools.C133_gets_through`
- `Verif.Messages.C134_one_moment`
- `Verif.Messages.C136_print_safe_partial`
- `Verif.Crowd.C137_running_threads`
- `Verif.Crowd.C137_nothing_left`
- `Verif.Records.C138_listing`
- `Verif.Records.C138_given_back_partial`
- `Verif.Records.C138_lost`
- `Verif.Records.C138_single`
- `Verif.Records.C139_in_order_partial`
- `Verif.Diag.C140_message`
- `Verif.Diag.C140_missing_partial`
- `Verif.Diag.C140_expected_partial`
- `Verif.Diag.C141_blame`
- `Verif.Diag.C141_prefix`
- `Verif.Diag.C141_always`
- `Verif.Diag.C141_reference_without_colon`
- `Verif.Killed.C143_whole_partial`
- `Verif.Killed.C143_sigcont`
- `Verif.Killed.C143_forgotten`
- `Verif.Loader.C144_container_partial`
- `Verif.Loader.C144_stale`
- `Verif.Loader.C144_replaced`
- `Verif.Loader.C145_code_stays`
- `Verif.Loader.C145_one`
- `Verif.Loader.C146_refused_loaded`
- `Verif.Many.C147_replaced_partial`
- `Verif.Many.C147_failure`
- `Verif.Many.C147_left_without`
- `Verif.Many.C148_all_in_force_partial`
- `Verif.Many.C148_last_only`
- `Verif.Many.C149_in_order_partial`
- `Verif.Many.C149_again`
- `Verif.Many.C149_wrong_order`
- `Verif.Many.C149_last_wins`
- `Verif.Names.C150_long_name_never`
- `Verif.Names.C151_listed_partial`
- `Verif.Names.C151_impostor_hides`
- `Verif.Names.C151_impostor_repeats`
- `Verif.Names.C152_unseen_no_number`
- `Verif.Switch.C153_enable`
- `Verif.Switch.C153_other_refused`
- `Verif.Switch.C153_disable_small_only`
- `Verif.Files.C157_success`
- `Verif.Files.C157_functions_ready`
- `Verif.Files.C157_again`
- `Verif.Files.C158_comments_partial`
- `Verif.Unload.C159_reload_unnoticed`
- `Verif.Unload.C159_revert_repairs`
- `Verif.Unload.C160_unloaded_crashes`
- `Verif.Unload.C160_overwrites_other_code`
- `Verif.Unload.C160_other_code_kept`
- `Verif.Unload.C160_safe_partial`
- `Verif.Power.C161_calls_reach_newest`
- `Verif.Power.C162_revert_undoes_exactly`
- `Verif.Power.C162_apply_then_revert`
- `Verif.Power.C162_revert_accepted`
- `Verif.Power.C162_all_reverted_code_restored`
- `Verif.Power.C163_only_stubs_and_references`
- `Verif.Power.C164_references_point_at_target`
- `Verif.Power.C165_refused_without_effect_partial`
- `Verif.Power.C165_refused_overwrites`
- `Verif.Container.C166_current_code_partial`
- `Verif.Container.C166_earlier_code`
- `Verif.Container.C167_refused_loads`
- `Verif.Container.C168_replacements_stay`
- `Verif.Cut.C169_before_partial`
- `Verif.Cut.C169_stuck`
- `Verif.Cut.C169_earlier_instead`
- `Verif.Cut.C169_wrong_patch`
- `Verif.Cut.C169_undefined`
- `Verif.Cut.C169_read_nothing`
- `Verif.Cut.C169_read_part`
- `Verif.Cut.C170_half_patch`
- `Verif.Cut.C170_before_partial`
- `Verif.Paint.C172_trigger_partial`
- `Verif.Paint.C172_patches_partial`
- `Verif.Paint.C174_check_partial`
- `Verif.Kin.C176_same_program_partial`
- `Verif.Kin.C176_while_held`
- `Verif.Kin.C176_other_program`
- `Verif.Kin.C176_other_process`
- `Verif.Kin.C177_only_asked_partial`
- `Verif.Kin.C177_held_changes_partial`
- `Verif.Kin.C177_parent_written`
- `Verif.Kin.C178_running_partial`
- `Verif.Kin.C178_one_tool_partial`
- `Verif.Kin.C178_child_partial`
- `Verif.Kin.C178_apart_partial`
- `Verif.Kin.C178_parent_runs`
- `Verif.Kin.C178_two_tools`
- `Verif.Json.C179_read`
- `Verif.Json.C179_refused_partial`
- `Verif.Json.C179_no_symbols`
- `Verif.Json.C179_nameless`
- `Verif.Json.C179_taken_partial`
- `Verif.Json.C179_no_address`
- `Verif.Json.C179_large_address`
- `Verif.LogRace.C180_in_bounds`
- `Verif.LogRace.C181_returns_partial`
- `Verif.LogRace.C181_distance_partial`
- `Verif.LogRace.C181_empty_hangs`
- `Verif.LogRace.C182_turns_partial`
- `Verif.LogRace.C182_alone_partial`
- `Verif.LogRace.C182_mixed`
- `Verif.LogRace.C182_torn`
- `Verif.Reason.C183_warn`
- `Verif.Reason.C183_errx_partial`
- `Verif.Reason.C183_reason_partial`
- `Verif.Reason.C183_string_lost`
- `Verif.Reason.C183_address_shown`
- `Verif.Moving.C184_missed`
- `Verif.Moving.C184_gives_up`
- `Verif.Moment.C185_in_force_partial`
- `Verif.Moment.C185_killed`
- `Verif.Setup.C186_comes_to_end`
- `Verif.Setup.C187_success_after_failures`
- `Verif.Setup.C188_which`
- `Verif.Setup.C188_exact_partial`
- `Verif.Setup.C188_not_found`
- `Verif.Setup.C188_longer_name`
- `Verif.Setup.C190_age_partial`
- `Verif.Setup.C190_old_kept`
- `Verif.Resume.C192_goes_on_partial`
- `Verif.Resume.C192_goes_on_by_restart_partial`
- `Verif.Resume.C192_sees_error`
- `Verif.Resume.C192_not_in_call`
- `Verif.Resume.C193_registers_partial`
- `Verif.Resume.C193_vectors_partial`
- `Verif.Resume.C193_vectors_spoilt`
- `Verif.Resume.C194_entered_well_partial`
- `Verif.Resume.C194_direction_set`
- `Verif.Resume.C195_errno_partial`
- `Verif.Resume.C195_errno_of_function`
- `Verif.PpcEntry.C196_called_once`
- `Verif.PpcEntry.C197_stack_untouched`
- `Verif.PpcEntry.C198_as_if_stopped`
- `Verif.PpcEntry.C198_call_goes_on`
- `Verif.PpcEntry.C198_not_in_call`
- `Verif.PpcEntry.C198_call_succeeded`
- `Verif.Endless.C199_inspect_partial`
- `Verif.Endless.C199_patches_partial`
- `Verif.Endless.C199_notes_partial`
- `Verif.Endless.C199_inspect_never`
- `Verif.Endless.C199_patches_never`
- `Verif.Endless.C199_notes_never`
- `Verif.Ehdr.C200_program_partial`
- `Verif.Ehdr.C200_long_name`
- `Verif.Ehdr.C200_blank`
- `Verif.Ehdr.C200_other_file`
- `Verif.Ehdr.C201_defined_partial`
- `Verif.Ehdr.C201_undefined`
- `Verif.Version.C202_version_partial`
- `Verif.Version.C202_order`
- `Verif.Version.C202_suffix`
- `Verif.Version.C203_defined_partial`
- `Verif.Version.C203_long_text`
- `Verif.PpcMidway.C204_thread_continues_partial`
- `Verif.PpcMidway.C204_always_a_version`
- `Verif.PowerFlow.C205_calls_follow_descriptions`
- `Verif.PowerFlow.C206_references_point_at_variables`
- `Verif.PowerFlow.C207_accepted`
- `Verif.PowerFlow.C207_revert_accepted`
- `Verif.Loadtime.C208_times_shown_partial`
- `Verif.Loadtime.C208_suffix`
- `Verif.Torn.C209_first_partial`
- `Verif.Torn.C209_back_partial`
- `Verif.Torn.C209_near_partial`
- `Verif.Torn.C209_done`
- `Verif.Torn.C209_torn`
- `Verif.Torn.Power.C210_first_partial`
- `Verif.Torn.Power.C210_back_partial`
- `Verif.Torn.Power.C210_near_partial`
- `Verif.Torn.Power.C210_done`
- `Verif.Torn.Power.C210_torn`
- `Verif.Early.C211_functions_first`
- `Verif.Early.C211_revert_partial`
- `Verif.Power.Early.C212_functions_first`
- `Verif.Power.Early.C212_revert_partial`
- `Verif.Refs.C213_address_partial`
- `Verif.Refs.C213_thread_partial`
- `Verif.Refs.C213_torn`
- `Verif.Refs.C213_done`
- `Verif.Abandoned.C214_next_makes_changes`
- `Verif.Abandoned.C214_then_never`
- `Verif.Power.Abandoned.C214_next_makes_changes`
- `Verif.Power.Abandoned.C214_then_never`
- `Verif.Power.Run.C215_success_in_force_partial`
- `Verif.Power.Run.C215_patched_partial`
- `Verif.Power.Run.C216_all_or_nothing`
- `Verif.Power.Run.C216_nothing_left`
- `Verif.Power.Run.C217_failure_changes_nothing_partial`
- `Verif.Power.Run.C217_never_again`
- `Verif.Power.Run.C217_failed_in_force_always`
- `Verif.Power.Crew.C218_calls`
- `Verif.Power.Crew.C218_gets_through`
- `Verif.Power.Throng.C219_running_threads`
- `Verif.Power.Throng.C219_nothing_left`
- `Verif.Power.Run.Series.C220_replaced_partial`
- `Verif.Power.Run.Series.C220_failure`
- `Verif.Power.Run.Series.C220_left_without`
- `Verif.Power.Run.Series.C221_all_in_force_partial`
- `Verif.Power.Run.Series.C221_last_only`
- `Verif.Power.Run.Series.C222_in_order_partial`
- `Verif.Power.Run.Series.C222_again`
- `Verif.Power.Run.Series.C222_wrong_order`
- `Verif.Power.Run.Series.C222_last_wins`
- `Verif.Power.Glance.C223_in_force_partial`
- `Verif.Power.Glance.C223_killed`
- `Verif.Power.Run.Slain.C225_whole_partial`
- `Verif.Power.Run.Slain.C225_sigcont`
- `Verif.Power.Run.Slain.C225_forgotten`
- `Verif.Power.Gone.C226_reload_unnoticed`
- `Verif.Power.Gone.C226_revert_repairs`
- `Verif.Power.Gone.C227_unloaded_crashes`
- `Verif.Power.Gone.C227_overwrites_other_code`
- `Verif.Power.Gone.C227_overwrites_before`
- `Verif.Power.Gone.C227_other_code_kept`
- `Verif.Power.Gone.C227_safe_partial`
- `Verif.Power.Cut.C228_before_partial`
- `Verif.Power.Cut.C228_stuck`
- `Verif.Power.Cut.C228_earlier_instead`
- `Verif.Power.Cut.C228_wrong_patch`
- `Verif.Power.Cut.C228_undefined`
- `Verif.Power.Cut.C228_read_nothing`
- `Verif.Power.Cut.C228_read_part`
- `Verif.Power.Cut.C229_half_patch`
- `Verif.Power.Cut.C229_between_writes_partial`
- `Verif.Power.Cut.C229_before_partial`
