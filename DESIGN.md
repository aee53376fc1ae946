# Formal model of libiris: design

## Layout

    properties.jsonl        the properties, in terms of the API
    MANIFEST.json           property -> theorem names and status
    seeded/LOG.jsonl        results of breaking the model on purpose
    lean/Verif/Model/*      executable model of the code, function by function, with citations
    lean/Verif/Spec/*       small independent specifications (what the English says)
    lean/Verif/Lemmas/*     helper lemmas
    lean/Verif/Props/*      the property theorems, each with a non-vacuity example

The model is written as total computable functions. A `&mut self` function
returns the new value. A panic is an explicit outcome. A system call is either
an input of the model (an arbitrary oracle, so theorems hold for every OS
behaviour) or a small kernel model (descriptor tables, SCM_RIGHTS, open flags)
stated in `Spec/` and listed below as trusted.

## Trusted base

* Lean's kernel. Axioms: at most `propext`, `Classical.choice`, `Quot.sound`.
  No axiom is added, there is no `sorry`, no `native_decide`, no `bv_decide`.
* The reading of the Rust code: every model definition cites the file and lines
  it models and says where it simplifies.
* Rust `str` is a list of Unicode scalar values (`List Char`); `str` functions
  on an ASCII separator are modelled on that list.
* The Rust standard library's documented behaviour (HashMap, Vec, Mutex, CString).
* The postcard 1.x wire format (LEB128 varints, zigzag, length-prefixed strings
  and maps), which is a dependency and not in /repo.
* The kernel facts used by the models: open(2) flag meaning, SCM_RIGHTS
  (fd count = (cmsg_len - header) / 4), lowest-free-descriptor rule, FD_CLOEXEC,
  classic BPF semantics, SysV and i386 ABIs, the few x86 instructions used.

## Plan, property by property

| id | what is modelled | how it is proved |
|----|------------------|------------------|
| C01 | `nothing_allowed`, `evaluate_request` (Linux) | corollary of C02 and C15 |
| C02 | rule calls as a list of operations folded over `nothing_allowed`; lookups; canonical form; flags as `BitVec 32` | refinement to a spec on component lists: induction on the history for the map contents, induction on components for the ancestor walk |
| C03 | kernel meaning of open flags as a separate spec | bit-level case analysis on the flag word, then C02 |
| C04 | `path_is_sane` against an inductive spec of canonical paths | induction on split |
| C05 | same as C02 | corollaries on component prefixes |
| C06, C07, C08, C09 | same | corollaries of C02's characterisation of the tables |
| C10 | the `while` loop with an explicit probe counter | well-founded recursion on the path length; bound by induction |
| C11 | same | false of the code: negation proved; partial theorem for every non-root directory |
| C12 | flags | direct |
| C13, C14, C16, C17 | callbacks as a trace of notifications | direct, with a request-list induction for C14 |
| C15 | `evaluate_request`, `proxied_syscall` | direct |
| C18-C24 | broker loop as a state machine over received events with an OS oracle | trace invariants by induction on the message list. C23 is false (NUL byte in a path): negation plus partial. C24 is combined with the C25 kernel model |
| C25 | `send`/`recv` control-message layout, kernel SCM_RIGHTS model, LP64 and ILP32 | false on x86_64 (two descriptors are sent): negation for every table, theorem for ILP32 |
| C26 | seqpacket queue, truncation flags | direct |
| C27-C30 | postcard codec | structural inductions on varints, UTF-8 and lists |
| C31 | worker handlers over the codec size limit | false for paths over 64 KiB: negation, partial below the limit; C31_returns_iff gives the limit exactly, from the sizes of the path and of the flags in the message |
| C32 | threads, mutex, two queues, broker as an interleaving transition system | inductive invariant |
| C33, C34 | handles as bit vectors and a descriptor table | direct |
| C35 | affine handle API as a state machine over a table | inductive invariant |
| C36-C38 | ProcessConfig and Worker::new with fault oracles | induction over calls, direct |
| C39-C42 | descriptor table model of the entry point | induction on the directory listing; C40/C41 false in corner cases: negation plus partial |
| C43 | entry point as a function of an oracle for every system call | case analysis along the script |
| C44 | big-endian bytes through a pipe | direct |
| C45-C47 | rule list and libseccomp rule semantics | rule-level semantics, bit-vector reasoning. C45 false for the `mmap` of 32-bit x86, C47 false in a PID namespace |
| C48 | classic BPF interpreter (all instructions seccomp accepts) | symbolic execution of the prelude followed by an arbitrary program |
| C49 | byte-window patch loop | induction on the scan; false for one low half-word: negation plus partial |
| C50 | Model/Asm.lean: a small x86 machine (registers, byte-addressed memory, machine code, a kernel which may answer anything) and the two stubs, instruction by instruction; Spec/MachineCode.lean: a decoder of x86 written from the manual | symbolic execution; read-after-write lemmas on byte memory; every encoding is shown to be read back by the decoder |
| C51-C53 | worker handlers composed with the broker | functional composition; all three are violated by the code: negations plus partials |
| C54 | StackBuffer | induction over writes |
| C55 | Model/Concurrent.lean: any number of loops, each split at its system calls, sharing one descriptor table | ownership invariant over all interleavings, then each thread tracks its solo run. False on x86_64 when descriptor 0 is closed: negation plus partial |
| C56, C57 | Model/CApi.lean: boxes at addresses, undefined behaviour explicit | simulation by the Rust objects (Spec/CApi.lean); C56 violated at the 33rd handle: negation plus partial |
| C58, C59 | Model/WinPolicy.lean: decisions on files and registry keys; GetFullPathNameW is an oracle | both directions of the ancestor walk, textually, by induction on its recursion; tables by induction on the history. C59's KEY_READ part is violated: negation plus partial |
| C60 | command line builder and the standard parser | violated for quotes / empty arguments: negation, partial round trip |
| C61 | environment merge | induction |
| C62 | attribute loop with an adversarial OS | decreasing measure |
| C63 | x86 machine model | symbolic execution |
| C64, C65 | Windows broker calls | violated: negation plus partial |
| C66 | registry prefix mapping | direct; violated for names that only begin like a root |
| C67-C69 | trap handler, channel, broker loop and both descriptor tables composed | functional composition |
| C70 | the transition system of C32 | enabledness and a decreasing measure |
| C71 | signal handler | direct |
| C72-C75 | `Worker::new` and the entry point, with every system call an oracle | rewriting of the descriptor bookkeeping, then case analysis; C72 and C75 violated in corner cases |
| C76, C77 | `lower_final_sandbox_privileges` composed with the wire format, the patch loop and the BPF interpreter | functional composition; libseccomp's code generator is a hypothesis (`Spec.Faithful`), met by a reference compiler (Lemmas/RefCompiler.lean) |
| C78 | composition of C50 and C77 | direct |
| C79-C81 | as C56 | invariant over histories; C80 false, C79 and C81 false in corner cases: negations plus partials |
| C82-C85 | as C58 | corollaries of the description of the tables and of the walk; C82 and C85 violated: negations plus partials |
| C86-C90 | Windows messages, `ipc_loop`, `brokered_syscalls`, channel `send`/`recv`, handle tables of both processes, with every decision of the system an input | one lemma on the loop (transcript of any prefix, accounting of handles), then corollaries; codec by composition of the parsers of C27 |
| C91 | `hook_function`: tables of exports and imports of every module, search for free memory, trampolines in a byte-addressed memory | lemmas per table by induction on it; trampolines never overlap (allocation unit); induction on the list of hooked functions; counterexample by evaluation |
| C92, C93 | the hooks `NtCreateFile`, `NtOpenFile`, `NtCreateKey` from the structures the program passes to what is written back, joined to the model of the broker through the encoded messages | one exchange composed from the round-trips of C89 and the transcript of C86; exact limits by the sizes of encodings (`Spec/Sizes.lean`); counterexamples by evaluation and by the length of encodings |
| C94 | the same | case analysis on the parameters |
| C95 | the greeting, both ends | round-trip of C89 |
| C96, C97 | the negotiation loop of C62, with the profiles that exist and the attributes of each call | C62; counterexamples by evaluation |
| C98, C99 | access control lists of files, the search for DLLs, every call with an arbitrary result; `SetEntriesInAcl` is any function with the documented effect (`Spec.GrantsAccess`) | invariant of the list of one file over all calls; counterexamples by evaluation |
| C100, C101 | named pipes with several instances, `IpcChannel::new` of Windows call by call, with arbitrary acts of other processes between the calls and arbitrary results | case analysis of one attempt, induction over attempts; C101 by counting names (pigeonhole); counterexamples by evaluation and induction |
| C102–C105 | `Worker::new` of Windows from the channel to the thread: policy, configuration, environment, the creation loop of C62, the handles and streams of the new process, what is closed on every way out; what the worker reads from its environment | composition of C100, C62, C97, C61 with case analysis of every way out; counterexamples by evaluation |
| C106, C107 | Model/WinHandle.lean: programs of handle operations over a table of handles | ownership invariant over all programs without clone; clone violated: negation plus partials |
| C108 | Model/CApiWin.lean: a heap of blocks with layouts, `alloc` and `CString` call by call, with undefined behaviour explicit | symbolic execution for an arbitrary allocator; violated without extended attributes and for NUL: negations plus partial |
| C109 | Model/Context.lean: the registers the kernel saves when a call is intercepted, what the signal handler reads from and writes to them, and what the interrupted program resumes with | symbolic execution of the handler, composed with C69 and the broker's answer: only the result register differs, as after a system call |
| C110 to C113, C91 again | Model/WinImage.lean: `hook_function` on the bytes of memory: PE headers, the loader's list, pages with protections enforced on every load and store, all states passed through | C110: invariant closed under the code's operations, for any memory; C91, C111, C112: a relation between memories composed over entries, tables, modules and functions, from a description of the loaded modules; C113: total correctness along the same structure, free units as budget; counterexamples by evaluation |
| C114 | Model/ChannelPair.lean: sockets connected to each other, the tables of all processes, open files kept while reachable; any interleaving of creations, sends, receives and anything else the processes do to their tables | invariant of runs: messages arrived and messages waiting are together the messages sent; false for messages of zero bytes: negation plus partial |
| C115 | Model/LogText.lean: the `Display` of requests, the record of each verdict with its level; Spec/LogText.lean: a text log, one record per line | parsing from the right: the tails of refusals are suffix-free, numbers have no spaces, a path shown twice with a fixed number of quotes between is determined by its length; false for paths with line breaks: C115_violated |
| C116 | the same on Windows; Spec.SameOnPaper says what the records leave out | same technique; C116_violated, C116_violated_by_line_breaks |
| C117 | Spec/Reasons.lean: each sentence spelled out with the facts that make it true, hexadecimal read back | case analysis of the decision, with the lemmas of C02 about flags and rules |
| C118 | the same on Windows, for files, locks and registry keys | same, with the lemmas of C58 and C59; C118_violated for rights that are always granted |
| C119 | Model/PolicyText.lean: the `Debug` of policies, tables iterated in any order | each line is parsed from the right (suffix-free endings); decisions depend only on lookups; C119_violated, C119_locks_violated |
| C120 | Model/EntryIds.lean: the maps of users and groups as text, the kernel's parser and rules for the three files of /proc | decimal numbers are parsed back; case analysis over refusals |
| C121 | Model/EntryLog.lean: every line written while a worker starts, with the file it is written to, 200-byte buffer included | the log is computed step by step beside the model of C36 to C44 and shown equal to the refused steps of a table, with their source lines; each reason to give up is shown to be true (Spec.Reason); false for messages about standard error itself: C121_reason_lost_violated |
| C122 | Model/WinAttrList.lean: the loop of C62 again, with every local variable and vector as a block of memory, attribute lists which hold pointers, and drops in Rust's order; `none` is undefined behaviour | invariant of an iteration (blocks above those before, values readable), which shows that the result is that of `winCreate`; values gone before the list is deleted: C122_values_violated; C122_profile_ids_violated |
| C123 | Model/WinUser.lean: `get_current_user_sid`, the text of user identifiers | texts are cut at dashes, paths at backslashes; decisions by C59; C123_violated for names that only begin with the root |
| C124 | Model/WinThreads.lean: `send_recv` of threads, each with a stack of calls, as a logger can make hooked calls itself | simulation by the transition system of C32; a decreasing measure; C124_no_deadlock_violated for loggers that make hooked calls |
| C125 | Model/Context32.lean: the signal handler compiled for 32-bit x86: saved registers, words read as signed numbers, the call numbers of this machine | symbolic execution as in C109; calls by path are shown equal to those of the 64-bit handler; C125_stat64_violated |
| C126 | Model/ProcessMem.lean: creation of a process again, with vectors, C strings, the boxed parameters and stacks as blocks of memory and drops in Rust's order; the new process follows pointers in its copy; `none` is undefined behaviour | addresses of new blocks are fresh; memory after any drops is computed in closed form; refinement of `newProcess`; C126_violated when all `clone` calls fail |
| C127 | workerNew as in C36 to C44; Spec/CreationError.lean lists the causes of a failure, step by step | case analysis of each part: an error is that of the first cause, success means no cause; causes of a step are unique |
| C128 | channelSend, channelRecv, setInheritable, isInheritable as before; Spec/ChannelError.lean lists the reasons of a failure | equivalence between the errors and the reasons |
| C129 | Model/Creators.lean: calls of Worker::new as sequences of single system calls on a shared descriptor table, interleaved with each other and with anything else done to descriptors they neither own nor borrow | invariant over all executions (ownership of descriptors, borrowed descriptors unchanged, what is known at each point of a call); proof that an uninterrupted call is workerNew; decreasing rank |
| C130 | Model/WinErrors.lean: the errors of Worker::new on Windows, with the codes the system gives for each call that fails | agreement with winWorkerNew step by step; induction over the attempts of both loops; the error is that of the first of twelve causes; witness for the call whose failure is not told |
| C131 | Model/WinDllMem.lean: the functions of C98 and C99 with a log of what the system allocates for them, and of each use and release | invariant over the log (what is held, what was freed, no number twice), through each function and any number of creations; the results are those of Model/WinDlls.lean; growth by induction over the creations |
| C132 | Model/WinCreators.lean: calls of Worker::new on Windows as sequences of single system calls on shared handles, pipes and profiles, interleaved with each other and with anything else that leaves their handles and pipes alone | invariant over all executions (ownership of handles and of pipe ends, borrowed handles unchanged, numbers of profiles taken); proof that an uninterrupted call is winWorkerNew; decreasing rank; two concrete executions refute the full statement |
| C133 | Model/WholeBroker.lean: calls of Worker::new and the service threads they create, one system call at a time on one descriptor table, interleaved in every order and with anything else the program does to its own descriptors | projection of every execution on an execution of Model/Creators.lean and, for each worker, on one of Model/Concurrent.lean (all the rest being "something else the process does"); invariant that ties each thread to its call and each descriptor to one worker; a concrete execution refutes the full statement on x86_64 |
| C134 | Model/WinLoops.lean: the service threads of a Windows broker, one system call at a time on one handle table, interleaved with each other, with new workers and with anything else the broker does to handles of its own | invariant that each thread's two handles still refer to its own pipe and process as long as no message names a handle; induction over executions for what each thread calls, answers, gives and closes; a thread that is not interrupted equals the step of Model/WinBroker.lean; a concrete execution refutes the full statement |
| C135 | Model/WinCalls.lean: the function types the code declares for functions of Windows and for its hooks, where arguments are in registers and on the stack under each calling convention, how functions are found by name; Spec/WinCalls.lean: the types in the headers of Windows | induction over the arguments pushed or stored; case analysis of the declarations; C135_violated: on 32-bit machines the two functions of userenv.dll are declared extern "C" |
| C136 | Model/Files.lean: trees of directories, files and symbolic links; the kernel's path resolution and `open`, run on the actions of a whole session; Spec/Files.lean: which names lead to a file, what a worker may have done | invariant over the run: the tree is sound, has no link on the way to what the rules allow, and each opened file is named by an allowed path; induction over the path for the kernel's walk; false with a link (C136_violated, C136_violated_creates) |
| C137 | Model/Jail.lean: what system calls can do outside of the process (a call not described there may do anything), for a worker under the filter it loaded and its broker; Spec/Jail.lean: what it is to be locked down, from the computation of the filter to its loading | each allowed call is on the list of C46 (via C77 and libseccomp's promise), so the run projects to one of C136; false for three calls: negations for every locked down worker |
| C138 | Model/WinFiles.lean: trees of directories, files and reparse points; the kernel's side of `NtCreateFile` and what a worker does with its handles, run on the actions of a whole session; Spec/WinFiles.lean: which names lead to a file, what a worker may have done | invariant over the run, relative to the tree at the start: changes are where the rules allow, each opened file is new or was named by an allowed path; induction over the path for the kernel's walk; false with a junction on the way, by identifier, or if the worker can set reparse points |
| C139 | Model/WholeWin.lean: calls of Worker::new on Windows and the service threads they leave behind, one system call at a time on one handle table, interleaved in every order | projection of every execution on an execution of Model/WinCreators.lean and, for each worker, on one of Model/WinLoops.lean (all the rest being "something else the process does"); invariant that ties each thread to its call, each handle to one worker and each pipe to the process that has its other end; a concrete execution refutes the full statement |
| C140 | Model/ManyFiles.lean: the tree of files of Model/Files.lean shared by all workers of a whole broker (Model/WholeBroker.lean), with the files that go with replies and the workers' writes between them; Spec/ManyFiles.lean: which actions are whose, what a worker may have | invariant over the events (the tree is sound, no link is in any worker's way, each file a worker has is justified, each event changed only what its worker may), with what C133 says of every call of `open`; chaining of the events for the total; two workers with different rules are run for the examples, and refute the full statement |
| C141 | Model/WinKeys.lean: trees of keys and links; the kernel's side of `NtCreateKey` and `NtOpenKey` and what a worker does with its handles, run on the actions of a whole session; Spec/WinKeys.lean: which names lead to a key, what a worker may have done | invariant over the run, relative to the keys at the start, as for C138; induction over the path for the kernel's walk; false with a link, with another view of the registry, or if keys can be renamed |
| C142 | Model/ManyWin.lean: the files of Model/WinFiles.lean and the registry of Model/WinKeys.lean, each shared by all workers of a whole broker (Model/WholeWin.lean), with what workers do with their handles between the broker's calls; Spec/ManyWin.lean: which actions are whose, what a worker may do with what it has | for the total, the run is one of a single worker with all the rules, to which the invariants of C138 and C141 apply; for each worker, invariant over the events (what it has is justified by its own rules in the tree when it was opened, each event changed only what its worker may), with what C139 says of every call; two workers with different rules are run for the examples, and refute the full statement if junctions can be made |
| C143 | no new model: tables copied from the repository's tests, as specification | C67, C58, C92 and C59 applied to the rules and calls of the tests, with the file left arbitrary; the decisions of the Unix policy test are also computed on the model (Props/RepoTests.lean), which checks the model against the code's own expectations; C143_registry_violated |
| C144 | no new model: Model/WholeBroker.lean; Spec/Budget.lean counts the descriptors and steps from the events | invariant: what is held for a worker is what the model says it owns or a list of lost descriptors, which is empty until the worker's session or creation is about to end and gets what a message brought beyond its first file (Lemmas/Budget.lean); a rank of the phases bounds the steps; C144_violated |
| C145 | no new model: Model/WholeWin.lean; Spec/BudgetWin.lean counts the handles and steps from the events | invariant: what is held for a worker is what the model says its creation or its thread owns, or the handle of the process, left by a creation whose `GetProcessId` failed or kept by `Worker` (Lemmas/BudgetWin.lean); no hypothesis on the handles workers name; a rank of the phases bounds the steps; C145_violated |
| C146 | Model/Confined.lean: the calls of a program one after the other, through the worker's handler (Model/Worker.lean), the broker (Model/Broker.lean) and the files (Model/Files.lean), with the working directory; Spec/Confined.lean: the same calls without a sandbox | simulation: each call within the rules has the same outcome and leads to the same files and working directory, then induction over the run; walking from the root directory by the names of the working directory arrives there (Lemmas/Confined.lean); C146_violated, C146_violated_removed |
| C147 | Model/ConfinedWin.lean: the calls of NtCreateFile and NtOpenFile of a program one after the other, through the hooks (Model/WinWorker.lean), the broker (Model/WinBroker.lean) and the files (Model/WinFiles.lean); Spec/ConfinedWin.lean: the same calls made to the same kernel without a sandbox | simulation: each call within the rules has the same outcome and leads to the same files, then induction over the run; the option the broker adds changes nothing where no reparse point is in the last place (Lemmas/ConfinedWin.lean); C147_violated, C147_violated_overwrites |
| C148 | Model/ConfinedKeys.lean: the calls of NtCreateKey of a program one after the other, through the hook (Model/WinWorker.lean), the broker (Model/WinBroker.lean) and the registry (Model/WinKeys.lean); Spec/ConfinedKeys.lean: the same calls made to the same kernel without a sandbox | simulation as for C147; the call the broker makes is the one the program made; C148_violated |
| C149 | Model/Children.lean: the children of the broker as Linux keeps them (exit signal, program, status), with clone, execve, exit and waitpid; creations are those of Model/Process.lean | a child is unchanged by every event that is not about it, by induction over histories; C149_violated, C149_violated_stays, C149_violated_piles_up, C149_violated_runs_on |
| C150 | no new definitions: the executions of Model/WholeBroker.lean, and `execve` as in Model/Entrypoint.lean | the entry of a served worker's channel never changes (exec_entry), how each system call opens descriptors (all_opens), the pipe stays marked (pipe_sealed), by induction over executions; C150_violated, C150_violated_channel, C150_violated_new |
| C151 | no new definitions: the executions of Model/WinCreators.lean, a process created with `bInheritHandles` and no list getting every handle that is marked | what each system call marks (wgo_inheritable), and of the handles of a creation at most the worker's end is (wgo_marks, wexec_marks), by induction over executions; C151_violated |

## What is modelled, file by file

"Model" names the file in `lean/Verif/Model`. A part not listed as missing is modelled.

| file in /repo | model | missing or simplified |
|---------------|-------|-----------------------|
| policy/src/policy.rs, lib.rs, error.rs | Policy, LinuxPolicy, WinPolicy, LogText, PolicyText | other texts written to the log than those of verdicts |
| policy/src/linux/policy.rs, path.rs | LinuxPolicy, LogText | |
| policy/src/windows/policy.rs, path.rs | WinPolicy, WinStd, WinUser, LogText | `GetFullPathNameW` is an arbitrary function |
| ipc/src/channel.rs, lib.rs | Postcard | the traits themselves |
| ipc/src/linux/channel.rs, handle.rs, mod.rs | Channel, ChannelPair, Handle, Kernel | the queue of the socket is a list of packets |
| ipc/src/linux/messagepipe.rs | none | dead code: no `mod` includes it |
| ipc/src/windows/channel.rs | WinPipe, WinBroker, WinMessages, WinErrors | overlapped I/O is not used by the code |
| ipc/src/windows/handle.rs | WinHandle, WinBroker | |
| ipc/src/windows/messages.rs | none | dead code: no `mod` includes it |
| ipc/src/stackbuffer.rs | StackBuffer | |
| ipc-messages/src/linux/mod.rs, windows/mod.rs | LinuxMessages, WinMessages | |
| broker/src/worker.rs, process.rs, process_config.rs, error.rs | Process, ProcessConfig, Creators, WinLaunch, WinCreators, WholeWin, WinErrors, CApi | |
| broker/src/linux/process.rs | Process, Entrypoint, Children | the stack given to `clone` is big enough |
| broker/src/linux/ipc_loop.rs, brokered_syscalls.rs | Broker, Concurrent, Threads, WholeBroker, Files, ManyFiles (the kernel's `open`) | |
| broker/src/linux/seccomp.rs | Jail (what the calls do), Seccomp, Bpf | libseccomp turns rules into a filter: a hypothesis, `Spec.Faithful` |
| broker/src/windows/process.rs | WinProcess, WinDlls, WinDllMem, WinLaunch, WinCreators, WinErrors, WinCalls | |
| broker/src/windows/proc_thread_attribute_list.rs | WinProcess, WinAttrList | |
| broker/src/windows/get_proc_address.rs | WinCalls | |
| broker/src/windows/ipc_loop.rs, brokered_syscalls.rs | WinBroker, WinLoops, WholeWin, WinMessages, WinCalls, WinFiles (the kernel's `NtCreateFile`), WinKeys (the kernel's `NtCreateKey` and `NtOpenKey`), ManyWin | |
| linux-entrypoint/src/entry.rs, capabilities.rs, error.rs | Entrypoint, EntryIds, EntryLog, StackBuffer | declarations of libcap |
| worker/src/lib.rs | ProcessConfig, WinLaunch, Lockdown | |
| worker/src/linux/lockdown.rs | Lockdown, Sigsys, Context, Worker, Threads, Confined | |
| worker/src/linux/arch/*/seccomp.rs | Asm | |
| worker/src/windows/lockdown.rs | WinHook, WinImage, WinTrampoline, WinWorker, WinThreads, WinCalls, ConfinedWin, ConfinedKeys | the name of a module, read for the log (207-213) |
| bindings/C/broker/src/* | CApi, CApiWin | |
| bindings/C/worker/src/lib.rs | CApi | |
| tests/* | none | tests |

Also not modelled: compiler and hardware; libseccomp's code generation (only its documented rule
semantics); evaluation of access control lists inside Windows; fairness of scheduling; memory safety of
`unsafe` blocks other than where a property is about it; timing.

## Ways in which the code departs from its properties

Those with an identifier are theorems (suffix `_violated`) or hypotheses of a `_partial` theorem. The others were noticed while
reading the code and are not stated formally.

Linux policy and broker
* A rule for the directory `/`, or for a path that is not canonical, is accepted and grants nothing (C11).
* A granted path with a NUL byte panics the broker's thread (C23); in the C API a denied one does as well (C81, C108).
* The broker opens with the worker's flags; `O_CLOEXEC` is not forced, so the descriptor can leak into another worker created meanwhile.
* The broker follows symbolic links: where there is one on the way to what a rule allows, a worker is given a file no rule names, or
  makes one (C136, C140). Requests with `O_NOFOLLOW` are refused.
* On x86_64 the standard input of the broker goes to the worker with each file it is given (C75, C133, C140).
* Three system calls which are always allowed reach outside of a worker: `newfstatat` tells about every path, `sendmsg` sends datagrams
  to every socket with a name, `fcntl` arranges signals to other processes (C137).
* `handle_access` sends the access mode as open flags (C51); `access`, `stat` and `chdir` do not resolve relative paths (C52).
* `open("")` opens the working directory; in a working directory which was removed a relative path is taken from `/` (C146).
* On Windows a link in the last place of a path is never followed, also if the program asks for it and the rules allow both: it gets the link itself, or destroys it (C147).
* A program which may only read a key cannot open it with NtCreateKey, even if it exists (C148).
* A request over 64 KiB panics the worker (C31); a policy too big for one message makes `Worker::new` fail.

Descriptors
* On LP64, `cmsg_len` counts padding: the sender's descriptor 0 is sent along, and the receiver leaks it (C25, C68). With
  descriptor 0 closed, another worker's file can be sent (C55). A worker can make the broker leak one descriptor, with
  a message that ends its session (C144).
* Paths are written to the log unescaped: a worker forges lines of a text log with line breaks (C115, C116).
  Extended attributes are left out of the log (C116).
* While a Windows worker is created, values of attributes are freed before the list which points to them is deleted, and the
  identifier of the AppContainer profile is never freed (C122).
* A rule for `HKEY_CURRENT_USER1` is accepted and is about the hive of another user (C66, C123).
* If `GetProcessId` fails, the handle of the process created stays open (C132, C145).
* If all three calls of `clone` fail, the boxed parameters of the process are leaked (C126).
* On 32-bit x86, `stat` is recognised by the number of the oldest of its calls, 106, which C libraries do not use (C125).
  Not modelled: for a program that does use it, `libc::fstat` fills 88 bytes of a structure of 64.
* The worker of Windows logs while its channel is locked: a logger that opens a file waits for itself for ever (C124).
* A refused request for registry rights that are always granted is said to ask for read-write access (C118).
* A printed policy shows all kinds of locks as `block_readers` (C119).
* A message which serializes into zero bytes, such as `()`, is taken for the end of the channel (C114).

Creation of Linux workers
* The descriptors are cleaned up only inside the loop over allowed ones; redirecting to its own number is fatal; stdout and stderr
  can alias; the channel is lost if its number is at most 2 (C40, C41, C72, C75).
* Failures to drop capabilities are not fatal; a failure to build the filter leaves the worker without one (C43, C77).
* The reason why a worker cannot set up its standard error is lost; without a standard error in the broker, messages are
  written into another file (C121). `umask(0o600)` masks the owner's rights instead of the others'.
* An error of `read` on the error pipe counts as success; a worker whose handshake fails is not killed (C149).
* `clone` is given no exit signal and nobody waits: each creation whose program cannot be executed leaves a process that ended
  and that `waitpid` does not see without `__WALL` (C149).
* The broker's end of each channel is never marked `FD_CLOEXEC`: every other program the application starts gets it (C150).

Seccomp
* i386 `mmap` (number 90) can map executable memory (C45); `kill` compares with the process identifier of the broker's
  namespace (C47); the scan for the placeholder can patch twice (C49); a trap inside the handler hangs (C53).

Windows policy and broker
* `UNICODE_STRING` lengths are cut to 16 bits (C64); `KEY_READ` needs the right to write (C59), and so a key with a read rule only cannot be opened by `NtCreateKey`, contrary to the project's (commented out) test (C143); registry roots are compared as text (C66).
* A raw handle received from the worker is wrapped and closed (C65); `Handle::clone` wraps a boolean (C106).
* So a worker closes the pipe of another one, whose thread may go on with the pipe of a third one (C134, C139).
* `CreateAppContainerProfile` and `DeleteAppContainerProfile` are declared with the wrong calling convention: on 32-bit
  machines each call moves the stack pointer (C135).
* Paths without a drive letter are accepted in rules and grant nothing (C85).
* Reparse points on the way are followed, only one in the last place is not; a worker let set one can go wherever the broker can (C138), and leads other workers there (C142).
* Registry links are followed, also in the last place, and `KEY_WOW64_32KEY` is accepted although it can lead to another key; a key the worker
  may write to can be renamed, which its rules do not allow for the key above (C141).

Creation of Windows workers
* Arguments with quotes are not quoted (C60); names of variables are compared with case (C61, C102).
* A failed attempt leaves its AppContainer profile (C96); a transient failure drops all mitigations (C62); if the list of handles is
  refused, everything inheritable is inherited (C97, C105).
* If `GetProcessId`, `set_remote_process` or the creation of the thread fails, the worker goes on running (C103).
* Creation of the pipe can loop for ever, and another process can interpose itself (C100, C101).
* The worker's end of its channel is inheritable while the worker is created: another process created meanwhile gets it (C151).
* Denying and inherit-only entries of access control lists are ignored (C98, C99).

Windows hooks
* The distance to a trampoline is cut to 32 bits (C91); names which are not UTF-16 open another file; long names abort
  the worker (C92, C93).
* An entry of a table that spans two pages gives the second the protection of the first, for good (C111). The page of
  a table that also holds code cannot be executed while an entry is overwritten (C112). If making a trampoline
  executable fails, `VirtualFree` is given a size with `MEM_RELEASE`, which always fails; the memory stays allocated.

C API
* The 33rd inherited handle frees the policy (C56); a failed call uses up a slot; handles of the caller are closed (C79-C81);
  a file request without extended attributes is undefined behaviour on Windows (C108).

## Axioms of each theorem

As printed by `#print axioms` for every theorem named in MANIFEST.json.

Axioms: none (8 theorems)

C49_violated_by_filter, C53_nested_trap_hangs, C53_never_detected, C53_violated, C57_code_per_kind,
C57_codes_injective, C60_missing, C119_always_prints

Axioms: `propext` (18 theorems)

C04_not_canonical_text, C25_no_handle_no_descriptor, C26_truncated_never_decoded, C33_into_raw_empties,
C60_other_arguments_violated, C61_block_partial, C61_same_variable_twice_violated,
C63_only_trampoline_written, C66_injective, C66_mapping, C66_root_prefix_violated, C66_unknown_root_partial,
C71_other_signals_ignored, C71_seccomp_signal_handled, C100_interposed_violated, C101_hangs_violated,
C117_sentences_say_one_thing, C120_broker_ids_kept

Axioms: `propext`, `Quot.sound` (84 theorems)

C02_denotes_unique, C05_sibling_not_covered, C07_order_irrelevant, C08_rejected_rule,
C09_rule_trailing_separator, C10_probe_bound, C10_probes_decide, C13_audit_only, C14_notifications,
C15_syscalls_refused, C16_runtime_policy, C17_lock_rules_irrelevant, C25_violated_no_stdin,
C26_no_empty_message, C26_oversized_is_error, C27_request_encodes, C28_built_policies_qualify,
C29_integers_in_range, C34_set_inheritable_fails, C36_add, C36_settings, C44_bytes, C48_needs_load,
C48_prelude, C49_patch_partial, C49_violated, C49_violated_by_address, C52_absolute_names, C54_stack_buffer,
C57_code_values, C58_debug_builds, C59_key_read_violated, C61_empty_entry_violated, C61_environment_partial,
C77_computed, C82_open_by_id_violated, C82_other_options_ignored, C83_audit_and_notifications,
C84_order_and_repetition, C89_request_encodes, C91_far_trampoline_violated, C96_own_profile_partial,
C96_profile_deleted_partial, C96_profile_left_violated, C97_all_inherited_violated, C98_no_list,
C98_other_directory_violated, C99_denied_is_passed_over, C99_inherit_only_violated,
C103_process_left_violated, C105_refused_violated, C106_clone_violated, C106_closed_once_partial,
C106_owned_partial, C107_inheritable, C110_write_xor_execute, C111_violated, C115_callbacks_agree,
C115_violated, C115_warns_iff_not_granted, C116_violated, C116_violated_by_line_breaks, C118_violated,
C119_locks_violated, C121_gives_up_iff_says_so, C121_no_stderr_violated, C121_reason_lost_violated,
C122_values_violated, C122_violated, C123_asks_the_system, C123_violated, C128_handle, C128_send,
C131_freed_partial, C131_grows_violated, C131_leaks_violated, C131_safe, C131_same_permissions,
C132_leak_violated, C132_mixed_violated, C136_finds, C136_finds_directory, C143_registry_violated,
C151_violated

Axioms: `Classical.choice`, `propext`, `Quot.sound` (452 theorems)

C01_deny_by_default, C02_file_open_exact, C03_no_excess_access, C04_canonical_only, C05_directory_rule_exact,
C05_file_rule_exact, C05_other_rules_irrelevant, C06_monotone, C09_request_trailing_separator,
C11_directory_rule_covers_subtree_partial, C11_root_rule_violated, C12_unsupported_flags,
C15_broker_answers_enosys, C16_equal_policies_decide_equally, C16_equality_exact, C16_equality_reflexive,
C18_nothing_else_opened, C18_opens_what_is_granted, C19_negative_codes, C19_reply_and_descriptor,
C20_keeps_serving, C20_one_reply_per_request, C21_handshake_reply, C21_nothing_before_handshake,
C21_second_initialization, C22_hostile_message_ends_session, C23_no_panic_partial, C23_violated,
C23_violated_by_any_granted_nul, C24_at_most_one_kept_partial, C24_nothing_kept_on_32_bit,
C24_nothing_kept_partial, C24_nothing_kept_while_running, C24_violated, C25_exact_on_32_bit,
C25_transfer_x86_64_partial, C25_violated, C25_violated_second_descriptor, C26_whole_messages,
C26_whole_responses, C26_whole_results, C27_request_round_trip, C27_request_sent_iff, C28_policy_round_trip,
C28_result_round_trip, C29_request_within_input, C29_response_within_input, C29_unknown_kind_refused,
C30_injective, C30_prefix_free, C31_long_path_panics, C31_returns_iff, C31_returns_partial, C31_violated,
C32_all_answered, C32_own_answers, C32_with_the_broker, C33_raw_round_trip, C34_set_inheritable,
C35_closed_exactly_once, C35_no_leak, C35_owned_descriptors, C36_environment, C36_unique, C37_environment,
C37_reserved_name, C38_allow, C38_exact, C38_not_inheritable, C39_nothing_leaks, C40_same_number_never_starts,
C40_streams_partial, C40_violated, C41_goes_nowhere_partial, C41_violated, C41_writes_fail, C42_hardened,
C42_steps_needed, C43_bounding, C43_never_gains, C43_no_capability_partial, C43_violated,
C44_faithful_partial, C44_no_message, C44_violated, C45_full_statement_false,
C45_no_executable_memory_partial, C45_violated, C46_only_listed, C46_outside_trapped,
C47_signals_self_partial, C47_violated, C47_violated_in_namespace, C50_machine_code_i686,
C50_machine_code_x86_64, C50_rerun_i686, C50_rerun_x86_64, C50_routines_are_read_back, C50_same_call_i686,
C50_same_call_x86_64, C51_read_always_refused, C51_success_is_right_partial, C51_violated, C52_open_partial,
C52_others_refused, C52_violated, C53_no_hang_without_nesting_partial, C55_descriptors_apart,
C55_no_interference_ilp32, C55_no_interference_partial, C55_own_channel, C55_same_as_alone_ilp32,
C55_same_as_alone_partial, C55_violated, C55_violated_leak, C56_as_documented_partial,
C56_handles_not_closed_partial, C56_one_handle_too_many, C56_violated, C57_success_handle, C57_success_path,
C57_success_worker, C58_file_open_exact, C58_no_excess_access, C59_no_excess_access,
C59_registry_exact_partial, C59_registry_plain_masks_partial, C60_arguments_partial,
C60_empty_argument_violated, C61_no_name_twice_partial, C62_calls, C62_ends, C62_failures, C62_protections,
C63_trampoline32_lands, C63_trampoline64_lands, C64_created_key_name_partial, C64_file_name_partial,
C64_opened_key_name_partial, C64_other_object_opened_violated, C65_message_closes_any_handle_violated,
C65_other_handles_kept_partial, C66_rule_reaches_key, C67_no_other_descriptor, C67_open_end_to_end,
C68_leaves_nothing_open_partial, C68_violated, C69_other_calls, C70_calls_complete, C70_no_deadlock,
C71_registers_unchanged, C72_channel_partial, C72_violated, C73_starts, C74_creation_succeeds, C75_32_bit,
C75_descriptors_partial, C75_violated, C76_lockdown, C76_lockdown_succeeds, C76_no_filter,
C77_enforced_partial, C77_violated, C78_rerun_not_trapped_i686_partial, C78_rerun_not_trapped_partial,
C79_closed_once_partial, C79_free, C79_redirect, C79_shared_stream_closed_twice, C79_violated,
C80_no_call_ends_a_process, C80_violated, C81_same_data_partial, C81_violated, C82_links_and_deletion_partial,
C84_deny_by_default, C84_monotone, C85_accepted_rule_without_effect_violated, C85_rule_on_drive_partial,
C86_calls_are_the_granted_requests, C86_transcript, C87_answers, C87_one_reply_per_request,
C88_announced_handles_exist, C88_only_granted_objects, C89_policy_round_trip, C89_reply_round_trip,
C89_request_round_trip, C90_nothing_after, C90_nothing_before_initialization, C91_calls_reach_hooks_partial,
C91_in_memory_partial, C92_create_file_exact_partial, C92_create_file_partial, C92_long_name_violated,
C92_name_replaced_violated, C92_open_file_exact_partial, C92_open_file_partial, C93_create_key_exact_partial,
C93_create_key_partial, C94_create_file, C94_create_key, C94_open_file, C95_only_after_greeting, C95_start,
C97_inherited_handles_partial, C98_files_partial, C98_rights, C99_listing_reported, C99_loadable_partial,
C99_windows_directory_partial, C100_handles, C100_joined_partial, C100_nothing_left, C101_denied_violated,
C101_ends_partial, C102_attached_partial, C102_other_case_violated, C102_reserved_name,
C103_nothing_left_partial, C104_streams, C105_handles_partial, C108_no_attributes_violated, C108_nul_violated,
C108_same_data_partial, C109_call_returns_like_a_call, C109_open, C111_protections_kept_partial,
C112_code_stays_executable_partial, C112_violated, C113_hooking_completes, C114_end_is_final,
C114_new_channel, C114_next_can_arrive, C114_reliable_partial, C114_violated,
C115_record_tells_request_and_verdict, C115_text, C115_text_log_tells_all_partial, C116_callbacks_agree,
C116_record_tells_request_and_verdict_partial, C116_text, C116_text_log_tells_most_partial,
C116_warns_iff_not_granted, C117_callbacks_get_true_reasons, C117_reasons_are_true,
C118_file_reasons_are_true, C118_key_reasons_are_true_partial, C118_key_rules_are_true_partial,
C119_announces, C119_print_tells_decisions_partial, C119_print_tells_rules_partial,
C119_print_tells_windows_decisions_partial, C119_violated, C120_ids, C120_ids_written, C121_codes,
C121_messages_whole, C121_reason_true, C121_said_on_stderr_partial, C121_warnings, C122_memory_partial,
C122_profile_ids_violated, C123_hives_apart, C123_only_own_hive_partial, C124_as_if_in_turn,
C124_calls_complete_partial, C124_goes_on_serving, C124_hooked_calls, C124_no_deadlock_partial,
C124_no_deadlock_violated, C124_own_answers, C124_stuck_for_ever, C125_call_returns_like_a_call, C125_open,
C125_other_calls, C125_other_signals, C125_served_like_64, C125_stat64_violated, C126_given_back_partial,
C126_no_undefined_behaviour, C126_program, C126_violated, C127_attached, C127_first_cause, C128_recv,
C129_alone, C129_channel, C129_descriptors, C129_failed_partial, C129_own_only, C129_returns,
C129_served_partial, C129_streams_partial, C130_channel, C130_first_cause, C130_open_process_violated,
C130_told, C132_alone, C132_channel_partial, C132_container, C132_failed_partial, C132_handles_partial,
C132_numbers, C132_own_only, C132_private_partial, C132_profiles, C132_returns, C132_served,
C133_apart_partial, C133_closed_partial, C133_no_interference_ilp32, C133_no_interference_partial,
C133_one_partial, C133_opened, C133_own_only, C133_own_socket, C133_programs, C133_sent_ilp32,
C133_sent_partial, C133_served, C133_session_ilp32, C133_session_partial, C133_streams_partial, C133_violated,
C134_alone, C134_alone_first, C134_calls, C134_closed_partial, C134_closes_own_partial, C134_given_partial,
C134_kept_partial, C134_own_pipe_partial, C134_steps, C134_transcript_partial, C134_violated, C135_called,
C135_calls_partial, C135_found, C135_hooked, C135_hooks, C135_profile_x64, C135_supported, C135_violated,
C135_violated_overwrites, C136_changed_partial, C136_no_links_made_partial, C136_nofollow_refused,
C136_opened_partial, C136_violated, C136_violated_creates, C137_files_partial, C137_nothing_else,
C137_reached, C137_violated, C137_violated_message, C137_violated_signal, C137_violated_told,
C138_changed_partial, C138_finds, C138_no_links_made_partial, C138_opened_partial, C138_violated_by_id,
C138_violated_junction, C138_violated_makes_link, C139_calls, C139_closed_partial, C139_failed_partial,
C139_given_partial, C139_kept_partial, C139_own_only_partial, C139_own_pipe_partial, C139_programs_partial,
C139_served, C139_transcript_partial, C139_violated, C140_changed_partial, C140_changes_ilp32_partial,
C140_changes_partial, C140_left_alone_partial, C140_no_links_made_partial, C140_opened_ilp32_partial,
C140_opened_partial, C140_violated, C140_violated_link, C141_changed_partial, C141_finds,
C141_no_links_made_partial, C141_opened_partial, C141_violated_link, C141_violated_rename, C141_violated_view,
C142_changed_partial, C142_changes_partial, C142_keys_changed_partial, C142_keys_changes_partial,
C142_keys_left_alone_partial, C142_keys_no_links_made_partial, C142_keys_opened_partial,
C142_left_alone_partial, C142_no_links_made_partial, C142_opened_partial, C142_violated_other_worker,
C143_linux_table, C143_registry_partial, C143_windows_table, C144_answers, C144_budget, C144_creates,
C144_idle, C144_over_ilp32, C144_over_partial, C144_serving, C144_total, C144_violated, C145_answers,
C145_budget, C145_failed_partial, C145_idle, C145_total, C145_violated, C146_invisible_partial, C146_refused,
C146_violated, C146_violated_removed, C146_where, C147_invisible_partial, C147_refused, C147_violated,
C147_violated_overwrites, C147_which, C148_all_or_nothing, C148_invisible_partial, C148_refused,
C148_violated, C149_adds, C149_number, C149_violated, C149_violated_piles_up, C149_violated_runs_on,
C149_violated_stays, C149_waited, C150_asked, C150_pipe_partial, C150_received_partial, C150_violated,
C150_violated_channel, C150_violated_new, C151_end_partial, C151_one_partial, C151_opened, C151_returned
