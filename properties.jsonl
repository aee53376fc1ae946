{"id": "C01", "title": "Deny by default", "statement": "A policy created with Policy::nothing_allowed() and never extended answers every file open request and every system call request with a verdict other than Granted.", "quantifier": "every request path (any string), every open flag word, every system call number, argument vector and instruction pointer", "why_tests_cant": "Tests try a handful of paths and flags; the claim is about all strings and all 2^32 flag words.", "anchors": ["policy/src/policy.rs: Policy::nothing_allowed", "policy/src/linux/policy.rs: Policy::evaluate_request, check_file_open"]}
{"id": "C02", "title": "File open decisions are exactly what the rules say", "statement": "On Linux, after any sequence of allow_file_* / allow_dir_* calls on an enforcing policy, opening a path is Granted if and only if the flag word uses only supported flags, the path is canonical, some rule gives read or write on it, and each access the flags ask for (read, write) is given by some rule: a file rule gives its access on exactly that path, a directory rule on that directory and everything under it.", "quantifier": "every finite sequence of rule calls (any paths, any order, failed calls included), every request path, every flag word", "why_tests_cant": "The decision depends on an unbounded history of rules and an unbounded set of paths; tests sample a few rule sets.", "anchors": ["policy/src/policy.rs: allow_file_access, get_filepath_allowed_access", "policy/src/linux/policy.rs: check_file_open", "policy/src/linux/path.rs: path_is_sane", "policy/src/lib.rs: strip_one_component"]}
{"id": "C03", "title": "No access beyond the rules, in terms of what the kernel does with the flags", "statement": "If a file open is Granted by an enforcing policy, then: if the kernel would return a readable descriptor for these flags some rule gives read on the path; if the kernel would return a writable descriptor, or would create or truncate the file, some rule gives write on the path; and if the descriptor is neither readable nor writable (O_PATH) some rule still names the path.", "quantifier": "every rule history, every path, every flag word", "why_tests_cant": "Flag words combine freely (access mode 3, O_TRUNC with O_RDONLY, O_PATH with O_CREAT...); enumerating combinations times rule sets in tests is infeasible.", "anchors": ["policy/src/linux/policy.rs: check_file_open, SUPPORTED_FILE_OPEN_FLAGS"]}
{"id": "C04", "title": "Non canonical paths are never opened", "statement": "An enforcing policy never grants a path that is relative, empty, has an empty component, or has a '.' or '..' component, whatever the rules are.", "quantifier": "every rule history, every string, every flag word", "why_tests_cant": "Path traversal payloads are an infinite family; a test can only list known ones.", "anchors": ["policy/src/linux/path.rs: path_is_sane", "policy/src/linux/policy.rs: check_file_open"]}
{"id": "C05", "title": "Directory rules stop at component boundaries", "statement": "A rule on directory D never applies to a path that is not D itself or a descendant by whole components (a sibling whose name merely starts with D's name is not covered), and a rule on file F never applies to any path other than F, up to one trailing separator.", "quantifier": "every rule path and every request path", "why_tests_cant": "Prefix confusion shows up only for particular pairs of strings; tests pick a few.", "anchors": ["policy/src/policy.rs: get_filepath_allowed_access", "policy/src/lib.rs: strip_one_component"]}
{"id": "C06", "title": "Adding a rule never takes access away", "statement": "If a request is Granted by a policy, it is still Granted after any further allow_* calls on that policy.", "quantifier": "every policy, every sequence of additional rule calls, every request", "why_tests_cant": "It is a relation between pairs of unbounded histories.", "anchors": ["policy/src/policy.rs: allow_file_access", "policy/src/windows/policy.rs: allow_regkey_access"]}
{"id": "C07", "title": "Rule order and repetition are irrelevant", "statement": "Two policies built from the same set of rule calls, in any order and with any repetition, answer every request with the same verdict.", "quantifier": "every pair of histories with the same set of calls, every request", "why_tests_cant": "The number of permutations is unbounded; a hash map of merged tuples could lose an update in one order only.", "anchors": ["policy/src/policy.rs: allow_file_access, allow_file_read, allow_file_write, allow_file_lock, allow_dir_*"]}
{"id": "C08", "title": "A rejected rule changes nothing, and only relative paths are rejected", "statement": "On Linux an allow_file_* or allow_dir_* call fails if and only if the path does not start with '/', the error names that path, and a failed call leaves every decision of the policy unchanged.", "quantifier": "every policy, every string", "why_tests_cant": "Needs all strings and all prior states; a partial update before an error is invisible to a test that only checks the error.", "anchors": ["policy/src/policy.rs: allow_file_access", "policy/src/linux/path.rs: derive_all_file_paths_from_path"]}
{"id": "C09", "title": "A trailing separator makes no difference", "statement": "Adding one trailing '/' to a rule path (other than '/' itself) or to a canonical request path leaves every decision unchanged.", "quantifier": "every rule path, every request path, every rule history", "why_tests_cant": "Needs every pair of strings.", "anchors": ["policy/src/policy.rs: allow_file_access, get_filepath_allowed_access"]}
{"id": "C10", "title": "Rule lookup terminates after at most one probe per path component", "statement": "Evaluating a file open request terminates for every path, and consults the directory rules at most once per separator in the path plus once.", "quantifier": "every string, every rule set", "why_tests_cant": "A loop that fails to shrink its cursor hangs only on particular strings.", "anchors": ["policy/src/policy.rs: get_filepath_allowed_access", "policy/src/lib.rs: strip_one_component"]}
{"id": "C11", "title": "A rule on the root directory covers the whole tree", "statement": "After allow_dir_read(\"/\") every canonical path can be opened read-only.", "quantifier": "every canonical path", "why_tests_cant": "One test could exhibit a failure but none can establish the claim; the code's own comment (\"/a -> /\") states it.", "anchors": ["policy/src/lib.rs: strip_one_component", "policy/src/policy.rs: allow_dir_read, allow_file_access"]}
{"id": "C12", "title": "Flags outside the supported set are always refused", "statement": "An enforcing policy refuses every open whose flag word has any bit outside the documented supported set (so O_NOFOLLOW, O_TMPFILE, O_DIRECT, O_ASYNC, O_SYNC, ... and reserved bits), with a verdict naming exactly the offending bits.", "quantifier": "every rule history, path and flag word", "why_tests_cant": "2^32 flag words.", "anchors": ["policy/src/linux/policy.rs: SUPPORTED_FILE_OPEN_FLAGS, check_file_open"]}
{"id": "C13", "title": "Audit-only mode grants everything but reports the real verdict", "statement": "A policy created with unsafe_testing_audit_only() returns Granted for every request, and for every request each log callback is given the verdict that the same rules would have produced in enforcing mode. No rule call can switch a policy into or out of audit-only mode.", "quantifier": "every rule history, every request", "why_tests_cant": "Relates two runs (audit and enforcing) over all inputs.", "anchors": ["policy/src/linux/policy.rs: evaluate_request", "policy/src/policy.rs: unsafe_testing_audit_only, is_audit_only"]}
{"id": "C14", "title": "Every decision is logged exactly once to every callback, in registration order", "statement": "Each evaluated request produces exactly one notification per registered callback, in registration order, carrying that request and the verdict computed from the rules, whether it is granted or denied; evaluating a request changes nothing else.", "quantifier": "every list of callbacks, every sequence of requests", "why_tests_cant": "Unbounded callback lists and request histories.", "anchors": ["policy/src/policy.rs: add_log_callback, log_verdict", "policy/src/linux/policy.rs: evaluate_request"]}
{"id": "C15", "title": "System calls are never delegated", "statement": "In enforcing mode every non-open system call sent by a worker is refused by the policy, and the broker answers it with -ENOSYS in every mode, without executing anything.", "quantifier": "every system call number, arguments, instruction pointer, policy", "why_tests_cant": "2^512 inputs.", "anchors": ["policy/src/linux/policy.rs: evaluate_request", "broker/src/linux/brokered_syscalls.rs: proxied_syscall"]}
{"id": "C16", "title": "The policy a worker runs under decides like the one the caller built", "statement": "get_runtime_policy() and clone() give a policy with the same decisions, callbacks and audit flag; the runtime policy carries no inheritable handle; two policies that compare equal give the same verdict on every request.", "quantifier": "every policy, every request", "why_tests_cant": "Quantifies over all policies and requests.", "anchors": ["policy/src/policy.rs: get_runtime_policy, impl PartialEq for Policy"]}
{"id": "C17", "title": "Lock rules give no access on Linux", "statement": "Rules added with allow_file_lock or allow_dir_lock never change the verdict of any Linux request.", "quantifier": "every rule history, every lock rule, every request", "why_tests_cant": "Relates two histories for all requests.", "anchors": ["policy/src/policy.rs: allow_file_lock, allow_dir_lock", "policy/src/linux/policy.rs: check_file_open"]}
{"id": "C18", "title": "The broker opens only what was granted, exactly as requested", "statement": "In any session of the broker's message loop the only files it opens are those for which the worker sent an open request that the policy granted at that moment, one open per granted request, with exactly the requested path and flags.", "quantifier": "every policy, every sequence of worker messages (well formed or not), every behaviour of open()", "why_tests_cant": "Adversarial message sequences are unbounded.", "anchors": ["broker/src/linux/ipc_loop.rs: start_ipc_loop", "broker/src/linux/brokered_syscalls.rs: proxied_open_file"]}
{"id": "C19", "title": "A reply carries a descriptor exactly when the open succeeded", "statement": "Every reply to an open request either has code 0 and carries the opened descriptor, or has a negative errno code and carries none; a refused request is answered -EACCES and a failed open -errno.", "quantifier": "every policy, request and open() outcome", "why_tests_cant": "All outcomes and errnos.", "anchors": ["broker/src/linux/brokered_syscalls.rs: proxied_open_file", "broker/src/linux/ipc_loop.rs: start_ipc_loop"]}
{"id": "C20", "title": "One reply per request, in order", "statement": "After the handshake the broker sends exactly one reply for each message it accepts, in the order received, until the session ends; each reply is a function of that request alone (and of the OS), never of an earlier one.", "quantifier": "every sequence of worker messages and OS results", "why_tests_cant": "Unbounded histories.", "anchors": ["broker/src/linux/ipc_loop.rs: start_ipc_loop"]}
{"id": "C21", "title": "Nothing is served before the handshake", "statement": "The broker answers nothing and opens nothing unless the first message is an initialization request without a descriptor; any other first event makes worker creation fail with the matching error. The initialization reply carries the runtime policy and the filter. A second initialization request is answered -EINVAL.", "quantifier": "every first message and every later sequence", "why_tests_cant": "All possible first messages, including malformed bytes.", "anchors": ["broker/src/linux/ipc_loop.rs: start_ipc_loop", "broker/src/error.rs: BrokerError"]}
{"id": "C22", "title": "A hostile or broken message ends the session", "statement": "When the broker receives a malformed message, a message with an attached descriptor, a receive error or end of stream, it sends nothing more and opens nothing more in that session.", "quantifier": "every prefix of messages and every continuation", "why_tests_cant": "All continuations after the bad message.", "anchors": ["broker/src/linux/ipc_loop.rs: start_ipc_loop"]}
{"id": "C23", "title": "No worker message can crash the broker", "statement": "No message sequence sent by a worker makes the broker's message loop panic.", "quantifier": "every policy, every message sequence", "why_tests_cant": "A test can only find a crash, not rule it out.", "anchors": ["broker/src/linux/brokered_syscalls.rs: proxied_open_file", "broker/src/linux/ipc_loop.rs: start_ipc_loop"]}
{"id": "C24", "title": "The broker does not accumulate descriptors", "statement": "After the broker has answered any number of requests its own descriptor table is the one it had before the session's first request: every descriptor opened for a worker is closed once sent, and descriptors sent by a worker are closed.", "quantifier": "every session", "why_tests_cant": "Leaks show after unbounded numbers of requests and on error paths.", "anchors": ["broker/src/linux/ipc_loop.rs: start_ipc_loop", "ipc/src/linux/channel.rs: IpcChannel::send, recv", "ipc/src/linux/handle.rs: Drop for Handle"]}
{"id": "C25", "title": "Sending a handle transfers exactly that handle", "statement": "When one end of a channel sends a message with a handle, the other end obtains exactly one new descriptor, referring to the same open file as the handle sent, and nothing else of the sender.", "quantifier": "every sender descriptor table, every handle, every message", "why_tests_cant": "Depends on the byte layout handed to the kernel on each architecture; tests only look at the descriptor they expect.", "anchors": ["ipc/src/linux/channel.rs: CMSG_SIZE, IpcChannel::send, IpcChannel::recv"]}
{"id": "C26", "title": "Messages are delivered whole or not at all", "statement": "A received message is exactly one sent message: an oversized or truncated datagram is reported as an error and never decoded, an empty read means end of stream and no encoded message is empty.", "quantifier": "every message and every buffer size", "why_tests_cant": "All lengths.", "anchors": ["ipc/src/linux/channel.rs: IpcChannel::recv, send", "ipc/src/channel.rs: serialize, deserialize", "ipc/src/lib.rs: IPC_MESSAGE_MAX_SIZE"]}
{"id": "C27", "title": "Requests survive the wire", "statement": "Decoding the encoding of any request gives back the same request.", "quantifier": "every path string, flag word, system call number, argument vector, instruction pointer", "why_tests_cant": "Variable length integers and UTF-8 have boundary cases at every width.", "anchors": ["ipc-messages/src/linux/mod.rs: IPCRequest", "ipc/src/channel.rs: serialize, deserialize"]}
{"id": "C28", "title": "Replies and policies survive the wire", "statement": "Decoding the encoding of any reply gives back an equal reply; in particular the policy a worker receives compares equal to the broker's runtime policy and takes the same decisions, for every iteration order of its rule tables.", "quantifier": "every reply, every policy, every hash map iteration order", "why_tests_cant": "Iteration order is random per process; contents are unbounded.", "anchors": ["ipc-messages/src/linux/mod.rs: IPCResponse", "policy/src/policy.rs: Policy (serde attributes)"]}
{"id": "C29", "title": "Decoding arbitrary bytes is safe", "statement": "Decoding any byte string as a request or a reply either fails or yields a value made only of bytes that were present in the input: it never panics and never yields a string longer than the input.", "quantifier": "every byte string", "why_tests_cant": "Adversarial inputs are unbounded.", "anchors": ["ipc/src/channel.rs: deserialize", "ipc-messages/src/linux/mod.rs"]}
{"id": "C30", "title": "Different messages have different encodings", "statement": "Two different requests never have the same encoding and no request's encoding is a proper prefix of another's.", "quantifier": "every pair of requests", "why_tests_cant": "Pairs of unbounded values.", "anchors": ["ipc-messages/src/linux/mod.rs: IPCRequest"]}
{"id": "C31", "title": "An intercepted system call always returns", "statement": "In a worker every intercepted open, openat, access, stat or chdir returns to the program with a result or an errno.", "quantifier": "every path argument", "why_tests_cant": "Extreme arguments.", "anchors": ["worker/src/linux/lockdown.rs: send_recv, handle_openat", "ipc/src/lib.rs: IPC_MESSAGE_MAX_SIZE"]}
{"id": "C32", "title": "Concurrent threads of a worker get their own answers", "statement": "Whatever the number of threads of a worker making intercepted system calls and whatever their interleaving, every thread receives the broker's reply to its own request and no reply is lost or given twice.", "quantifier": "every number of threads, every schedule, every request sequence per thread", "why_tests_cant": "Schedules.", "anchors": ["worker/src/linux/lockdown.rs: IPC_CHANNEL_SINGLETON, send_recv", "broker/src/linux/ipc_loop.rs"]}
{"id": "C33", "title": "Raw handle values round trip", "statement": "Handle::from_raw(v) succeeds exactly for 0 <= v <= i32::MAX on Linux, the error carries v, and as_raw / into_raw return v.", "quantifier": "every u64", "why_tests_cant": "2^64 values.", "anchors": ["ipc/src/linux/handle.rs: Handle::from_raw, as_raw, into_raw"]}
{"id": "C34", "title": "Inheritability is set exactly", "statement": "After set_inheritable(b) succeeds, is_inheritable() is b and every other descriptor flag, and every other descriptor, is unchanged.", "quantifier": "every descriptor table, every flag word", "why_tests_cant": "All flag words.", "anchors": ["ipc/src/linux/handle.rs: set_inheritable, is_inheritable"]}
{"id": "C35", "title": "Each handle is closed exactly once", "statement": "In any program built from the safe Handle API (creation, clone, into_raw, drop), every descriptor owned by a Handle is closed exactly once, none is closed while another live Handle still owns it, and into_raw leaves it open.", "quantifier": "every sequence of handle operations", "why_tests_cant": "Ownership histories are unbounded.", "anchors": ["ipc/src/linux/handle.rs: impl Drop, impl Clone, into_raw"]}
{"id": "C36", "title": "Environment variables are unique and passed on in order", "statement": "A process configuration never holds two variables with the same name; adding a variable succeeds exactly when its name is not present yet and appends it; a rejected one changes nothing.", "quantifier": "every sequence of set_environment_variable calls", "why_tests_cant": "Histories.", "anchors": ["broker/src/process_config.rs: set_environment_variable"]}
{"id": "C37", "title": "The worker's environment is the configured one plus the channel variable", "statement": "A worker is started with exactly the configured environment followed by SANDBOX_IPC_HANDLE set to a descriptor number the broker had free; worker creation fails without creating a process if the caller had set that name. What the worker reads back from the variable is that number.", "quantifier": "every configuration, every descriptor number", "why_tests_cant": "All configurations.", "anchors": ["broker/src/worker.rs: Worker::new", "worker/src/lib.rs: lower_final_sandbox_privileges_asap"]}
{"id": "C38", "title": "A worker inherits exactly the declared handles", "statement": "The set of descriptors a worker is allowed to keep is exactly: the handles allowed in the policy, the redirected standard streams, and its channel. A handle which is not inheritable cannot be allowed in a policy, and worker creation fails before any process is created if a redirected stream is not inheritable.", "quantifier": "every policy and configuration", "why_tests_cant": "All sets of handles.", "anchors": ["broker/src/worker.rs: Worker::new", "policy/src/policy.rs: allow_inherit_handle, get_inherited_handles"]}
{"id": "C39", "title": "No other descriptor of the broker leaks into a worker", "statement": "When the worker program starts, every open descriptor it has is 0, 1, 2 or one of the allowed ones, whatever descriptors the broker had open.", "quantifier": "every broker descriptor table, every allowed set", "why_tests_cant": "All tables.", "anchors": ["linux-entrypoint/src/entry.rs: clone_entrypoint"]}
{"id": "C40", "title": "Standard streams are what was configured", "statement": "When the worker program starts, each of descriptors 0, 1, 2 refers to the file the caller redirected it to, or to the null device if not redirected.", "quantifier": "every broker descriptor table, every combination of redirections", "why_tests_cant": "Aliasing between stream numbers and redirected descriptors.", "anchors": ["linux-entrypoint/src/entry.rs: setup_std_file_descriptor, clone_entrypoint"]}
{"id": "C41", "title": "Writes to a non redirected output are ignored", "statement": "If stdout or stderr is not redirected, a worker's writes to it succeed and are discarded.", "quantifier": "every worker", "why_tests_cant": "Depends on how the descriptor was opened, for all tables.", "anchors": ["linux-entrypoint/src/entry.rs: setup_std_file_descriptor"]}
{"id": "C42", "title": "The program is only started with hardening in place", "statement": "For every combination of failures of the preparatory system calls, the worker program is executed only after no_new_privs was set, unwanted descriptors were closed and the standard streams were set up.", "quantifier": "every outcome of every system call made by the entry point", "why_tests_cant": "Fault combinations are exponential.", "anchors": ["linux-entrypoint/src/entry.rs: clone_entrypoint"]}
{"id": "C43", "title": "The program is only started without capabilities", "statement": "For every combination of failures of the preparatory system calls, the worker program is executed with empty capability sets.", "quantifier": "every outcome of every system call made by the entry point", "why_tests_cant": "Fault combinations.", "anchors": ["linux-entrypoint/src/capabilities.rs: drop_capabilities"]}
{"id": "C44", "title": "Startup failures are reported faithfully", "statement": "If executing the program fails with errno e, worker creation returns an error carrying e; if it succeeds no error is reported by that step; the 4 bytes crossing the pipe decode to the number encoded.", "quantifier": "every errno", "why_tests_cant": "All errnos and byte orders.", "anchors": ["linux-entrypoint/src/entry.rs: clone_entrypoint", "broker/src/linux/process.rs: OSSandboxedProcess::new"]}
{"id": "C45", "title": "No executable memory in a filtered worker", "statement": "Under the filter the broker builds, every mmap, mmap2 or mprotect whose protection argument has PROT_EXEC, or any bit outside the listed ones, is trapped, and every other protection is allowed.", "quantifier": "every 64-bit protection argument and every other argument", "why_tests_cant": "2^64 arguments.", "anchors": ["broker/src/linux/seccomp.rs: compute_seccomp_filter"]}
{"id": "C46", "title": "Only listed system calls run unbrokered", "statement": "Under the filter, a system call runs without trapping only if it is in the published allow list, or is mmap/mprotect/kill/tgkill/ioctl with the published argument restriction; in particular open, openat, execve, ptrace, socket, clone of other processes' memory are always trapped.", "quantifier": "every system call number and argument vector", "why_tests_cant": "All numbers and arguments.", "anchors": ["broker/src/linux/seccomp.rs: SYSCALLS_ALLOWED_BY_DEFAULT, compute_seccomp_filter"]}
{"id": "C47", "title": "A worker can signal itself and nobody else", "statement": "Under the filter, kill and tgkill are allowed exactly when the target is the calling worker itself.", "quantifier": "every target pid, every namespace arrangement the broker can create", "why_tests_cant": "Depends on how pids map between namespaces.", "anchors": ["broker/src/linux/seccomp.rs: compute_seccomp_filter", "broker/src/linux/process.rs: OSSandboxedProcess::new"]}
{"id": "C48", "title": "In audit mode exactly one call site bypasses the filter", "statement": "With the audit prelude in front of any filter that starts by loading a word of the system call (as all generated filters do), a system call issued from the designated instruction address is allowed and every other system call gets exactly the underlying filter's decision.", "quantifier": "every filter, every system call, every instruction address", "why_tests_cant": "All programs and packets.", "anchors": ["broker/src/linux/seccomp.rs: audit prelude"]}
{"id": "C49", "title": "The call site placeholder is patched exactly", "statement": "Whatever address the worker's call site is loaded at, after patching the prelude compares the instruction pointer against that address and nothing else in the filter changes.", "quantifier": "every 64-bit address, every filter", "why_tests_cant": "2^64 addresses; address space randomisation means no test run is representative.", "anchors": ["worker/src/linux/lockdown.rs: lower_final_sandbox_privileges", "ipc/src/linux/mod.rs: IPC_SECCOMP_CALL_SITE_PLACEHOLDER"]}
{"id": "C50", "title": "Re-issued system calls are the intercepted ones", "statement": "The assembly stub that re-issues a system call loads the number and the six arguments in the registers the kernel ABI expects, preserves every register the C ABI requires, returns the kernel's result, and issues the call at the advertised offset (x86_64 and i686).", "quantifier": "every register file, stack and argument values", "why_tests_cant": "2^512 inputs, register shuffles have swap bugs visible only for distinct values.", "anchors": ["worker/src/linux/arch/x86_64/seccomp.rs: rerun_syscall", "worker/src/linux/arch/i686/seccomp.rs: rerun_syscall"]}
{"id": "C51", "title": "access() answers the question that was asked", "statement": "In a worker, access(path, mode) succeeds exactly when the policy gives the accesses in mode on path.", "quantifier": "every policy, path and mode", "why_tests_cant": "All modes and policies.", "anchors": ["worker/src/linux/lockdown.rs: handle_access"]}
{"id": "C52", "title": "Relative paths are resolved against the working directory for every intercepted call", "statement": "open, openat, access, stat and chdir with a relative path behave like the same call with the working directory prepended.", "quantifier": "every working directory and every relative path", "why_tests_cant": "All strings.", "anchors": ["worker/src/linux/lockdown.rs: handle_openat, handle_stat, handle_access, handle_chdir"]}
{"id": "C53", "title": "A system call trapped inside the trap handler is detected", "statement": "If the signal handler itself triggers a trapped system call, the worker stops with a diagnostic instead of hanging or recursing.", "quantifier": "every nesting", "why_tests_cant": "Depends on what libc calls inside the handler on each system.", "anchors": ["worker/src/linux/lockdown.rs: sigsys_handler, IN_SIGSYS_HANDLER"]}
{"id": "C54", "title": "Fixed buffers never overflow and stay NUL terminated", "statement": "Any sequence of writes to a StackBuffer<N> leaves exactly the first N-1 bytes of the concatenated text in it, followed by a NUL.", "quantifier": "every N >= 1, every sequence of writes", "why_tests_cant": "All lengths and splits.", "anchors": ["ipc/src/stackbuffer.rs: StackBuffer::write_str"]}
{"id": "C55", "title": "Two workers do not interfere", "statement": "With several workers served by one broker, the replies a worker receives and the files opened for it depend only on its own policy and its own messages, under every interleaving.", "quantifier": "every number of workers and every interleaving of their messages", "why_tests_cant": "Schedules.", "anchors": ["broker/src/worker.rs: Worker::new", "broker/src/linux/ipc_loop.rs: start_ipc_loop"]}
{"id": "C56", "title": "C callers get the same semantics and a valid object after every call", "statement": "Through the C API, a policy object remains valid after every call until it is freed, whatever the call returned, and handles passed in are closed only when the object is freed.", "quantifier": "every sequence of C API calls", "why_tests_cant": "Histories longer than the fixed slot table.", "anchors": ["bindings/C/broker/src/policy.rs: iris_policy_allow_inherit_handle"]}
{"id": "C57", "title": "Every error has its own C status code", "statement": "The C status of an operation is IRIS_STATUS success (0) exactly when the operation succeeded, and different kinds of errors have different codes.", "quantifier": "every error value", "why_tests_cant": "Finite kinds but unbounded payloads.", "anchors": ["bindings/C/broker/src/error.rs: IrisStatus"]}
{"id": "C58", "title": "Windows file decisions are exactly what the rules say", "statement": "On Windows (release builds), a file create/open request is Granted if and only if its path, access mask, attributes, share mode, disposition and options are all in the supported sets, reparse points are not followed, and each access it implies (read, write, excluding other readers, writers, deleters) is given by a rule covering the path. A path with an empty name in it, which the system refuses anyway, may also be refused, but never granted more.", "quantifier": "every rule history, every request", "why_tests_cant": "Products of 32-bit masks and unbounded rule sets.", "anchors": ["policy/src/windows/policy.rs: check_file_open", "policy/src/policy.rs: get_filepath_allowed_access"]}
{"id": "C59", "title": "Windows registry decisions follow the rules", "statement": "A registry key request is Granted if and only if its access mask is supported and a rule on exactly that key or one of its ancestors gives the read and write accesses it implies; a key rule with read access is enough for the standard KEY_READ mask.", "quantifier": "every rule history, key path and mask", "why_tests_cant": "Masks and histories.", "anchors": ["policy/src/windows/policy.rs: check_reg_key_open, allow_regkey_access"]}
{"id": "C60", "title": "A worker's command line parses back to the configured arguments on Windows", "statement": "The command line built from argv is parsed by the standard argument parser into the same argv.", "quantifier": "every argument list", "why_tests_cant": "All strings.", "anchors": ["broker/src/windows/process.rs: command line construction"]}
{"id": "C61", "title": "Windows environment sanitization is complete", "statement": "The environment block given to a worker contains every configured variable, and a sanitized value for each listed variable not configured, and nothing else of the broker's environment; no listed name occurs twice.", "quantifier": "every configuration", "why_tests_cant": "All environments.", "anchors": ["broker/src/windows/process.rs: PROCESS_SANITIZED_ENVIRONMENT"]}
{"id": "C62", "title": "Worker creation on Windows falls back and terminates", "statement": "The attribute negotiation loop terminates for every behaviour of the OS, and whenever CreateProcess is called every reserved attribute slot has been filled.", "quantifier": "every OS behaviour", "why_tests_cant": "Adversarial OS results.", "anchors": ["broker/src/windows/process.rs: OSSandboxedProcess::new"]}
{"id": "C63", "title": "Hook trampolines land on the hook", "statement": "The bytes written as a trampoline transfer control to exactly the requested address with registers and stack unchanged (32-bit and 64-bit).", "quantifier": "every target address, every register file", "why_tests_cant": "2^64 addresses.", "anchors": ["worker/src/windows/lockdown.rs: write_trampoline"]}
{"id": "C64", "title": "The path opened on Windows is the path that was checked", "statement": "When a Windows file request is granted, the object name handed to the kernel is exactly the path checked by the policy.", "quantifier": "every path that fits in a message", "why_tests_cant": "Long paths.", "anchors": ["broker/src/windows/brokered_syscalls.rs: proxied_ntcreatefile"]}
{"id": "C65", "title": "A worker message cannot affect the broker's own handles on Windows", "statement": "No message from a worker makes the broker close or use a handle of its own table that was not created for that worker.", "quantifier": "every message", "why_tests_cant": "Adversarial messages.", "anchors": ["ipc/src/windows/channel.rs: recv", "broker/src/windows/ipc_loop.rs"]}
{"id": "C66", "title": "Registry rule paths map to the documented kernel paths", "statement": "Each HKEY_* rule path is mapped to its kernel path with the remainder unchanged, unknown roots are rejected, and distinct rule paths under one root stay distinct.", "quantifier": "every string", "why_tests_cant": "All strings.", "anchors": ["policy/src/windows/path.rs: derive_all_reg_key_paths_from_path"]}
{"id": "C67", "title": "An intercepted open gives exactly the file the rules allow", "statement": "In a worker, open or openat returns a new descriptor for the file at exactly the path the program meant, opened with exactly the program's flags, when the rules allow it and the system can open it. It returns the system's error when the system cannot, and EACCES without any file being opened when the rules do not allow it. Descriptors already open in the worker are never affected.", "quantifier": "every rule history, path that fits into a message of 64 KiB together with the flags (C31 says what happens with others), flags, working directory, set of open descriptors and system outcome", "why_tests_cant": "It spans two processes, the codec, the channel, the policy and the descriptor tables; inputs are unbounded.", "anchors": ["worker/src/linux/lockdown.rs: sigsys_handler, handle_openat, send_recv", "broker/src/linux/ipc_loop.rs", "broker/src/linux/brokered_syscalls.rs"]}
{"id": "C68", "title": "access, stat and chdir leave no descriptor open", "statement": "After an intercepted access, stat or chdir the worker has exactly the descriptors it had before.", "quantifier": "every policy, path, set of open descriptors and system outcome", "why_tests_cant": "Leaks depend on the whole exchange and on the platform's message layout.", "anchors": ["worker/src/linux/lockdown.rs: handle_access, handle_stat, handle_chdir, get_fd_for_path_with_perms"]}
{"id": "C69", "title": "Other intercepted calls are reported and refused, or run once in audit mode", "statement": "An intercepted system call that is not handled by path is reported to the log callbacks with its number, arguments and call site. In enforcing mode it returns ENOSYS and is not run. In audit-only mode it is run exactly once with the same number and arguments and the program gets its result.", "quantifier": "every system call number, arguments and call site", "why_tests_cant": "2^64 values in eight registers.", "anchors": ["worker/src/linux/lockdown.rs: handle_syscall", "broker/src/linux/brokered_syscalls.rs: proxied_syscall"]}
{"id": "C70", "title": "Concurrent intercepted calls do not block each other for ever", "statement": "As long as a thread of a worker is inside an intercepted call, one of the calls in progress or the broker can make progress, and every call completes after a bounded number of steps however the threads are scheduled.", "quantifier": "every number of threads, every schedule", "why_tests_cant": "Schedules.", "anchors": ["worker/src/linux/lockdown.rs: get_ipc_channel, send_recv"]}
{"id": "C71", "title": "Only signals raised by the system call filter are handled", "statement": "A signal other than SIGSYS, or a SIGSYS not raised by the system call filter (for instance sent by kill), has no effect in the worker: no request is sent and no register is changed.", "quantifier": "every signal number and code, in every state", "why_tests_cant": "All states of the handler.", "anchors": ["worker/src/linux/lockdown.rs: sigsys_handler"]}
{"id": "C72", "title": "The descriptor named by the channel variable is the channel", "statement": "When the worker program starts, the descriptor whose number is in SANDBOX_IPC_HANDLE is open and is its end of the channel the broker reads.", "quantifier": "every broker descriptor table, policy, configuration and outcome of the system calls", "why_tests_cant": "The number is chosen by the kernel from whatever the broker has open, and descriptors are renumbered before the program starts.", "anchors": ["broker/src/worker.rs: Worker::new", "linux-entrypoint/src/entry.rs: clone_entrypoint, setup_std_file_descriptor"]}
{"id": "C73", "title": "Optional hardening steps never prevent a worker from starting", "statement": "Once its process is created, the program starts as soon as the mandatory steps succeed (no_new_privs, descriptor cleanup, standard streams, execution) and no stream is redirected to itself. Failures to write user mappings, to leave a namespace or to drop capabilities do not prevent it, and the program is isolated exactly by the namespaces that could be left.", "quantifier": "every combination of outcomes of the system calls of the entry point, every descriptor table", "why_tests_cant": "2^12 combinations of failures times all descriptor tables.", "anchors": ["linux-entrypoint/src/entry.rs: clone_entrypoint"]}
{"id": "C74", "title": "Creating a worker succeeds when nothing prevents it", "statement": "If the channel, pipe and process can be created, redirected streams can be inherited, the configuration is in order, the mandatory steps succeed, the program introduces itself and the policy fits in a message, then worker creation succeeds with the number of a started process which has been sent the caller's policy without its handles, and whose requests are served.", "quantifier": "every policy, configuration, descriptor table and outcome of the system calls under these conditions", "why_tests_cant": "Unbounded policies, configurations and tables.", "anchors": ["broker/src/worker.rs: Worker::new", "broker/src/linux/process.rs: OSSandboxedProcess::new", "broker/src/linux/ipc_loop.rs: start_ipc_loop"]}
{"id": "C75", "title": "Creating a worker costs the broker exactly one descriptor, and nothing if it fails", "statement": "After a failed worker creation the broker has exactly the descriptors it had before; after a successful one it has one more, its end of the channel.", "quantifier": "every policy, configuration, descriptor table, outcome of the system calls, and first message of the worker", "why_tests_cant": "Every early return must release everything; the first message is chosen by the worker.", "anchors": ["broker/src/worker.rs: Worker::new", "broker/src/linux/process.rs: OSSandboxedProcess::new", "broker/src/linux/ipc_loop.rs: start_ipc_loop"]}
{"id": "C76", "title": "The worker's lockdown installs exactly the broker's filter, or aborts", "statement": "When the worker's final lockdown returns, the broker answered with an initialization message and either it contained no filter, or SIGSYS is handled and the kernel enforces, instruction for instruction, the filter in that message (patched for the call site in audit mode). In every other case the worker aborts. If the message arrives and the kernel accepts the filter, the lockdown succeeds.", "quantifier": "every answer (any bytes), every outcome of sigaction, seccomp and prctl", "why_tests_cant": "Arbitrary filters and messages, all failure combinations.", "anchors": ["worker/src/linux/lockdown.rs: lower_final_sandbox_privileges"]}
{"id": "C77", "title": "A worker past its lockdown runs under the broker's rules", "statement": "Once the lockdown returns, the program the kernel runs on every system call allows exactly what the rules computed by the broker allow, except that in audit mode everything is allowed from the re-issue call site.", "quantifier": "every policy, process number, system call, architecture and argument values, every outcome of building the filter", "why_tests_cant": "Spans the broker's computation, the wire format, the patching and the kernel, for all system calls.", "anchors": ["broker/src/linux/seccomp.rs: compute_seccomp_filter", "broker/src/linux/ipc_loop.rs: start_ipc_loop", "worker/src/linux/lockdown.rs: lower_final_sandbox_privileges"]}
{"id": "C78", "title": "Re-issued calls are not intercepted again", "statement": "In audit mode, the system call the worker re-issues for an intercepted one is allowed by the worker's own filter whatever its number and arguments, so handling an intercepted call never recurses.", "quantifier": "every policy in audit mode, system call number and arguments, address the stub is loaded at, register and stack contents", "why_tests_cant": "Spans the assembly stub, the placeholder patching and the kernel's filter program.", "anchors": ["worker/src/linux/arch/x86_64/seccomp.rs: rerun_syscall, SYSCALL_ASM_OFFSET", "worker/src/linux/lockdown.rs: lower_final_sandbox_privileges", "broker/src/linux/seccomp.rs: compute_seccomp_filter"]}
{"id": "C79", "title": "A configuration made in C is the one described, and owns the streams it was given", "statement": "Through the C API, a configuration always has the command line, environment and streams given last. A descriptor given as a stream belongs to the configuration: it is closed once, when another is given for that stream or when the configuration is freed.", "quantifier": "every sequence of C API calls", "why_tests_cant": "Unbounded histories; the closes happen in destructors.", "anchors": ["bindings/C/broker/src/process_config.rs: iris_process_config_redirect_stdin, iris_process_config_redirect_stdout, iris_process_config_redirect_stderr, iris_process_config_free"]}
{"id": "C80", "title": "Freeing a worker ends its process", "statement": "iris_worker_free kills the worker's process if it is still running, as documented.", "quantifier": "every history of C API calls and every worker", "why_tests_cant": "Depends on the absence of a destructor, in all histories.", "anchors": ["bindings/C/broker/src/broker.rs: iris_worker_free", "broker/src/worker.rs: Worker", "broker/src/linux/process.rs: OSSandboxedProcess"]}
{"id": "C81", "title": "A C log callback is told what a Rust one is", "statement": "For every request of a worker, each log callback registered through the C API is called with the same request and verdict as a Rust callback would be.", "quantifier": "every policy and request, whose path is chosen by the worker", "why_tests_cant": "The path is arbitrary untrusted text.", "anchors": ["bindings/C/broker/src/policy.rs: iris_policy_add_log_callback, IrisPolicyVerdict", "bindings/C/broker/src/linux/mod.rs: IrisPolicyRequest"]}
{"id": "C82", "title": "Options that change what a Windows request means are refused", "statement": "On Windows, a create/open option that makes the name mean something else than the path checked, or makes the call do something a rule does not give, is refused.", "quantifier": "every rule history, request and combination of the 32 option bits", "why_tests_cant": "All 2^32 option words, with every policy.", "anchors": ["policy/src/windows/policy.rs: check_file_open"]}
{"id": "C83", "title": "Audit mode and notifications on Windows", "statement": "On Windows, an audit-only policy grants every request, and with either kind of policy each registered callback is told exactly once of each request, in the order of registration, with the verdict the policy gives or would give if it were enforced.", "quantifier": "every rule history and every list of requests", "why_tests_cant": "Unbounded histories and requests.", "anchors": ["policy/src/windows/policy.rs: evaluate_request", "policy/src/policy.rs: log_verdict, add_log_callback"]}
{"id": "C84", "title": "On Windows too, rules only add up", "statement": "On Windows, nothing is granted without rules; the order and the repetition of rule calls do not change any verdict; a request that is granted remains granted whatever rules are added.", "quantifier": "every pair of rule histories, every request", "why_tests_cant": "Unbounded histories, all requests.", "anchors": ["policy/src/policy.rs: allow_file_access, get_filepath_allowed_access", "policy/src/windows/policy.rs: allow_regkey_access, get_regkey_allowed_access"]}
{"id": "C85", "title": "A rule accepted on Windows has an effect", "statement": "When a function that adds a rule for a path returns Ok on Windows, a request for that path and the right the rule is about is granted.", "quantifier": "every path, every behaviour of the path resolution of the system", "why_tests_cant": "All paths and all answers of the system.", "anchors": ["policy/src/windows/path.rs: derive_all_file_paths_from_path", "policy/src/policy.rs: allow_file_access"]}
{"id": "C86", "title": "On Windows the broker does what the policy grants and nothing else", "statement": "In every session with a Windows worker the system calls the broker makes are exactly the ones that carry out, in order and once each, the granted ones among the requests received; a refused request causes none.", "quantifier": "every policy, every sequence of messages, every behaviour of the operating system", "why_tests_cant": "Adversarial histories and failures.", "anchors": ["broker/src/windows/ipc_loop.rs", "broker/src/windows/brokered_syscalls.rs"]}
{"id": "C87", "title": "One reply for each request on Windows", "statement": "After the greeting the messages the broker sends to a Windows worker are the replies to its requests, one each, in the order of the requests: access denied for a refused one, the result of the system call for a granted one, and a handle exactly when that call succeeded.", "quantifier": "every sequence of messages, every behaviour of the operating system", "why_tests_cant": "Adversarial histories and failures.", "anchors": ["broker/src/windows/ipc_loop.rs", "ipc/src/windows/channel.rs: send"]}
{"id": "C88", "title": "A Windows worker gets handles to what was granted and nothing else", "statement": "The broker never takes a handle away from a Windows worker, each handle it adds refers to the object opened by a successful call for a granted request of that worker, and each handle it announces exists.", "quantifier": "every sequence of messages, every behaviour of the operating system", "why_tests_cant": "Adversarial histories and failures.", "anchors": ["broker/src/windows/ipc_loop.rs", "ipc/src/windows/channel.rs: send"]}
{"id": "C89", "title": "Windows messages arrive as they were sent", "statement": "A request or a reply that can be sent on Windows is decoded into the same message with the same handle, and the policy received in the first reply takes the same decision as the broker's on every request.", "quantifier": "every message, every policy built through the interface", "why_tests_cant": "All messages.", "anchors": ["ipc-messages/src/windows/mod.rs", "ipc/src/windows/channel.rs: send, recv"]}
{"id": "C90", "title": "A Windows session ends with the first message that is not a request", "statement": "After a message that is too long, malformed or names a handle, after an error or the end of the channel, and after a second initialization, the broker does nothing more for a Windows worker; and it does nothing at all for one that does not start with an initialization.", "quantifier": "every message, every position in every session", "why_tests_cant": "Adversarial messages.", "anchors": ["broker/src/windows/ipc_loop.rs", "ipc/src/windows/channel.rs: recv"]}
{"id": "C91", "title": "Hooking redirects every way to call a function and nothing else", "statement": "After the worker hooked functions of a DLL, in each loaded module each export that led to one of them leads to its replacement, called with unchanged registers and stack, each import slot in use that held it holds the replacement, and every other export and import is unchanged.", "quantifier": "every list of loaded modules and of their tables, every layout of free memory, every list of hooked functions", "why_tests_cant": "All layouts of memory and of modules.", "anchors": ["worker/src/windows/lockdown.rs: hook_function, write_trampoline"]}
{"id": "C92", "title": "A Windows program opens what it names, as the policy decides", "statement": "A program in a Windows worker that creates or opens a file by name gets the status, the information and, on success, a handle to the object that one system call of the broker with exactly that name, access, sharing, disposition and options gave, if the policy grants the request; otherwise it gets access denied and a null handle, and no system call is made.", "quantifier": "every name, every parameters, every policy and state of the broker, every result of the system call", "why_tests_cant": "All names (including invalid UTF-16 and very long ones) and all results of the system call.", "anchors": ["worker/src/windows/lockdown.rs: hook_ntcreatefile, hook_ntopenfile, send_recv", "broker/src/windows/brokered_syscalls.rs"]}
{"id": "C93", "title": "A Windows program opens the registry key it names, as the policy decides", "statement": "A program in a Windows worker that creates or opens a registry key by name gets the status, the disposition if it asked for it and, on success, a handle to the key that one system call of the broker with exactly that name, class, access and options gave, if the policy grants the request; otherwise it gets access denied and a null handle, and no system call is made.", "quantifier": "every name and class, every parameters, every policy and state of the broker, every result of the system call", "why_tests_cant": "All names and all results of the system call.", "anchors": ["worker/src/windows/lockdown.rs: hook_ntcreatekey, send_recv", "broker/src/windows/brokered_syscalls.rs"]}
{"id": "C94", "title": "Hooked calls the sandbox does not support fail at once", "statement": "In a Windows worker a hooked call that lacks a mandatory pointer or a name fails with STATUS_INVALID_PARAMETER, one that uses a root directory, extended attributes or a title index fails with STATUS_NOT_SUPPORTED, both without involving the broker and without a handle; every other one with readable strings is sent to the broker, and a handle is only ever given to the program if the broker sent it in reply to that very call.", "quantifier": "every combination of parameters, every behaviour of the other end of the pipe", "why_tests_cant": "All combinations of parameters and of replies.", "anchors": ["worker/src/windows/lockdown.rs: hook_ntcreatefile, hook_ntopenfile, hook_ntcreatekey"]}
{"id": "C95", "title": "A Windows worker starts exactly if the broker can greet it", "statement": "A worker that was started with a policy built by any sequence of calls of the API gets through its start exactly if the policy fits in a message and the broker can write it to the pipe, and then the broker serves it.", "quantifier": "every policy, every failure of the pipe", "why_tests_cant": "Policies of all sizes.", "anchors": ["worker/src/windows/lockdown.rs: lower_final_sandbox_privileges", "broker/src/windows/ipc_loop.rs"]}
{"id": "C96", "title": "AppContainer profiles do not outlive their workers", "statement": "When a Windows worker is dropped, no AppContainer profile created for it is left on the system, and no other profile was changed.", "quantifier": "every behaviour of the operating system during the creation", "why_tests_cant": "All combinations of refusals and retries.", "anchors": ["broker/src/windows/process.rs: OSSandboxedProcess::new, Drop"]}
{"id": "C97", "title": "A Windows worker inherits the handles the policy says and no other", "statement": "Of the inheritable handles of the broker, a Windows worker inherits exactly those the policy lists.", "quantifier": "every list of handles, every behaviour of the operating system", "why_tests_cant": "All lists (also with repetitions) and all refusals.", "anchors": ["broker/src/windows/process.rs: handles_to_inherit"]}
{"id": "C98", "title": "Starting a Windows worker only adds the right to load DLLs", "statement": "Starting a worker changes no permissions but those of the DLLs in the directory of the executable and in the Windows directory; on these nobody loses a right, and only the rights needed to load a DLL are new, for the two groups of application packages.", "quantifier": "every directory, every access control list, every failure of the system calls, every identity and right", "why_tests_cant": "All access control lists and all failures in the middle.", "anchors": ["broker/src/windows/process.rs: ensure_dlls_have_appcontainer_delegations, ensure_dll_has_appcontainer_delegations"]}
{"id": "C99", "title": "The DLLs next to a Windows worker's executable can be loaded by it", "statement": "After a worker's start each DLL of the executable's directory and of the Windows directory, for which the system calls succeeded, can be loaded by application packages, whatever happened to other files.", "quantifier": "every directory, every access control list, every failure of other system calls", "why_tests_cant": "All access control lists and listings.", "anchors": ["broker/src/windows/process.rs: ensure_dlls_have_appcontainer_delegations, ensure_dll_has_appcontainer_delegations"]}
{"id": "C100", "title": "The two ends of a Windows channel are connected to each other", "statement": "When a Windows broker has created the channel for a worker, its two handles are the two ends of one pipe: what is written to one is read from the other. Both handles are new and no other handle changes. If the creation fails, the broker has exactly the handles it had.", "quantifier": "every interleaving with the acts of other processes on named pipes, every failure of the system calls, all pipes existing before", "why_tests_cant": "All schedules of other processes between the four system calls.", "anchors": ["ipc/src/windows/channel.rs: IpcChannel::new"]}
{"id": "C101", "title": "The creation of a Windows channel ends", "statement": "Creating the channel for a Windows worker ends with a channel or an error after finitely many attempts, whatever pipes exist already and whatever the system answers.", "quantifier": "every set of existing pipes, every sequence of answers of the system", "why_tests_cant": "Unbounded sequences of answers.", "anchors": ["ipc/src/windows/channel.rs: IpcChannel::new"]}
{"id": "C102", "title": "A Windows worker is attached to its own channel", "statement": "When a Windows worker has been created, the handle it finds in its environment and the one the broker serves are the two ends of one pipe, nobody else has a handle to the worker's end, and granted handles are sent to that process. A configuration that sets the channel's variable itself is refused.", "quantifier": "every policy and process configuration, every state of the broker, every behaviour of the system and of other processes", "why_tests_cant": "All environments, handle values and schedules.", "anchors": ["broker/src/worker.rs: Worker::new", "broker/src/windows/process.rs: OSSandboxedProcess::new", "worker/src/lib.rs: lower_final_sandbox_privileges_asap"]}
{"id": "C103", "title": "A failed creation of a Windows worker leaves nothing behind", "statement": "If a Windows worker cannot be created, no process runs, and the broker has the handles it had, with the same ones inheritable.", "quantifier": "every policy and process configuration, every failure of every system call", "why_tests_cant": "All points of failure, crossed with all states.", "anchors": ["broker/src/worker.rs: Worker::new", "broker/src/windows/process.rs: OSSandboxedProcess::new, drop"]}
{"id": "C104", "title": "A Windows worker's standard streams are those configured", "statement": "Each of a Windows worker's three standard handles refers to the object the configured handle refers to in the broker, and is no handle if none was configured.", "quantifier": "every configuration of the three streams, every policy, every behaviour of the system", "why_tests_cant": "All combinations of streams, also sharing a handle.", "anchors": ["broker/src/worker.rs: Worker::new", "broker/src/windows/process.rs: OSSandboxedProcess::new"]}
{"id": "C105", "title": "A Windows worker has its channel, its streams and the handles its policy names, and no other", "statement": "The handles of a new Windows worker are its end of the channel, and of the broker's inheritable handles those its policy names and its configured streams.", "quantifier": "every state of the broker, every policy and configuration, every behaviour of the system", "why_tests_cant": "All tables of handles and failures.", "anchors": ["broker/src/worker.rs: Worker::new", "broker/src/windows/process.rs: OSSandboxedProcess::new"]}
{"id": "C106", "title": "A Windows handle is closed once, by its owner", "statement": "In any program using the safe handle operations of the Windows implementation, every handle is closed exactly once, when its last owner goes away, and only handles are ever closed; a handle and its clone are two handles to the same object, and neither owner can close or change a handle of somebody else.", "quantifier": "all programs (sequences of creation, clone, into_raw, from_raw within its contract, set_inheritable and drop), all handle tables at the start", "why_tests_cant": "Unbounded programs over unbounded handle tables.", "anchors": ["ipc/src/windows/handle.rs: Handle, Drop, clone, into_raw, from_raw"]}
{"id": "C107", "title": "A Windows handle is inheritable exactly when its owner said so last", "statement": "When set_inheritable succeeds, is_inheritable then answers what was set, every other handle is as inheritable as before, and when it fails nothing changes; a handle that is not valid gets an error.", "quantifier": "all handle tables, all sets of inheritable handles, all handles, both values", "why_tests_cant": "All handle tables.", "anchors": ["ipc/src/windows/handle.rs: set_inheritable, is_inheritable"]}
{"id": "C108", "title": "A C log callback on Windows is told what a Rust callback is told", "statement": "On Windows, a log callback registered through the C API is called with the same request and the same verdict as a Rust callback would be, for every request a worker can make, and afterwards no memory is lost.", "quantifier": "every policy, every request of a worker including those with NUL in the path and with no extended attributes, every state of the memory allocator", "why_tests_cant": "All requests, all allocator behaviours; undefined behaviour does not show in a test that happens to pass.", "anchors": ["bindings/C/broker/src/windows/mod.rs: IrisPolicyRequest", "bindings/C/broker/src/policy.rs: iris_policy_add_log_callback"]}
{"id": "C109", "title": "An intercepted call returns like a system call", "statement": "A program whose system call is intercepted goes on after the instruction as after any system call: the result is in the result register, the flags and every other register are as they were (rcx and r11 as the processor leaves them), and the call served is exactly the one the kernel would have run. If the worker cannot serve it, the program does not go on.", "quantifier": "every state of the program's registers, every call, every answer of the broker, x86_64", "why_tests_cant": "All register contents; a handler that spoils a register breaks programs far from the call.", "anchors": ["worker/src/linux/lockdown.rs: sigsys_handler, read_isize_from_ptr", "worker/src/linux/arch/x86_64/seccomp.rs: SYSCALL_REGISTER_NR, SYSCALL_REGISTER_RET"]}
{"id": "C110", "title": "Hooking never makes memory both writable and executable", "statement": "While a Windows worker redirects its functions, and afterwards, no memory of the process is writable and executable at the same time, unless some already was.", "quantifier": "all contents of memory (also malformed modules), all functions hooked, all answers and failures of the system, all states the memory goes through", "why_tests_cant": "The states in between last microseconds, and which of them occur depends on the layout of memory and on which system calls fail.", "anchors": ["worker/src/windows/lockdown.rs: hook_function, hotpatch_u32, hotpatch_u64, unprotect_memory_area, reprotect_memory_area"]}
{"id": "C111", "title": "Hooking leaves the protection of memory as it was", "statement": "After a Windows worker has redirected its functions, each page of memory that was in use has the protection it had before; memory used additionally can be executed and not written.", "quantifier": "all processes with their modules, all layouts of their tables in pages, all functions hooked, all answers of the system", "why_tests_cant": "Whether an entry of a table spans two pages of different protection depends on the modules loaded in the worker.", "anchors": ["worker/src/windows/lockdown.rs: hotpatch_u32, hotpatch_u64, unprotect_memory_area, reprotect_memory_area"]}
{"id": "C112", "title": "Code stays executable while functions are hooked", "statement": "While a Windows worker redirects its functions, code which other threads may execute stays executable.", "quantifier": "all processes with their modules, all layouts of their tables in pages, all functions hooked, all answers and failures of the system, all states the memory goes through", "why_tests_cant": "The time in which a page is not executable is short, and depends on a linker having put tables and code on one page.", "anchors": ["worker/src/windows/lockdown.rs: hotpatch_u32, hotpatch_u64, unprotect_memory_area, reprotect_memory_area"]}
{"id": "C113", "title": "Hooking completes when the system refuses nothing", "statement": "On Windows, if no system call fails, the tables of the loaded modules can be read and there is free memory above the modules for one trampoline per hooked function and module, hook installation finishes: it neither panics, nor faults, nor loops for ever, whatever the modules, their number and the sizes of their tables.", "quantifier": "all processes in memory (modules, headers, import and export tables, page protections), lists of functions to hook, allocation granularities and truthful answers of VirtualQuery", "why_tests_cant": "Termination and absence of panics depend on the layout of every module and of the address space; a test sees those of one machine.", "anchors": ["worker/src/windows/lockdown.rs: hook_function", "worker/src/windows/lockdown.rs: hotpatch_u32", "worker/src/windows/lockdown.rs: unprotect_memory_area"]}
{"id": "C114", "title": "A channel delivers what was sent at the other end, in order, and ends only when it is over", "statement": "On Linux, what arrives at one end of a channel is what was sent at the other end: each message once, whole, in the order of sending, with a handle on the file that was sent (even if the sender has closed its own since), never a message of the same end or of another channel. A message accepted by send can always be received by whoever has the other end. recv reports the end of the channel only if everything sent has arrived and nobody can send any more, and this is final. Creating a channel gives two new handles connected to each other, or fails and changes nothing.", "quantifier": "all histories of creations, sends and receives of any message types, buffer sizes and handles, closing, duplicating and inheriting of ends, failures of the system, in any number of processes, and both word sizes", "why_tests_cant": "It speaks of all interleavings of the two ends and of ends passed between processes; tests use one schedule in one process.", "anchors": ["ipc/src/linux/channel.rs: IpcChannel::new", "ipc/src/linux/channel.rs: IpcChannel::send", "ipc/src/linux/channel.rs: IpcChannel::recv", "ipc/src/linux/channel.rs: IpcChannel::from_handle"]}
{"id": "C115", "title": "The log tells what a Linux worker asked and what was decided", "statement": "Each decision of the broker on Linux is written to the log as one record, before audit mode changes the answer: as information if the rules grant the request, as a warning otherwise. The record alone determines the request (path and flags, or system call number, arguments and address) and the decision of the rules with its reason, and log callbacks receive exactly that request and that decision. A text log, with one record per line, determines the whole history of requests and decisions, unless paths contain line breaks: a worker can then forge records (known defect: paths are not escaped).", "quantifier": "every pair of policies, every pair of requests with any path, flags and arguments, every history of requests", "why_tests_cant": "whether two different requests or verdicts can ever print the same is a statement about all pairs of strings, including paths chosen by a hostile worker to imitate the text around them", "anchors": ["policy/src/policy.rs: log_verdict", "policy/src/linux/policy.rs: Display for PolicyRequest, evaluate_request, check_file_open"]}
{"id": "C116", "title": "The log tells what a Windows worker asked and what was decided", "statement": "Each decision of the broker on Windows is written to the log as one record: as information if the rules grant the request, as a warning otherwise. The record alone determines the decision of the rules with its reason, and the request except for the bytes of its extended attributes (only their number is written) and for the creation options of a registry key which is not to be created. Log callbacks receive exactly the request and decision the record is about. A text log determines the history to the same extent, unless names contain line breaks (known defects: names are not escaped, extended attributes are left out).", "quantifier": "every pair of policies, every pair of file and registry requests, every history of requests, debug and release builds", "why_tests_cant": "whether two different requests or verdicts can ever print the same is a statement about all pairs of strings, including names chosen by a hostile worker to imitate the text around them", "anchors": ["policy/src/policy.rs: log_verdict", "policy/src/windows/policy.rs: Display for PolicyRequest, evaluate_request, check_file_open, check_regkey_open"]}
{"id": "C117", "title": "The reason given with a refusal on Linux is true", "statement": "When the broker does not grant a request to open a file, the reason it gives is true of the request and of the rules: an unsupported flag message shows exactly the unsupported bits of the flags, and there are some; a canonical form message is given only for paths that are not canonical, and quotes them; a policy message names exactly the access that was asked (read-write, read-only, write-only, neither) and exactly the access that the rules give (only read, only write, none). Log callbacks get the same, in audit mode too. No two different situations are described by the same policy sentence.", "quantifier": "every history of policy calls, every path, every flag word, every log callback, audit mode or not", "why_tests_cant": "a test compares the text in one situation; the words must fit every combination of 32 flag bits, rules and paths", "anchors": ["policy/src/linux/policy.rs: check_file_open", "policy/src/policy.rs: log_verdict, get_filepath_allowed_access"]}
{"id": "C118", "title": "The reason given with a refusal on Windows is true", "statement": "When the broker does not grant a request to open a file or a registry key, the reason it gives is true of the request and of the rules: messages about unsupported rights, attributes, options and dispositions show exactly the offending bits or value; messages about access name exactly what was asked and what the rules give; messages about locks list exactly the kinds of locks that were asked and those that the rules give, and are given only when reading and writing are allowed as asked. For registry keys what is said to be asked is wrong for masks with rights the code calls always granted (known defect: they are counted as both reading and writing).", "quantifier": "every history of policy calls, every path without an empty name, every access mask, attributes, sharing, disposition, options and extended attributes, debug and release builds", "why_tests_cant": "a test compares the text in one situation; the words must fit every combination of masks, sharing modes, rules and paths", "anchors": ["policy/src/windows/policy.rs: check_file_open, check_reg_key_open", "policy/src/policy.rs: get_filepath_allowed_access"]}
{"id": "C119", "title": "A printed policy tells what is allowed", "statement": "Printing a policy with {:?} shows all that it allows: two policies which can print the same text are both for audit or both enforced, let the same handles be inherited and answer the same to every request, whatever the order in which tables are iterated. Known defects: the three kinds of locks are all printed as block_readers, so policies which differ in them print the same; paths with line breaks are printed as they are, so one rule can print as several.", "quantifier": "every pair of histories of policy calls, every order of iteration of the hash tables, every request", "why_tests_cant": "it is a statement about all pairs of policies and all requests, and about iteration orders which differ from run to run", "anchors": ["policy/src/policy.rs: Debug for Policy", "ipc/src/linux/handle.rs: Handle", "ipc/src/windows/handle.rs: Handle"]}
{"id": "C120", "title": "A worker is the broker's user and group, and nobody else", "statement": "A worker that gets a user namespace of its own is there the user and the group that the broker runs as, under the same numbers, and no other user or group exists there: in particular it is not root unless the broker is. If the system refuses a map, the worker is nobody there. Groups are mapped only after setgroups was denied, unless the broker may change groups anyway. If the system refuses nothing and the broker runs as the user who started it, the maps are written. A worker without a user namespace of its own leaves the maps of the broker as they are.", "quantifier": "every user id and group id, every outcome of clone and of opening and writing the three files of /proc, every privilege of the broker, every policy and configuration", "why_tests_cant": "a test runs as one user on one kernel; the text of the maps must be right for every 32-bit id and the order must be right for every pattern of refusals", "anchors": ["linux-entrypoint/src/entry.rs: clone_entrypoint", "broker/src/linux/process.rs: OSSandboxedProcess::new"]}
{"id": "C121", "title": "A worker that gives up says why", "statement": "While it starts, a worker process writes one line per step that the system refuses, whole, with the name of the step and its error, in order, and nothing else; it gives up if and only if the last line is an error, and only that line is one. What it says goes to the standard error of the broker. Known defects: if the standard error of the worker itself cannot be set up, the reason is lost, since the old one is closed first; if the broker has no standard error, messages are written into whatever file gets its number.", "quantifier": "every pattern of refusals of system calls, every error number, every descriptor table and capability set", "why_tests_cant": "each refusal has its own branch, messages are cut when a fixed buffer is full, and the descriptor they are written to changes while they are written", "anchors": ["linux-entrypoint/src/error.rs: log_nonfatal, log_fatal, set_debug_fd", "linux-entrypoint/src/entry.rs: clone_entrypoint", "linux-entrypoint/src/capabilities.rs: drop_capabilities"]}
{"id": "C122", "title": "Creating a Windows worker uses memory right", "statement": "While a Windows worker is created, no memory is used that is not there or beyond its end: the attribute list is as big as the system asks, has a slot for each attribute, and when the process is created every attribute can be read and has the value that was meant. Values persist until the list is deleted, as the documentation demands. Whatever fails, everything taken is given back: each buffer is freed, each initialised list deleted exactly once, each identifier freed. Known defects: values are freed before the list is deleted; identifiers of AppContainer profiles are never freed.", "quantifier": "every behaviour of the system in every iteration of the loop (sizes, refusals of lists, profiles, attributes and processes), every policy, every memory before", "why_tests_cant": "each failure leaves the loop at another point with other variables alive; a dangling pointer usually goes unnoticed in tests", "anchors": ["broker/src/windows/proc_thread_attribute_list.rs: ProcThreadAttributeList", "broker/src/windows/process.rs: OSSandboxedProcess::new"]}
{"id": "C123", "title": "Registry rules for the current user are about that user only", "statement": "A registry rule for HKEY_CURRENT_USER gives access to the hive of the user the broker runs as, as named by the system, and to the hive of no other user. Finding out the user closes every handle and frees every text, and if the system does not tell, no rule is made. Known defect: a rule path that only begins with HKEY_CURRENT_USER is accepted and can be in the hive of another user.", "quantifier": "every pair of users, every history of policy calls, every request, every behaviour of the system", "why_tests_cant": "a test has one or two users; identifiers of users can be prefixes of each other, and the statement is about all of them and all paths", "anchors": ["policy/src/windows/path.rs: get_current_user_sid, derive_all_reg_key_paths_from_path"]}
{"id": "C124", "title": "Hooked calls of many threads of a Windows worker", "statement": "However many threads of a Windows worker call hooked functions at the same time, each call returns what the broker answered to that call, as if all calls had been made one at a time in the order in which they reached the broker; no answer goes to another thread, gets lost or comes twice. Calls of threads never block each other: each returns as soon as the broker answers. Known defect: the lines about a call are logged while the channel is locked, so with a logger that itself opens a file for a line the first hooked call waits for itself for ever, and so do all later ones of all threads.", "quantifier": "every number of threads, every interleaving of their calls with each other and the broker, every sequence of requests, every policy and every behaviour of the system, every logger of the program", "why_tests_cant": "interleavings cannot be enumerated; a deadlock depends on the logger the program installs and on the log level", "anchors": ["worker/src/windows/lockdown.rs: send_recv, get_ipc_channel, hook_ntcreatefile, hook_ntopenfile, hook_ntcreatekey"]}
{"id": "C125", "title": "Intercepted calls of 32-bit programs", "statement": "When a 32-bit x86 worker makes a system call that is intercepted, it goes on after the instruction with the result in eax and every other register, the flags and the stack pointer as before. open, openat, access, stat and chdir are served exactly as the same calls of a 64-bit worker; any other call is reported to the broker with its number, arguments and call site and gets -ENOSYS, or in audit-only mode is run once unchanged. Signals of another cause change nothing. A file that the policy allows can be opened and examined. Known defect: call 195 (stat64), by which C libraries of this machine examine a file, is not recognised and always fails.", "quantifier": "every state of the registers, every system call number and arguments, every memory, policy, path, descriptor table and result of the system", "why_tests_cant": "the registers and the memory at the time of a call cannot be enumerated, and the 32-bit code is never compiled by the tests", "anchors": ["worker/src/linux/lockdown.rs: sigsys_handler, read_isize_from_ptr, handle_syscall, handle_openat"]}
{"id": "C126", "title": "Memory handed to a new worker process on Linux", "statement": "While a worker process is created on Linux, the broker never uses or frees memory that is not there, and the new process, which follows raw pointers in its copy of the broker's memory, finds exactly what was configured: the executable, every argument and environment variable, the descriptors to keep, the user and group maps, the pipe and the streams. Whatever happens, all memory is given back; after success the stack of the process is kept until the worker is dropped. Known defect: if the system refuses to create the process in all three ways, the parameters are leaked.", "quantifier": "every configuration (any number and length of arguments, variables and descriptors), every contents of the broker's memory, every result of every system call", "why_tests_cant": "dangling pointers and leaks depend on sizes, on the allocator and on which call fails, and often go unnoticed in tests", "anchors": ["broker/src/linux/process.rs: OSSandboxedProcess::new, try_clone", "linux-entrypoint/src/entry.rs: EntrypointParameters, clone_entrypoint"]}
{"id": "C127", "title": "The error of a failed worker creation says what failed (Linux)", "statement": "When a worker cannot be created on Linux, the error returned is exactly the one of the first step that failed, in the order: channel, standard input, output and error not inheritable (with the number of the descriptor), environment variable of the channel already set (with its name), no arguments, pipe, process refused in all three ways (code of the last one), program which cannot be executed (code of execve), first message (process ended, not received, garbled, or not the one expected), policy not sent, thread not created. If no step fails, the creation succeeds. A first message with files attached never gives a worker.", "quantifier": "every table of descriptors, configuration whose streams are open in it (as a Handle is), policy, and every combination of results of the system, including several failures at once, but a failed read of the pipe (C44 is about it)", "why_tests_cant": "a test provokes one failure at a time; which error wins when several steps would fail, and that no failure is reported as another one, concerns all combinations", "anchors": ["broker/src/worker.rs: Worker::new", "broker/src/linux/process.rs: OSSandboxedProcess::new, try_clone", "broker/src/broker_ipc.rs: start_ipc_loop", "broker/src/error.rs: BrokerError"]}
{"id": "C128", "title": "The errors of the channel and of handles say what failed (Linux)", "statement": "Sending a message on a Linux channel fails exactly if it is too long, if the system refuses it (the error has the code), or if its handle is not open; receiving fails exactly if the system refuses (with the code), if the bytes or the files do not fit (the error has the bytes that did fit) or if the bytes are not a message (the error has all of them). Asking whether a handle is inheritable, or changing it, fails exactly for a handle that is not open, with its number and the code, and changes nothing. Known defect, from C25: on x86_64, sending a handle also fails if descriptor 0 is closed.", "quantifier": "every message, handle, table of descriptors, buffer size, limit of open files, both ABIs, any received datagram with any files", "why_tests_cant": "combinations of truncation, attached files, limits and codes are unbounded", "anchors": ["ipc/src/linux/channel.rs: send, recv", "ipc/src/linux/handle.rs: set_inheritable, is_inheritable", "ipc/src/error.rs: IpcError, HandleError"]}
{"id": "C129", "title": "Workers created by several threads at once do not mix", "statement": "If several threads of a broker create workers at the same time on Linux, their system calls interleaved in any way with each other and with whatever else the process does to other descriptors, then each worker program that starts has, above the standard streams, its own end of its own channel and the inheritable descriptors its creator declared, and nothing else: no channel, pipe or file of another creation. A creation closes or changes no descriptor it has not opened itself; a creation that fails has closed all those it had opened; one that succeeds has closed all but the broker's end of its channel, which it leaves open and unchanged; each returns after at most 22 system calls. A creation that nothing interrupts behaves as in the other properties. Its standard streams are the configured ones except as in C40 (known defect).", "quantifier": "every descriptor table, any number of creations with any configurations, policies and system results, every interleaving of their system calls, and any other changes to descriptors that no creation owns or borrows", "why_tests_cant": "interleavings are unbounded, and the window in which another creation's pipe or channel is open and inheritable is a few instructions long", "anchors": ["broker/src/worker.rs: Worker::new", "broker/src/linux/process.rs: OSSandboxedProcess::new", "linux-entrypoint/src/entry.rs: clone_entrypoint", "broker/src/linux/ipc_loop.rs: start_ipc_loop"]}
{"id": "C130", "title": "The error of a failed creation of a Windows worker is the one of the first step that failed", "statement": "When a worker cannot be created on Windows, the error returned is that of the first step that failed, in the order: creation of the channel (which call failed and the system's code), making the worker's end inheritable, each standard stream that is not inheritable (naming its handle), an environment already holding the channel's variable, an empty command line, the Windows directory, the attribute list, the process (with its command line and the system's code), its number, its opening by the channel, its thread. A creation that succeeds has had no failed step. Each failed system call is told by name and code.", "quantifier": "every configuration, policy and state of the handles, and every result and error code of each system call, in every attempt of the two loops", "why_tests_cant": "each error needs a particular failure of the system, and the order of the checks matters only when several fail at once", "anchors": ["broker/src/worker.rs: Worker::new", "broker/src/windows/process.rs: OSSandboxedProcess::new", "broker/src/windows/proc_thread_attribute_list.rs: ProcThreadAttributeList::new", "ipc/src/windows/channel.rs: MessagePipe::new, set_remote_process"]}
{"id": "C131", "title": "What a Windows broker gets from the system to set permissions on DLLs is given back, once", "statement": "Before it creates a worker, a Windows broker has the system allocate security identifiers, security descriptors, access control lists and searches of directories, to let workers load the DLLs beside their executable. Whatever call fails, and for any number of workers, each of them is freed at most once and never used after that; and each of them is freed before the worker is created, so that creating workers does not use up the memory or the handles of the broker.", "quantifier": "any number of creations, every executable and Windows directory, every listing, every access control list, and every failure of each system call", "why_tests_cant": "a use after free or a double free may go unnoticed in a run, and a leak of a few bytes and a handle for each worker shows only after many of them", "anchors": ["broker/src/windows/process.rs: get_sid_from_str, ensure_dlls_have_appcontainer_delegations, ensure_dll_has_appcontainer_delegations"]}
{"id": "C132", "title": "Windows workers created by several threads at once do not get each other's handles", "statement": "When several threads of a Windows broker create workers at the same time, while its other threads open and close handles and create AppContainer profiles of their own, each worker process starts with the handle of its own end of its own channel and with the handles declared for it, as if its creation had been alone: no end of another worker's channel and no handle another creation has open reaches it, although handles are marked inheritable for the whole broker. Each creation closes every handle it opens but those it returns, never closes, changes or marks inheritable any other, uses an AppContainer profile of a number no other creation has used, and returns after a bounded number of system calls; a creation that is not interrupted behaves as the sequential one.", "quantifier": "any number of creations in progress, every interleaving of their system calls with each other and with other threads, every configuration and policy, every failure", "why_tests_cant": "which handles are open and inheritable at the moment a process is created depends on how system calls of other threads interleave with it, and a test sees a few schedules", "anchors": ["broker/src/worker.rs: Worker::new", "broker/src/windows/process.rs: OSSandboxedProcess::new, PER_PROCESS_APPCONTAINER_ID", "ipc/src/windows/channel.rs: IpcChannel::new", "ipc/src/windows/handle.rs: Handle::set_inheritable"]}
{"id": "C133", "title": "A whole Linux broker keeps its workers apart while it creates and serves them", "statement": "In a broker process whose threads create workers while others serve workers already created, whatever the order of their system calls and whatever else the program does with its own file descriptors: each worker program starts with its end of its own channel and the declared descriptors only, never a file opened for another worker; exactly the workers whose creation succeeded are served, under the policy given for them; each request is read from and answered on the worker's own channel; every file opened for a worker was requested by that worker and is allowed by its own policy, and no other file is sent to it; the answers are those of a broker serving it alone; and every descriptor opened for a worker is closed once its creation has failed or it is gone, without ever touching a descriptor of another worker or of the program.", "quantifier": "any number of workers, every configuration and policy, every message and system answer, every interleaving of creations, service threads and other activity", "why_tests_cant": "creation and service share one descriptor table, so each property depends on how the system calls of all threads interleave; a test sees a few schedules", "anchors": ["broker/src/worker.rs: Worker::new", "broker/src/linux/ipc_loop.rs: Worker::start_ipc_loop", "broker/src/linux/process.rs: OSSandboxedProcess::new", "ipc/src/linux/channel.rs: send, recv"]}
{"id": "C134", "title": "A Windows broker serving several workers at once keeps them apart", "statement": "In a Windows broker whose threads serve several workers at the same time, whatever the order of their system calls and of creations of new workers: each thread reads and writes only the pipe of its own worker; each file or key opened for a worker was asked for by that worker and is allowed by its own policy; every handle is duplicated into the process of the worker which asked for it; a thread closes only handles of its own and in the end closes all of them; each worker gets the answers it would get from a broker serving it alone, and each message is answered, or the thread ends, after at most six system calls of its own.", "quantifier": "any number of workers, every policy, every message and system answer, every interleaving of service threads, creations and other activity", "why_tests_cant": "the threads share one handle table and use bare handle values, so each property depends on how their system calls interleave; a test sees a few schedules", "anchors": ["broker/src/windows/ipc_loop.rs: Worker::start_ipc_loop", "ipc/src/windows/channel.rs: send, recv", "ipc/src/windows/handle.rs: Handle::drop"]}
{"id": "C135", "title": "Functions of Windows are called as Windows defines them", "statement": "Every function of Windows which the code finds by name and calls, or which the worker library replaces by a function of its own, gets exactly the arguments passed by the caller, in order, can return to its caller, and leaves the caller's stack as it was, on 32-bit and 64-bit machines alike; the broker uses the function it looked for exactly if the library has it.", "quantifier": "every function called or replaced, all arguments, every state of the stack, both machines", "why_tests_cant": "a wrong declaration compiles without a warning and works on the machine where it is tested; the damage depends on the machine and on what the compiler keeps on the stack", "anchors": ["broker/src/windows/process.rs: CreateAppContainerProfileFn, DeleteAppContainerProfileFn, APPCONTAINER_PROFILE_FN", "broker/src/windows/brokered_syscalls.rs: PNtCreateFile, PNtCreateKey, PNtOpenKey", "broker/src/windows/get_proc_address.rs: get_proc_address", "worker/src/windows/lockdown.rs: hook_ntcreatefile, hook_ntopenfile, hook_ntcreatekey, NtQueryInformationProcess"]}
{"id": "C136", "title": "Files opened for a Linux worker are the ones its rules name", "statement": "Each file the broker opens for a worker is a file named, directory by directory, by a path which the rules allow; one that can be read from by a path allowed for reading, one that can be written to by a path allowed for writing. Whatever a worker asks for and writes, the only changes are contents of regular files the rules allow to write to, and new regular files there: no file elsewhere, no directory, no link. A file that exists is found by its path.", "quantifier": "all trees of files, rules, sessions of a worker, kernel refusals, and contents a worker writes at any time", "why_tests_cant": "a test has a few files, and rarely a link; what a path leads to depends on the files there are when it is opened, including those made by earlier requests", "anchors": ["broker/src/linux/brokered_syscalls.rs: proxied_open_file", "policy/src/linux/policy.rs: evaluate_request", "policy/src/linux/path.rs"]}
{"id": "C137", "title": "A locked down Linux worker reaches nothing but through its broker", "statement": "Once a worker has locked itself down, whatever system calls it makes with whatever arguments, and whatever it sends to its broker: files change only where its rules allow writing or where it was given a descriptor for writing; each descriptor it has was given to it or was opened by the broker for a path its rules allow; and it gets at nothing else outside of itself: no program, no connection, no information about other files, no message to other sockets, no signal to other processes.", "quantifier": "all system calls of the three architectures with all arguments and memory contents, all sessions with the broker, interleaved in any order, all trees of files, rules and inherited descriptors", "why_tests_cant": "a test tries some calls; one call with an unexpected argument is enough to escape, and what is allowed is decided by a program of the kernel's packet filter which the worker loads", "anchors": ["broker/src/linux/seccomp.rs: SYSCALLS_ALLOWED_BY_DEFAULT, compute_seccomp_filter", "worker/src/linux/lockdown.rs: lower_final_sandbox_privileges", "broker/src/linux/brokered_syscalls.rs: proxied_open_file", "policy/src/linux/policy.rs: evaluate_request"]}
{"id": "C138", "title": "Files opened for a Windows worker are those its rules name, whatever reparse points there are", "statement": "Every file for which the broker opens a handle on behalf of a Windows worker is a file that a path allowed by the rules names, itself and not through a junction or symbolic link that leads elsewhere; it can be read from or changed only as the rules allow for that path. All that the worker changes in the file system (contents, files and directories made or deleted), through the broker or through the handles it was given, is where the rules allow to write.", "quantifier": "all trees of directories, files and reparse points, all ways to compare names, all rules, all sessions with the broker, interleaved in any order with what the worker does with its handles", "why_tests_cant": "a test has one tree of files; reparse points, identifiers in place of names and names which differ by case are ways around checks on text, and a worker can change the tree between two requests", "anchors": ["broker/src/windows/brokered_syscalls.rs: proxied_ntcreatefile", "policy/src/windows/policy.rs: evaluate_request", "broker/src/windows/ipc_loop.rs"]}
{"id": "C139", "title": "A whole Windows broker keeps its workers apart while it creates and serves them", "statement": "However the creation of workers and the service of their requests are interleaved in one broker process on Windows, every worker process has the handles its caller asked for and its end of its own pipe, and no others. The thread serving it uses that pipe only, answers its requests in their order by the policy it was created with, opens nothing on its behalf that this policy does not grant, gives what it opens to this worker's process only, and closes nothing that was opened for another worker; a creation that fails leaves no handle open.", "quantifier": "all numbers of workers, configurations and policies, all requests, all interleavings of single system calls of the creating calls and of the threads, all results of those system calls, all reuse of handle values", "why_tests_cant": "tests create a worker, then serve it; which system calls of creations and threads fall between one another, and which handle values are reused, depends on the schedule", "anchors": ["broker/src/worker.rs: Worker::new", "broker/src/windows/process.rs: OSSandboxedProcess::new", "broker/src/windows/ipc_loop.rs: Worker::start_ipc_loop", "ipc/src/windows/channel.rs: IpcChannel::new, send, recv", "ipc/src/windows/handle.rs: Handle::drop"]}
{"id": "C140", "title": "All workers of a Linux broker together open and change only the files their own rules name", "statement": "However a Linux broker creates and serves any number of workers with different rules, each file a worker ends up with is one it was given when it was created or is named by a path its own rules allow, for reading if it can be read from and for writing if it can be written to. Each change of a file caused by a worker, by a call the broker makes for it or by what it writes, is a change its own rules allow; what only the rules of other workers allow it does not get, and a file no acting worker may write to is left as it is. No link or directory is made.", "quantifier": "all numbers of workers and sets of rules, all requests, all interleavings of the broker's threads and of the workers' writes, all trees of files without symbolic links on the way to what the rules name, whatever the kernel refuses", "why_tests_cant": "tests open one file for one worker; which files exist, what other workers make of them meanwhile and which files go with a reply range over histories no test enumerates", "anchors": ["broker/src/linux/brokered_syscalls.rs: proxied_open_file", "broker/src/linux/ipc_loop.rs", "broker/src/worker.rs: Worker::new", "ipc/src/linux/channel.rs: send", "policy/src/policy.rs", "policy/src/linux/policy.rs"]}
{"id": "C141", "title": "Registry keys opened for a Windows worker are those its rules name, whatever links there are", "statement": "Every registry key for which the broker opens a handle on behalf of a Windows worker is a key that a path allowed by the rules names, itself and not through a registry link or another view of the registry; it can be read from or changed only as the rules allow for that path. All that the worker changes in the registry (values, keys made or deleted or renamed), through the broker or through the handles it was given, is where the rules allow to write.", "quantifier": "all trees of keys and links, all ways to compare names, all rules, all sessions with the broker, interleaved in any order with what the worker does with its handles", "why_tests_cant": "a test has one registry; links, redirection for 32-bit programs, repeated separators and names which differ by case are ways around checks on text, and a worker can change keys between two requests", "anchors": ["broker/src/windows/brokered_syscalls.rs: proxied_ntcreatekey", "policy/src/windows/policy.rs: check_reg_key_open, get_regkey_allowed_access", "broker/src/windows/ipc_loop.rs"]}
{"id": "C142", "title": "All workers of a Windows broker together open and change only the files and registry keys their own rules name", "statement": "However a Windows broker creates and serves any number of workers with different rules, each file and each registry key a worker is given is a new one or is named by a path its own rules allow, to be read or changed only as they allow. Each change caused by a worker, by a call the broker makes for it or by what it does with its handles, is one its own rules allow; a file or key no worker may write to is left as it is. What one worker does does not lead another one to what its rules do not name.", "quantifier": "all numbers of workers and sets of rules, all requests, all interleavings of the broker's threads and of what workers do with their handles, all trees of files and keys, whatever the kernel refuses", "why_tests_cant": "tests open one file for one worker; which files and links exist, and what other workers make of them meanwhile, range over histories no test enumerates", "anchors": ["broker/src/windows/brokered_syscalls.rs: proxied_ntcreatefile, proxied_ntcreatekey", "broker/src/windows/ipc_loop.rs", "broker/src/worker.rs: Worker::new", "policy/src/windows/policy.rs"]}
{"id": "C143", "title": "The tables of the project's own tests hold for every file", "statement": "For every file, the four policies made of a read rule or not and a write rule or not, and each combination of open flags (Linux) or access rights (Windows) the project's tests try, the worker's call works exactly when the test says it should: it then gets a descriptor or handle to that file, and otherwise EACCES or STATUS_ACCESS_DENIED and nothing is opened. For NtCreateKey the table of the (commented out) registry test should hold likewise for every key.", "quantifier": "all absolute canonical paths, all states of the broker and the program, all policies and calls of the tests' tables", "why_tests_cant": "the tests open one temporary file from one process; a decision that depends on the name, on what the broker did before or on the program's descriptors would pass them", "anchors": ["tests/tests/file_path_open.rs:file_path_open", "tests/src/bin/file_path_open_worker.rs:run_checks", "tests/tests/unix_file_path_policy_decision.rs:file_path_policy_decision", "tests/src/bin/windows_registry_worker.rs:main", "policy/src/policy.rs:Policy"]}
{"id": "C144", "title": "What workers cost a Linux broker is bounded", "statement": "Whatever workers send, however long they run and however the broker's threads are interleaved, there are never more than four descriptors open for a worker (three while it is served, its channel alone between two requests), so n workers take at most 4n; nothing stays open for a worker whose creation failed or whose session is over. Creating a worker takes at most 22 system calls of the calling thread, and from a message received five steps of the thread serving the worker are enough to have answered and be waiting for the next one, or to have ended, whatever other threads do meanwhile.", "quantifier": "all executions of a broker process: any number of workers, messages (with any files attached), results of system calls and interleavings", "why_tests_cant": "descriptors lost and steps lost accumulate over histories and interleavings longer than any test; a test serves one worker which behaves", "anchors": ["broker/src/worker.rs:Worker::new", "broker/src/linux/ipc_loop.rs:start_ipc_loop", "broker/src/linux/process.rs:Process::new", "ipc/src/linux/channel.rs:recv", "broker/src/linux/brokered_syscalls.rs:proxied_open_file"]}
{"id": "C145", "title": "What workers cost a Windows broker is bounded", "statement": "Whatever workers send, the handles they name included, however long they run and however the broker's threads are interleaved, there are never more than four handles open for a worker; between two requests there are only those of its pipe and of its process, and once its session is over only the one of its process that Worker keeps, so n workers take at most 4n. Nothing stays open for a worker whose creation failed. From a message received, six steps of the thread serving the worker are enough to have answered and be waiting for the next one, or to have ended, whatever other threads do meanwhile.", "quantifier": "all executions of a broker process on Windows: any number of workers, messages (naming any handle), results of system calls and interleavings", "why_tests_cant": "handles lost and steps lost accumulate over histories and interleavings longer than any test; a test serves one worker which behaves", "anchors": ["broker/src/worker.rs:Worker::new", "broker/src/windows/ipc_loop.rs:start_ipc_loop", "broker/src/windows/process.rs:OSSandboxedProcess::new", "ipc/src/windows/channel.rs:recv"]}
{"id": "C146", "title": "A program which stays within its rules does not see that it is confined", "statement": "Take a program on Linux which, run without the sandbox, makes only calls with a path that its rules allow. Run as a worker with these rules, whatever other processes do to files meanwhile, it gets descriptors of the same files, attributes of the same files and the same errors, moves through the same working directories, and leaves the same files and contents behind. A call its rules do not allow fails with EACCES and changes nothing; the working directory changes only by a successful chdir, to the directory its path leads to, which the rules allow.", "quantifier": "all sets of rules, trees of files with links, working directories and sequences of open, openat, stat and chdir calls, with arbitrary changes to files by others and to descriptors by the program in between", "why_tests_cant": "which file a relative path means depends on everything the program and others did before; tests try single calls on one tree and do not compare with a run outside the sandbox", "anchors": ["worker/src/linux/lockdown.rs:handle_openat", "worker/src/linux/lockdown.rs:handle_stat", "worker/src/linux/lockdown.rs:handle_chdir", "broker/src/linux/brokered_syscalls.rs:proxied_open_file", "broker/src/linux/ipc_loop.rs:start_ipc_loop"]}
{"id": "C147", "title": "A Windows program which stays within its rules does not see that it is confined", "statement": "Take a program on Windows which, run without the sandbox, opens and creates only files its rules allow, with NtCreateFile and NtOpenFile. Run as a worker with these rules, whatever happens to files meanwhile, it gets handles of the same files, the same results and the same errors, and leaves the same files and contents behind. A call its rules do not allow fails with STATUS_ACCESS_DENIED and changes nothing; a handle is always one of the file the kernel finds by the path the program gave.", "quantifier": "all sets of rules, trees of files with reparse points, kernels' ways to compare names, and sequences of NtCreateFile and NtOpenFile calls, with arbitrary changes to files and to the program's handles in between", "why_tests_cant": "which file a path leads to depends on everything done to files before, and the broker adds an option to each call; tests try single calls on one tree and do not compare with a run outside the sandbox", "anchors": ["worker/src/windows/lockdown.rs:hook_ntcreatefile", "worker/src/windows/lockdown.rs:hook_ntopenfile", "broker/src/windows/brokered_syscalls.rs:proxied_ntcreatefile", "broker/src/windows/ipc_loop.rs:start_ipc_loop"]}
{"id": "C148", "title": "A Windows program which stays within its rules does not see in the registry that it is confined", "statement": "Take a program on Windows which, run without the sandbox, opens and creates with NtCreateKey only keys its rules allow: it reads only keys it may read, and writes or creates only keys it may write. Run as a worker with these rules, whatever happens to the registry meanwhile, it gets handles of the same keys, is told the same about which of them are new, gets the same errors, and leaves the same keys behind. Any call either does exactly what it would do without the sandbox, or fails with STATUS_ACCESS_DENIED and changes nothing.", "quantifier": "all sets of rules, registries with links, kernels' ways to compare names and to redirect paths, and sequences of NtCreateKey calls, with arbitrary changes to keys and to the program's handles in between", "why_tests_cant": "which key a path leads to, and whether it is new, depends on everything done to the registry before; tests try single calls and do not compare with a run outside the sandbox", "anchors": ["worker/src/windows/lockdown.rs:hook_ntcreatekey", "broker/src/windows/brokered_syscalls.rs:proxied_ntcreatekey", "broker/src/windows/ipc_loop.rs:start_ipc_loop"]}
{"id": "C149", "title": "The process of a Linux worker is a child like any other, and a failed creation leaves none", "statement": "The number in a worker is that of its process. The process runs until it ends by itself; the program which created it can then wait for it with waitpid and that number, gets its exit status once, and nothing is left of it; if the program ignores SIGCHLD nothing is left as soon as it ends. A creation that fails leaves no process behind. Creating a worker, whether this fails or not, does nothing to the other children of the program.", "quantifier": "all calls of worker creation with all outcomes of the system calls involved, and all sequences of creations, ends of processes, calls of waitpid, changes of the handling of SIGCHLD and dropped workers", "why_tests_cant": "processes left over show only after many failures, and which of them waitpid sees depends on flags given to clone and on whether a program was executed; the project's tests wait with __WALL, which programs do not", "anchors": ["broker/src/linux/process.rs:try_clone", "broker/src/linux/process.rs:OSSandboxedProcess::new", "broker/src/worker.rs:Worker::new", "linux-entrypoint/src/entry.rs:clone_entrypoint"]}
{"id": "C150", "title": "Other programs get none of the descriptors opened for workers", "statement": "A program that uses the library may execute other programs at any time, from any thread. None of them gets a descriptor opened for a worker: neither end of its channel, nor the pipe its process reports errors with, nor a file opened for it or sent by it.", "quantifier": "all executions of a broker process: any number of workers created and served by any threads, every interleaving of their system calls, anything the rest of the program does in between, and every point at which another program may be executed", "why_tests_cant": "whether a descriptor is passed on depends on its flags at the very moment another thread calls fork and execve, which tests with one thread and no other program never see", "anchors": ["ipc/src/linux/channel.rs:IpcChannel::new", "ipc/src/linux/channel.rs:IpcChannel::recv", "ipc/src/linux/handle.rs:set_inheritable", "broker/src/linux/process.rs:OSSandboxedProcess::new", "broker/src/linux/brokered_syscalls.rs:proxied_open_file", "broker/src/worker.rs:Worker::new"]}
{"id": "C151", "title": "Other programs get none of the handles opened for workers, on Windows", "statement": "A program that uses the library may create other processes at any time, from any thread, which get the handles that are inheritable at that time. None of them gets a handle opened to create a worker: neither end of its channel, nor a handle of its process.", "quantifier": "all executions of a broker process on Windows in which any number of threads create workers: every interleaving of their system calls, any results of these, anything the rest of the program does in between, and every point at which another process may be created", "why_tests_cant": "whether a handle is inherited depends on what is marked at the very moment another thread calls CreateProcess, which tests with one thread and no other program never see", "anchors": ["broker/src/worker.rs:Worker::new", "ipc/src/windows/handle.rs:set_inheritable", "ipc/src/windows/channel.rs:IpcChannel::new", "broker/src/windows/process.rs:OSSandboxedProcess::new"]}
