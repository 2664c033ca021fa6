{"id": "C01", "title": "Recording never panics on a legal hook history", "statement": "A TracingInspector driven by any hook sequence the EVM can produce (properly nested call/create frames, every step inside a frame, at most one step open) never panics, whatever its configuration; only the documented precondition on pushed-stack snapshots (see C02) can make it panic.", "quantifier": "all configurations, all finite prefixes of all well-nested hook histories of any depth and length", "why_tests_cant": "The panics (disconnected trace, popping an empty trace stack, indexing a step that is not there) depend on the shape of the whole call history; a test drives one history.", "anchors": ["src/tracing/mod.rs: TracingInspector::{step,step_end,log,call,call_end,create,create_end,selfdestruct}", "src/tracing/arena.rs: CallTraceArena::push_trace"]}
{"id": "C02", "title": "Pushed-stack snapshots are safe and are the top of the stack", "statement": "With the pushed-items stack snapshot (the parity vmTrace configuration) a finished step records exactly the topmost items of the stack after the instruction, as many as the instruction places, and taking the snapshot never panics, also when the instruction failed.", "quantifier": "all opcodes and all stacks after the instruction, including failed instructions", "why_tests_cant": "256 opcodes times all stack heights times success/failure; the failing combination (failed instruction on a short stack) is easily missed by examples.", "anchors": ["src/tracing/mod.rs: TracingInspector::fill_step_on_step_end", "src/tracing/builder/parity.rs: stack_push_count"]}
{"id": "C03", "title": "The recorded arena is the call tree", "statement": "After a transaction the arena holds exactly one node per call or create frame, in the order the frames were entered, and each node carries the data of its frame: kind, caller, callee or created address, value, input, gas limit, depth, output, status, success flag and gas used, together with the parent link of the frame that made the call.", "quantifier": "all execution trees (any branching, depth, mix of call kinds, outcomes) and all configurations", "why_tests_cant": "The mapping is produced by a depth search in a mutable arena plus an index stack; only induction over the tree covers all shapes.", "anchors": ["src/tracing/mod.rs: TracingInspector::{start_trace_on_call,fill_trace_on_call_end,call,create}", "src/tracing/arena.rs: CallTraceArena::push_trace"]}
{"id": "C04", "title": "Arena links are consistent at every moment", "statement": "At every point of a recording: a node's idx is its position; node 0 is the only node without parent; a parent's position is smaller than its child's and its depth is one less; the children list of a node is exactly the list, in ascending order, of the later nodes that name it as parent and are not excluded precompile calls.", "quantifier": "all configurations and all finite prefixes of all well-nested hook histories", "why_tests_cant": "It is an invariant of a mutable structure over unboundedly many hook orders.", "anchors": ["src/tracing/arena.rs: CallTraceArena::push_trace", "src/tracing/types.rs: CallTraceNode"]}
{"id": "C05", "title": "Per-frame ordering is the execution order", "statement": "The ordering list of a node, with its indices resolved, is the chronological sequence of the frame's recorded steps, recorded logs and attached sub-calls: each exactly once, none missing, none out of place.", "quantifier": "all execution trees and all configurations (steps on/off, filter, logs on/off, precompile exclusion)", "why_tests_cant": "Interleavings of three kinds of events over arbitrary bodies cannot be enumerated.", "anchors": ["src/tracing/mod.rs: TracingInspector::{start_step,log}", "src/tracing/arena.rs: CallTraceArena::push_trace", "src/tracing/types.rs: TraceMemberOrder"]}
{"id": "C06", "title": "Steps are recorded exactly as configured", "statement": "With step recording on, each frame's steps are exactly the executed instructions whose opcode passes the filter, in order, and each carries pc, opcode, contract, remaining gas, refund counter (as the 64-bit two's complement of revm's signed counter) and depth as of before the instruction, and gas cost and status as of after it; stack, returndata and memory are present exactly when configured. With step recording off no step is recorded.", "quantifier": "all configurations, filters and execution trees", "why_tests_cant": "The start and end of a step are matched through an index stack; whether the end data lands on the right step for every nesting and filter needs an inductive argument.", "anchors": ["src/tracing/mod.rs: TracingInspector::{start_step,fill_step_on_step_end}", "src/tracing/config.rs: TracingInspectorConfig::should_record_opcode"]}
{"id": "C07", "title": "Memory snapshots show the memory before the step", "statement": "With memory snapshots on, every recorded step carries the contents of the frame's memory as it was before that step.", "quantifier": "all executions and configurations", "why_tests_cant": "The recorder reuses the previous snapshot when it believes the previous opcode left memory unchanged; correctness depends on the opcode list for all programs.", "anchors": ["src/tracing/mod.rs: TracingInspector::start_step", "src/opcode.rs: may_modify_memory"]}
{"id": "C08", "title": "Storage changes belong to the instruction that made them", "statement": "With state-diff recording, a recorded SSTORE or SLOAD step reports a storage change only for the slot of the executing contract that this instruction accessed, with the value before and after it.", "quantifier": "all executions (any journal contents before the instruction)", "why_tests_cant": "The recorder looks at the last journal entry whoever made it; the stale cases need particular histories.", "anchors": ["src/tracing/mod.rs: TracingInspector::fill_step_on_step_end", "src/tracing/types.rs: StorageChange"]}
{"id": "C09", "title": "Delegate calls inherit the value in scope", "statement": "The value shown for a DELEGATECALL frame is the value shown for the frame that issued it, hence the value of the nearest enclosing frame that is not a delegate call; all other frames show the value of their own call inputs.", "quantifier": "all execution trees", "why_tests_cant": "Chains of delegate calls of any length through any mix of kinds.", "anchors": ["src/tracing/mod.rs: TracingInspector::call"]}
{"id": "C10", "title": "Precompile exclusion drops exactly the calls it names", "statement": "With exclude_precompile_calls a call is left out of its parent's children and ordering if and only if it is not the root call, its code address is a precompile and its shown value is zero; create frames and, with the option off, all frames are attached. Excluding them changes nothing else in the rest of the call graph: the graph is that of the execution without those calls.", "quantifier": "all execution trees, precompile sets and configurations", "why_tests_cant": "Requires comparing two whole recordings for every execution.", "anchors": ["src/tracing/mod.rs: TracingInspector::{is_precompile_call,call,start_trace_on_call}", "src/tracing/arena.rs: PushTraceKind"]}
{"id": "C11", "title": "Gas limit and gas used of the root frame are transaction-level", "statement": "The root frame reports the transaction's gas limit and, as gas used, the gas spent minus the refund capped by the fork's refund quotient; every other frame reports the limit and the spent gas of its own frame.", "quantifier": "all executions, gas values, refunds (of either sign) and hard forks", "why_tests_cant": "Arithmetic over all 64-bit inputs, including negative refund counters.", "anchors": ["src/tracing/mod.rs: TracingInspector::{start_trace_on_call,fill_trace_on_call_end}", "src/tracing/utils.rs: gas_used"]}
{"id": "C12", "title": "Gas-used arithmetic is safe and tight", "statement": "The gas-used computation never underflows, lies between spent minus spent/quotient and spent, is monotone in the spent gas, and is antitone in the refund.", "quantifier": "all spent and refund values, both fork regimes", "why_tests_cant": "Numeric law over the whole domain.", "anchors": ["src/tracing/utils.rs: gas_used"]}
{"id": "C13", "title": "A fused inspector is a new inspector", "statement": "After fuse() (or fused()) the inspector has the same configuration and behaves for every later history exactly like TracingInspector::new with that configuration, whatever was recorded before, including a recording abandoned half way. Without fuse, a second transaction leaves traces of the first in the root node.", "quantifier": "all prior hook sequences (legal or not, as long as they did not panic) and all later ones", "why_tests_cant": "Forgetting to reset one field shows only for particular pairs of histories.", "anchors": ["src/tracing/mod.rs: TracingInspector::{fuse,fused,new}", "src/tracing/arena.rs: CallTraceArena::clear"]}
{"id": "C14", "title": "Recorded logs name the emitting contract", "statement": "With log recording on, the logs of a node are exactly the logs emitted by that frame, in order, and the execution address of the node is the address the EVM attributes those logs to, for every call kind.", "quantifier": "all execution trees", "why_tests_cant": "Delegate and callcode frames swap addresses; all nestings must be covered.", "anchors": ["src/tracing/mod.rs: TracingInspector::log", "src/tracing/types.rs: CallTraceNode::{execution_address,geth_empty_call_frame}"]}
{"id": "C15", "title": "Inspectors are observers", "statement": "TracingInspector, FourByteInspector, OpcodeGasInspector, OpcodeCountInspector, AccessListInspector, TransferInspector and MuxInspector never override a call or create: the call/create hooks return no outcome and the end hooks return the outcome they were given.", "quantifier": "all states of the inspectors and all hook arguments", "why_tests_cant": "Holds for all outcomes; a test checks one.", "anchors": ["src/tracing/mod.rs", "src/tracing/fourbyte.rs", "src/opcode.rs", "src/tracing/opcount.rs", "src/access_list.rs", "src/transfer.rs", "src/tracing/mux.rs"]}
{"id": "C16", "title": "Geth struct logs are the executed instructions in execution order", "statement": "geth_traces lists one struct log per executed instruction of the whole transaction in chronological order, across all nested calls: the log of a call instruction is followed by the logs of the callee and then by the rest of the caller.", "quantifier": "all execution trees in which an instruction starts at most the one sub-call that follows it, configurations recording all steps and all calls", "why_tests_cant": "The builder rebuilds the order from per-frame step lists by matching call-like opcodes with children; only induction covers all trees.", "anchors": ["src/tracing/builder/geth.rs: GethTraceBuilder::{fill_geth_trace,geth_traces}", "src/tracing/types.rs: CallTraceNode::{call_step_stack,push_steps_on_stack}"]}
{"id": "C17", "title": "Struct logs honour the tracing options", "statement": "Recording with from_geth_config(opts) and building with the same opts, every struct log has a stack iff stack capture is not disabled, memory iff memory is enabled, never a storage map if storage is disabled, and return data iff enabled.", "quantifier": "all option combinations and all recordings", "why_tests_cant": "Two option paths (recording and building) must agree for every combination and every step.", "anchors": ["src/tracing/config.rs: TracingInspectorConfig::from_geth_config", "src/tracing/types.rs: CallTraceStep::convert_to_geth_struct_log", "src/tracing/builder/geth.rs: GethTraceBuilder::fill_geth_trace"]}
{"id": "C18", "title": "Struct-log storage is the accumulated storage of the contract", "statement": "If storage is enabled, the log of an instruction that changed storage shows the map of all slots of its contract changed by the instructions so far, each with its latest value; instructions that changed none show no map; slots of other contracts never appear.", "quantifier": "all executions over any contracts", "why_tests_cant": "Accumulation over unbounded histories.", "anchors": ["src/tracing/builder/geth.rs: GethTraceBuilder::fill_geth_trace"]}
{"id": "C19", "title": "Struct-log error and return data describe the step", "statement": "A struct log carries an error exactly if its instruction failed, and its return data (if enabled) is the return-data buffer at that step.", "quantifier": "all executions", "why_tests_cant": "All status values and all step positions.", "anchors": ["src/tracing/types.rs: CallTraceStep::{is_error,as_error}", "src/tracing/builder/geth.rs: GethTraceBuilder::fill_geth_trace"]}
{"id": "C20", "title": "Geth call frames form the call tree", "statement": "geth_call_traces returns a frame tree isomorphic to the call tree: every frame has exactly the frames of the calls it made, in call order, each with type, from, to, value, gas, gas used, input, output and error of that call; the root carries the given gas used; building never panics.", "quantifier": "all execution trees (transactions without selfdestruct) and all call configurations without onlyTopCall", "why_tests_cant": "The tree is rolled up from a flat list by popping from the end and inserting at the front.", "anchors": ["src/tracing/builder/geth.rs: GethTraceBuilder::geth_call_traces", "src/tracing/types.rs: CallTraceNode::geth_empty_call_frame"]}
{"id": "C21", "title": "Selfdestruct frames sit under the frame that selfdestructed", "statement": "If a frame selfdestructs, geth_call_traces adds exactly one SELFDESTRUCT frame for it, among the children of the frame that executed the SELFDESTRUCT (or of its parent, uniformly).", "quantifier": "all execution trees", "why_tests_cant": "Depends on the shape of the tree before the frame; simple examples look right.", "anchors": ["src/tracing/builder/geth.rs: GethTraceBuilder::geth_call_traces", "src/tracing/types.rs: CallTraceNode::geth_selfdestruct_call_trace"]}
{"id": "C22", "title": "Call-frame logs appear iff the frame and all its ancestors succeeded", "statement": "With withLog, a frame of geth_call_traces lists its recorded logs if the frame and all enclosing frames succeeded and no logs otherwise; without withLog no frame lists logs.", "quantifier": "all execution trees and outcomes", "why_tests_cant": "The ancestors chain has unbounded length; every combination of outcomes matters.", "anchors": ["src/tracing/builder/geth.rs: GethTraceBuilder::{geth_call_traces,call_or_parent_failed}"]}
{"id": "C23", "title": "onlyTopCall yields the root alone", "statement": "With onlyTopCall the result equals the root frame of the full result with all sub-call frames removed.", "quantifier": "all recordings and call configurations", "why_tests_cant": "Relates two builds for all inputs.", "anchors": ["src/tracing/builder/geth.rs: GethTraceBuilder::geth_call_traces"]}
{"id": "C24", "title": "Parity trace addresses are the paths of the call tree", "statement": "The traceAddress of every emitted trace is the path from the root (child positions among the attached calls) to its frame; it never panics; distinct traces have distinct addresses; following the address from the root leads back to the frame.", "quantifier": "all execution trees and configurations", "why_tests_cant": "A walk up parent links through positions; all trees.", "anchors": ["src/tracing/builder/parity.rs: ParityTraceBuilder::{trace_address,trace_addresses}"]}
{"id": "C25", "title": "Parity subtraces counts the emitted direct children", "statement": "For every emitted trace, subtraces equals the number of emitted traces whose traceAddress extends its own by exactly one component, selfdestruct traces included.", "quantifier": "all execution trees and configurations", "why_tests_cant": "Counting over a global list for every node.", "anchors": ["src/tracing/builder/parity.rs: ParityTraceBuilder::into_trace_type_traces, TransactionTraceIter", "src/tracing/types.rs: CallTraceNode::parity_transaction_trace"]}
{"id": "C26", "title": "Parity traces come in depth-first order", "statement": "The emitted traces are ordered by traceAddress lexicographically, i.e. in depth-first pre-order of the call tree, selfdestruct traces after the calls made before them.", "quantifier": "all execution trees", "why_tests_cant": "Global order over all shapes; selfdestruct entries complicate it.", "anchors": ["src/tracing/builder/parity.rs: ParityTraceBuilder::into_transaction_traces_iter, TransactionTraceIter::next"]}
{"id": "C27", "title": "The two parity entry points agree", "statement": "into_transaction_traces and into_trace_type_traces with Trace requested produce the same list of traces, and the localized variant adds only the transaction info.", "quantifier": "all recordings", "why_tests_cant": "Two independent implementations over all inputs.", "anchors": ["src/tracing/builder/parity.rs: ParityTraceBuilder::{into_trace_type_traces,into_transaction_traces_iter,into_localized_transaction_traces_iter}"]}
{"id": "C28", "title": "Parity result and error reflect the frame outcome", "statement": "A trace has an error exactly if its frame failed; it has a result exactly if the frame succeeded or reverted; call frames have call actions/results and create frames create actions/results with the frame's recorded data (C03); requested trace types are present and others absent.", "quantifier": "all statuses, kinds and frames", "why_tests_cant": "All statuses times kinds times data.", "anchors": ["src/tracing/types.rs: CallTraceNode::{parity_transaction_trace,parity_action,parity_trace_output}, CallTrace::as_error_msg", "src/tracing/builder/parity.rs: ParityTraceBuilder::into_trace_type_traces"]}
{"id": "C29", "title": "vmTrace nests sub-traces under the instructions that made the calls", "statement": "vm_trace lists for every frame its recorded steps in order, and attaches to each call instruction that entered a frame the vmTrace of exactly that frame, and to no other instruction anything.", "quantifier": "all execution trees with all steps recorded", "why_tests_cant": "Wrong associations need trees of depth two with branching, precompiles or particular last opcodes.", "anchors": ["src/tracing/builder/parity.rs: ParityTraceBuilder::{vm_trace,make_vm_trace,make_instruction}"]}
{"id": "C30", "title": "Populating vmTrace bytecodes is safe and hits the right frames", "statement": "populate_vm_trace_bytecodes never panics on the vmTrace of a recording with the breadth-first addresses of the same recording, and assigns to every frame's trace the code of that frame's address.", "quantifier": "all recordings and databases", "why_tests_cant": "Two breadth-first walks over different structures must stay aligned for all shapes.", "anchors": ["src/tracing/builder/parity.rs: populate_vm_trace_bytecodes, ParityTraceBuilder::into_trace_results_with_state", "src/tracing/builder/walker.rs: CallTraceNodeWalkerBF"]}
{"id": "C31", "title": "The breadth-first walker visits every attached frame once", "statement": "CallTraceNodeWalkerBF terminates, yields each frame reachable through children exactly once, parents before children, in order of depth, and siblings in call order.", "quantifier": "all recordings", "why_tests_cant": "Queue invariant over all trees.", "anchors": ["src/tracing/builder/walker.rs: CallTraceNodeWalkerBF::next"]}
{"id": "C32", "title": "State diff reports exactly the changed accounts", "statement": "populate_state_diff into an empty diff yields an entry exactly for the accounts that were created (and not destroyed in the same transaction), destroyed, or whose balance, nonce, code hash or some storage slot differs from the database; entries give the old and new balance, nonce and changed slots; the result does not depend on the iteration order of the state map; the only error is a database error.", "quantifier": "all databases and post-states, all iteration orders", "why_tests_cant": "Account and slot maps of any size and any order.", "anchors": ["src/tracing/builder/parity.rs: populate_state_diff"]}
{"id": "C33", "title": "Prestate (default mode) reports the accounts as before the transaction", "statement": "In default mode geth_prestate_traces lists exactly the touched accounts with balance, nonce and code from the database and the original value of every touched slot, independently of iteration order.", "quantifier": "all databases and post-states, all iteration orders", "why_tests_cant": "Maps of any size; order independence.", "anchors": ["src/tracing/builder/geth.rs: GethTraceBuilder::geth_prestate_traces"]}
{"id": "C34", "title": "Prestate diff mode reports the differences", "statement": "In diff mode, pre has no created account and post has no destroyed account; an account that did not change appears in neither; post repeats no balance, nonce or code that equals the pre state; slots with zero value are not listed; every changed slot with non-zero value is listed on its side.", "quantifier": "all databases and post-states, all iteration orders", "why_tests_cant": "Interplay of four filters over maps of any size.", "anchors": ["src/tracing/builder/geth.rs: GethTraceBuilder::{geth_prestate_traces,diff_traces}"]}
{"id": "C35", "title": "Opcode gas statistics are exact", "statement": "OpcodeGasInspector reports, per known opcode, the number of times it was executed and the sum of the gas its executions consumed (clamped at zero per execution); unknown opcodes contribute nothing; the two maps and the iterator agree.", "quantifier": "all instruction sequences in which each start is followed by its end", "why_tests_cant": "Sums over unbounded histories.", "anchors": ["src/opcode.rs: OpcodeGasInspector::{step,step_end,opcode_iter}"]}
{"id": "C36", "title": "The opcode counter counts every instruction", "statement": "OpcodeCountInspector::count is the number of executed instructions.", "quantifier": "all hook histories", "why_tests_cant": "Unbounded histories.", "anchors": ["src/tracing/opcount.rs: OpcodeCountInspector"]}
{"id": "C37", "title": "Four-byte statistics are exact and keys do not collide", "statement": "FourByteInspector counts, for every selector and argument size, the calls with at least four bytes of input having them; the frame made from it has one entry per counted pair under the key 0x<selector>-<size>, and different pairs have different keys, so no count is lost.", "quantifier": "all hook histories and inputs", "why_tests_cant": "Injectivity of a string encoding and exact counts for all histories.", "anchors": ["src/tracing/fourbyte.rs: FourByteInspector::call, From<FourByteInspector> for FourByteFrame"]}
{"id": "C38", "title": "The access list is the provided one plus what was touched", "statement": "AccessListInspector's final list contains every provided item, plus the slots addressed by SLOAD/SSTORE under the executing contract, plus the non-excluded addresses named by account-accessing and call opcodes, and nothing else; each address appears once and the order of execution does not matter for the resulting set.", "quantifier": "all provided lists, exclusion sets and instruction sequences", "why_tests_cant": "Set equality over all histories; duplicate addresses in the provided list are a corner case.", "anchors": ["src/access_list.rs: AccessListInspector::{new,step,into_access_list,access_list}"]}
{"id": "C39", "title": "Transfers are exactly the value movements", "statement": "TransferInspector lists, in order, one transfer per value-transferring call, per completed creation with an address and per selfdestruct, and with internal_only drops exactly the top-level call or create.", "quantifier": "all hook histories", "why_tests_cant": "Unbounded histories and nestings.", "anchors": ["src/transfer.rs: TransferInspector::{call,create_end,selfdestruct}"]}
{"id": "C40", "title": "An opcode filter is the set of enabled opcodes", "statement": "For every filter built by any sequence of enable/enabled calls, is_enabled holds exactly for the opcodes enabled; enable and enabled compute the same filter, in any order and any multiplicity.", "quantifier": "all filters and all 256 opcodes", "why_tests_cant": "2^256 filters; two different bit-level implementations.", "anchors": ["src/tracing/config.rs: OpcodeFilter::{new,is_enabled,enable,enabled}"]}
{"id": "C41", "title": "Config presets request what the trace types need", "statement": "from_parity_config, from_geth_config, from_geth_call_config and the setters change exactly the documented fields; a parity request without vmTrace never records steps; setters commute.", "quantifier": "all option values and trace-type sets", "why_tests_cant": "All combinations of options.", "anchors": ["src/tracing/config.rs: TracingInspectorConfig"]}
{"id": "C42", "title": "Mux runs its tracers independently", "statement": "Running a MuxInspector over any history gives, for each configured tracer, exactly the result that tracer alone would give over the same history, nested muxes included.", "quantifier": "all mux configurations (any nesting) and hook histories", "why_tests_cant": "A product property over all configurations and histories.", "anchors": ["src/tracing/mux.rs: MuxInspector, DelegatingInspector::{call,call_end,...}"]}
{"id": "C43", "title": "Mux configuration is validated exactly", "statement": "MuxInspector::try_from_config succeeds iff four-byte and noop tracers come without config and call, prestate and mux tracers come with a config of their own format, recursively; on success the tracers are those requested, in order.", "quantifier": "all mux configurations of any nesting", "why_tests_cant": "Unbounded nested configurations.", "anchors": ["src/tracing/mux.rs: MuxInspector::try_from_config, DelegatingInspector::try_from_config"]}
{"id": "C44", "title": "Memory chunks are lossless", "statement": "memory_chunks yields ceil(n/32) strings of 64 hex digits whose decoded concatenation is the memory followed by zeros up to a multiple of 32; hence memories of equal length with equal chunks are equal.", "quantifier": "all memories of any length", "why_tests_cant": "All lengths and contents.", "anchors": ["src/tracing/utils.rs: convert_memory", "src/tracing/types.rs: RecordedMemory::memory_chunks"]}
{"id": "C45", "title": "Opcode serialization round-trips", "statement": "Deserializing a serialized step gives back the opcode.", "quantifier": "all 256 opcode bytes", "why_tests_cant": "Undefined opcode bytes are recorded by design but rarely serialized in tests.", "anchors": ["src/tracing/types.rs: opcode_serde::{serialize,deserialize}"]}
{"id": "C46", "title": "JS address and hash conversions", "statement": "toAddress/toContract arguments and hash arguments of any byte length denote the big-endian number of the bytes modulo 2^160 (2^256): longer inputs lose their leading bytes, shorter ones are left-padded with zeros; converting twice equals converting once.", "quantifier": "all byte strings", "why_tests_cant": "All lengths and contents.", "anchors": ["src/tracing/js/builtins.rs: bytes_to_address, bytes_to_hash"]}
{"id": "C47", "title": "JS handles die with their hook", "statement": "A JavaScript reference to the EVM stack, memory or database handed to a tracer callback is usable exactly while the callback runs; afterwards every copy of it yields an error or empty value instead of the old data, however often it was cloned.", "quantifier": "all sequences of clone, access and drop operations", "why_tests_cant": "A temporal property over all interleavings.", "anchors": ["src/tracing/js/bindings.rs: GuardedNullableGc::{new_ref,new_owned,with_inner}, GcGuard"]}
{"id": "C48", "title": "JS memory and stack accessors check bounds", "statement": "memory.slice(start,end) returns the bytes of the range whenever 0 <= start <= end <= length and an error otherwise; memory.getUint(offset) and stack.peek(i) return the word or item when it exists and an error otherwise; none of them reads out of bounds.", "quantifier": "all memories, stacks and all JavaScript number arguments, including NaN and infinities", "why_tests_cant": "Numeric boundary conditions over doubles.", "anchors": ["src/tracing/js/bindings.rs: MemoryRef::into_js_object, StackRef::peek"]}
{"id": "C49", "title": "isPrecompiled is available to JS tracers", "statement": "From the first call hook on, the JS tracer's isPrecompiled builtin answers for the EVM's precompile set.", "quantifier": "all hook histories", "why_tests_cant": "The registration guard is a state machine over histories.", "anchors": ["src/tracing/js/mod.rs: JsInspector::{register_precompiles,call,create}"]}
{"id": "C50", "title": "JS enter and exit callbacks pair up and the call stack is balanced", "statement": "A JsInspector's call stack has one entry per open frame at every moment and is empty at the end; enter is called for each sub-frame and exit for each end of a sub-frame, properly nested, whenever the tracer defines them; nothing panics.", "quantifier": "all tracer shapes (which callbacks exist, which fail) and all well-nested histories", "why_tests_cant": "Combination of optional callbacks, failures and histories.", "anchors": ["src/tracing/js/mod.rs: JsInspector::{call,call_end,create,create_end,selfdestruct,push_call,pop_call,can_call_enter,can_call_exit}"]}
{"id": "C51", "title": "Writer prints the call tree", "statement": "TraceWriter::write_arena prints for every frame reachable from the root one header and one footer in nested order with its logs, decoded steps and sub-calls in execution order between them, at an indentation given by the nesting, and leaves the writer's indentation as it was; it does not panic on an arena made by the inspector.", "quantifier": "all recorded arenas", "why_tests_cant": "Recursive printing over all trees.", "anchors": ["src/tracing/writer.rs: TraceWriter::{write_arena,write_node,write_items_until,write_item}"]}
{"id": "C52", "title": "Setting the transaction gas changes the root gas only", "statement": "set_transaction_gas_used changes the gas used of the root frame and nothing else, for the inspector and the parity builder alike; on the built parity traces this equals setting it on the first trace.", "quantifier": "all inspector states and values; for the traces, the recordings of all executions", "why_tests_cant": "Frame condition over all data.", "anchors": ["src/tracing/mod.rs: TracingInspector::set_transaction_gas_used", "src/tracing/builder/parity.rs: ParityTraceBuilder::{set_transaction_gas_used,into_trace_results}"]}
{"id": "C53", "title": "Error text classification", "statement": "as_error_msg gives a text exactly for failing statuses, a revert is reported as such in either style, and for each style different revm failure classes that the code names get their documented text.", "quantifier": "all statuses and both styles", "why_tests_cant": "Complete case analysis over the status type.", "anchors": ["src/tracing/types.rs: CallTrace::{as_error_msg,is_error,is_revert}"]}
{"id": "C54", "title": "A node is a selfdestruct exactly when it executed one", "statement": "A node reports is_selfdestruct exactly if its frame ended with SELFDESTRUCT or the EVM reported a selfdestruct while the frame was active; in the latter case refund target and value are those last reported and its address is the reported contract unless a creation address was set later.", "quantifier": "all execution trees", "why_tests_cant": "Depends on hooks at any point of a frame.", "anchors": ["src/tracing/mod.rs: TracingInspector::selfdestruct", "src/tracing/types.rs: CallTrace::is_selfdestruct"]}
{"id": "C55", "title": "Pushed-item counts match the EVM", "statement": "The number of items stack_push_count attributes to an instruction is the number of items the EVM instruction places on the stack (for DUPn and SWAPn the parity convention n+1), for every opcode of the supported forks that completes within the frame.", "quantifier": "all 256 opcodes, in legacy code and in the object format, with any immediate operand", "why_tests_cant": "A table with gaps; complete comparison with the EVM definition is needed.", "anchors": ["src/tracing/builder/parity.rs: stack_push_count"]}
{"id": "C56", "title": "Callers are exactly the frames' callers", "statement": "ParityTraceBuilder::callers is the set of callers of all recorded frames.", "quantifier": "the recordings of all executions, with every configuration", "why_tests_cant": "Set over all frames.", "anchors": ["src/tracing/builder/parity.rs: ParityTraceBuilder::callers"]}
{"id": "C57", "title": "Destroyed accounts are reported in the prestate diff", "statement": "In diff mode, an account that existed before the transaction and was destroyed by it is listed in pre with its old balance, nonce and code, and not in post.", "quantifier": "all databases and post-states, all iteration orders", "why_tests_cant": "Destruction is a flag beside the account's data, which may be unchanged; a filter comparing the data can lose it.", "anchors": ["src/tracing/builder/geth.rs: GethTraceBuilder::{geth_prestate_traces,diff_traces}"]}
{"id": "C58", "title": "JS hex round trip", "statement": "toHex of any bytes gives a string of twice the length that every builtin taking bytes reads back as the same bytes, with or without a 0x prefix; the strings taken as bytes are exactly the pairs of hexadecimal digits of either case with an optional 0x, and an array is taken for the bytes of its numbers (integer part, 0 below 0, 255 above 255).", "quantifier": "all byte strings and all JavaScript values that denote bytes", "why_tests_cant": "All lengths and contents, and the prefix could be ambiguous.", "anchors": ["src/tracing/js/builtins.rs: to_hex, from_buf_value, hex_decode_js_string"]}
{"id": "C59", "title": "JS database accessors reflect the current state", "statement": "Inside a callback, db.getBalance, getNonce, getCode, getState and exists report for every address the value the EVM would see at that moment: the journaled value if the account or slot was touched in this transaction, otherwise the database's.", "quantifier": "all journaled states, databases, addresses and slots", "why_tests_cant": "Two layers of state that differ in any subset of accounts and slots.", "anchors": ["src/tracing/js/bindings.rs: EvmDbRef::{read_basic,read_code,read_state}, StateRef::get_account"]}
{"id": "C60", "title": "A JS tracer is accepted exactly if its functions can be called", "statement": "Constructing the inspector succeeds exactly if the code evaluates to an object with callable result and fault, with setup either absent or callable and not throwing; the optional callbacks are used exactly if they are callable, and each failure gives the error naming its cause.", "quantifier": "all tracer objects", "why_tests_cant": "Every combination of missing, wrong and throwing fields.", "anchors": ["src/tracing/js/mod.rs: JsInspector::with_transaction_context"]}
{"id": "C61", "title": "fault reports every failed instruction", "statement": "fault is called once for every instruction that ends its frame with an error, with the position, opcode and error of that instruction, whatever other callbacks the tracer defines.", "quantifier": "all executions and all tracers", "why_tests_cant": "Every failing status at any position of any frame.", "anchors": ["src/tracing/js/mod.rs: JsInspector::step_end"]}
{"id": "C62", "title": "The result context describes the transaction", "statement": "The context passed to result gives kind, sender, target (callee, or deployed contract, or null), input, gas limit, gas used, gas price, intrinsic gas, value, block number, output and block/transaction identification of the traced transaction.", "quantifier": "all outcomes and transaction environments", "why_tests_cant": "Combinations of outcome and kind, and numeric conversions over the full ranges.", "anchors": ["src/tracing/js/mod.rs: JsInspector::result", "src/tracing/js/bindings.rs: JsEvmContext::into_js_object"]}
{"id": "C63", "title": "step is called once per started instruction with the interpreter's data", "statement": "If the tracer defines step, it is called exactly once for every instruction the EVM starts, in order, with pc, opcode, remaining gas, cost of that instruction, depth, refund, stack and memory as they are before the instruction, and the contract of the running frame (C104).", "quantifier": "all executions", "why_tests_cant": "Sequences of any length over nested frames.", "anchors": ["src/tracing/js/mod.rs: JsInspector::step"]}
{"id": "C64", "title": "A JS tracer changes the execution only by throwing", "statement": "Every hook leaves the EVM's inputs, results and control flow as they are unless a callback of the tracer threw an exception in that hook; then the frame in question ends in a revert.", "quantifier": "all tracers, all histories of hooks", "why_tests_cant": "Over all histories and all callbacks that may throw.", "anchors": ["src/tracing/js/mod.rs: JsInspector (Inspector impl), js_error_to_revert"]}
{"id": "C65", "title": "Colours change nothing but colours", "statement": "TraceWriter gives with and without colours the same result, the same indentation and the same text: the coloured output with its escape sequences removed is the plain output, and the plain output has no escape sequence.", "quantifier": "all arenas, decoded or not, and all starting states of the writer", "why_tests_cant": "Every combination of decoded and undecoded parts at any place of the tree.", "anchors": ["src/tracing/writer.rs: TraceWriter::{use_colors,trace_style,trace_kind_style,log_style}"]}
{"id": "C66", "title": "Recording options only add", "statement": "Turning a recording option of a TracingInspector off (steps, logs, memory, stack, return-data or state-diff recording) removes from the arena exactly what the option names and changes nothing else: the nodes, their links, outcomes and gas, the remaining steps and logs and their relative order are the same, and no new panic can occur. Hence the parity transaction traces, the trace results without vmTrace, the geth call frames (without logs, or with logs recorded), the callers and the walk of a transaction do not depend on what else was recorded.", "quantifier": "all pairs of configurations that agree on leaving out precompile calls, and all sequences of hook calls whatever", "why_tests_cant": "A relation between two runs over any history; tests run one configuration at a time.", "anchors": ["src/tracing/mod.rs: TracingInspector", "src/tracing/config.rs: TracingInspectorConfig", "src/tracing/builder/parity.rs: ParityTraceBuilder", "src/tracing/builder/geth.rs: GethTraceBuilder::geth_call_traces"]}
{"id": "C67", "title": "Geth call frames and parity traces of one recording describe the same frames", "statement": "From one recording, the frames of the geth callTracer result, in the order in which they were entered, and the parity transaction traces (selfdestructs left out on both sides, and without the calls to precompiles that parity leaves out) agree one by one in nesting depth, kind, sender, target, value, gas limit, input, error, output, created address and, except for the root, gas used.", "quantifier": "all executions and all recording and call configurations without onlyTopCall", "why_tests_cant": "Two independent builders over call trees of any shape; tests compare single fixtures of one format.", "anchors": ["src/tracing/builder/geth.rs: GethTraceBuilder::geth_call_traces", "src/tracing/builder/parity.rs: ParityTraceBuilder::into_transaction_traces", "src/tracing/types.rs: CallTraceNode::{geth_empty_call_frame,parity_transaction_trace}"]}
{"id": "C68", "title": "The counting inspectors agree with the recording", "statement": "For one execution watched by several inspectors: the opcode counter equals the number of steps in all nodes a TracingInspector (all steps on) records; for every opcode the opcode-gas inspector has the number of recorded steps with it and the sum of their recorded gas costs; for every selector and calldata size the four-byte inspector has the number of recorded calls with them.", "quantifier": "all executions (totals within 64 bits; for gas, no instruction skipped by another inspector)", "why_tests_cant": "Relates independent inspectors over histories of any length and nesting.", "anchors": ["src/tracing/opcount.rs: OpcodeCountInspector", "src/opcode.rs: OpcodeGasInspector", "src/tracing/fourbyte.rs: FourByteInspector", "src/tracing/mod.rs: TracingInspector"]}
{"id": "C69", "title": "Transfers of calls agree with the recorded calls", "statement": "The call transfers a TransferInspector collects are, in order, exactly those of the calls a TracingInspector records for the same execution: one for each recorded CALL with value (from caller to address) and each CALLCODE with value (to itself), none for other frames.", "quantifier": "all executions with the inputs revm gives to calls", "why_tests_cant": "Relates two inspectors over call trees of any shape.", "anchors": ["src/transfer.rs: TransferInspector", "src/tracing/mod.rs: TracingInspector"]}
{"id": "C70", "title": "Methods of the JS argument objects report what they are named after", "statement": "Every method of the objects passed to step, fault, enter and exit (getPC, getGas, getCost, getDepth, getRefund, getError, op.toNumber/toString/isPush, contract.getCaller/getAddress/getValue/getInput, getType/getFrom/getTo/getInput/getGas/getValue, getGasUsed/getOutput/getError) returns the datum it is named after, whenever and however often it is called and whatever the tracer does in between.", "quantifier": "all data, all tracer code between the calls", "why_tests_cant": "Ranges over all numbers up to 2^64, all data and all interleavings with tracer code that allocates and writes arrays.", "anchors": ["src/tracing/js/bindings.rs: StepLog::into_js_object, OpObj::into_js_object, Contract::into_js_object, FrameResult::into_js_object, CallFrame::into_js_object", "src/tracing/js/builtins.rs: to_bigint"]}
{"id": "C71", "title": "toContract and toContract2 name the contract that would be created", "statement": "toContract(from, nonce) returns the address the account creates with that nonce, toContract2(from, salt, code) the CREATE2 address for the account, the hex salt as 32 bytes and the code; arguments that do not denote such values throw.", "quantifier": "all JavaScript values", "why_tests_cant": "All kinds and lengths of arguments and the whole range of numbers.", "anchors": ["src/tracing/js/builtins.rs: to_contract, to_contract2"]}
{"id": "C72", "title": "Struct logs list exactly the recorded instructions, whatever is recorded", "statement": "Whatever the configuration records (opcode filter, left-out precompile calls, no steps), geth_traces does not panic and lists the recorded instructions in the order of execution, each once, each with its own depth, pc, opcode, gas, cost, refund, error, return data and storage.", "quantifier": "all executions, all inspector configurations, all geth options", "why_tests_cant": "The interplay of an arbitrary opcode filter and left-out calls with the order of sub-calls at any depth.", "anchors": ["src/tracing/builder/geth.rs: fill_geth_trace, geth_traces", "src/tracing/types.rs: call_step_stack, push_steps_on_stack"]}
{"id": "C73", "title": "Results can be built from any recording, complete or interrupted", "statement": "After any sequence of hook calls a TracingInspector went through without panicking (an execution stopped at any moment, several transactions, hooks in any order), every builder returns a result for all options: struct logs, call frames, flat and localized traces, traces by type, vmTrace; the traces with state succeed or return an error of the database. None panics, loops or hits a debug assertion.", "quantifier": "all sequences of hook calls, all configurations, all builder options, all databases", "why_tests_cant": "Sequences of hooks of any length and nesting, also ones stopped in the middle of frames at any depth.", "anchors": ["src/tracing/builder/geth.rs: GethTraceBuilder::{geth_traces,geth_call_traces}", "src/tracing/builder/parity.rs: ParityTraceBuilder::{into_transaction_traces,into_localized_transaction_traces,into_trace_results,into_trace_results_with_state,vm_trace,trace_address}", "src/tracing/builder/walker.rs: CallTraceNodeWalkerBF"]}
{"id": "C74", "title": "The reports about the state agree with each other", "statement": "Built from one result and database, every account in the 'pre' part of the geth prestate diff is in the default prestate with the same balance, nonce and code and at least the same slots. An account neither created nor destroyed whose code came with it and did not change is in the parity state diff iff it is in 'pre' iff it is in 'post', and then the three give the same old and new balance, nonce and slots.", "quantifier": "all states, databases and orders of the state map", "why_tests_cant": "Relates three independent builders over arbitrary sets of accounts and slots.", "anchors": ["src/tracing/builder/parity.rs: populate_state_diff", "src/tracing/builder/geth.rs: geth_prestate_traces, geth_prestate_diff_traces"]}
{"id": "C75", "title": "A parity response contains what was asked for and nothing else", "statement": "For every set of trace types: the response carries the output of the transaction (empty if none); the flat traces, with the transaction's gas at the root, if they are asked for and an empty list otherwise; a vmTrace exactly if asked for; a state diff exactly if asked for. With a state and database the state diff reports exactly what changed and the vmTrace gets the codes; the call fails exactly if the database fails on something the requested parts need, and then with an error of the database.", "quantifier": "all recordings (complete or interrupted), sets of trace types, outputs, gas values, states and databases", "why_tests_cant": "Ranges over all recordings, states and databases, combined with every set of trace types.", "anchors": ["src/tracing/builder/parity.rs: ParityTraceBuilder::{into_trace_results,into_trace_results_with_state,into_trace_type_traces}"]}
{"id": "C76", "title": "Big integers are written as the numbers they were made from", "statement": "For every number, and so for every word the EVM gives a JavaScript tracer (call values, stack items, balances), the big integer a tracer gets for it is written, by `toString` and in the JSON of the result, with exactly the decimal digits of that number, and by `toString(base)` with its digits to any base from 2 to 36, a minus sign in front of negative numbers and no leading zeros.", "quantifier": "all integers, of any size and sign, and all bases from 2 to 36", "why_tests_cant": "Numbers are kept as arrays of seven digits or as doubles depending on their size; digits lost to padding, splitting or rounding show only for particular numbers out of 2^256 and more.", "anchors": ["src/tracing/js/bigint.js: Integer, parseStringValue, toString, toJSON, toBase, divModSmall", "src/tracing/js/builtins.rs: to_bigint, register_builtins"]}
{"id": "C77", "title": "Arithmetic of big integers in tracers is that of the integers", "statement": "Every expression a tracer writes with negate, abs, add, subtract, multiply, divide and mod on big integers can be evaluated unless it divides by zero, and then it throws; its result is the integer the expression denotes, with quotients rounded towards zero and remainders of the sign of the dividend: no carry, borrow or sign is lost, and the rounding of intermediate numbers to doubles changes nothing. compare orders results like the integers.", "quantifier": "all expressions, of any nesting, over integers of any size and sign, and every rounding to a nearest double", "why_tests_cant": "Which of the schoolbook, single-digit and Karatsuba algorithms runs depends on the sizes; carries and borrows that go wrong show only for particular operands.", "anchors": ["src/tracing/js/bigint.js: add, subtract, multiply, negate, abs, compare, addSmall, subtractSmall, multiplyLong, multiplyKaratsuba, divModAny, divMod1, divMod2, divModSmall, arrayToSmall, smallToArray"]}
{"id": "C78", "title": "The listed transfers account for the balances", "statement": "Read as payments, the transfers a TransferInspector lists give every account the change of its balance that the execution made (gas aside); with internal_only, all but what the root frame itself pays.", "quantifier": "all executions, balances and accounts", "why_tests_cant": "Ranges over call trees of any shape with frames that succeed or fail at any depth, and sums over all transfers.", "anchors": ["src/transfer.rs: TransferInspector::{call,create_end,selfdestruct}"]}
{"id": "C79", "title": "The JSON result of a JavaScript tracer is its result", "statement": "JsInspector::json_result gives the JSON of the value the tracer's function result returned: numbers as numbers, big integers as their decimal digits, every character of strings and keys as it is, arrays element by element, objects member by member without those that have no value; the conversion ends for every value and whatever the tracer did to the global JSON.", "quantifier": "all JavaScript values made of null, booleans, numbers, strings, big integers, arrays and objects, of any size and depth", "why_tests_cant": "The value goes through a text (JSON.stringify) and a parser (serde_json) with escapes, surrogate pairs, number forms and a limit of depth; it ranges over trees and strings of any size.", "anchors": ["src/tracing/js/mod.rs: JsInspector::json_result", "src/tracing/js/builtins.rs: to_serde_value, json_stringify"]}
{"id": "C80", "title": "The entries of a vmTrace describe the executed instructions", "statement": "With the configuration made for the vmTrace type, every trace of the vmTrace has one entry for each instruction of a frame, in order, with its position, opcode and cost; its execution part has the gas left after the instruction, the items it put on the stack, the piece of memory it wrote with its offset (none if it wrote none), and the slot and value an SSTORE wrote.", "quantifier": "all executions, frames and instructions", "why_tests_cant": "Ranges over call trees and instruction sequences of any length; the entries depend on snapshots taken before and after every instruction.", "anchors": ["src/tracing/builder/parity.rs: ParityTraceBuilder::{vm_trace,make_vm_trace,make_instruction}", "src/tracing/config.rs: TracingInspectorConfig::from_parity_config"]}
{"id": "C81", "title": "Powers, shifts, bit operations and divisors of big integers are those of the integers", "statement": "In a JavaScript tracer, any combination of the methods square, next, prev, not, pow, shiftLeft, shiftRight, and, or, xor, gcd, lcm, max, min, modPow and modInv of bigint objects, together with the basic arithmetic, gives the integer that mathematics gives (bits in two's complement, shifts to the right rounding down), written with all its digits, and throws only where there is no such integer.", "quantifier": "all expressions over these methods, of any depth, and integers of any size and sign", "why_tests_cant": "Numbers are arrays of digits or doubles with several algorithms each (squaring, binary gcd, digits to the base 2^23); errors show only for particular sizes, signs and carries.", "anchors": ["src/tracing/js/bigint.js: square, pow, modPow, modInv, next, prev, shiftLeft, shiftRight, bitwise, not, and, or, xor, roughLOB, gcd, lcm, max, min, isDivisibleBy"]}
{"id": "C82", "title": "Big integers are read from text to any base", "statement": "In a JavaScript tracer, bigint(text, base) gives the integer whose digits to the base the text consists of, in either case and after a minus sign or not, so that it reads what toString(base) writes; for every other text it throws.", "quantifier": "all texts of any length and all bases from 2 to 36", "why_tests_cant": "Short texts go through parseInt and longer ones through a loop of multiplications; which of the two is used depends on the length and on quotients of logarithms.", "anchors": ["src/tracing/js/bigint.js: Integer, parseBase, parseBaseFromArray"]}
{"id": "C83", "title": "Big integers are read from decimal literals", "statement": "In a JavaScript tracer, bigint(text) gives the integer that a decimal literal denotes, whatever its length and notation (sign, point, exponent), and throws for literals that denote no integer.", "quantifier": "all decimal literals: any sign, any number of digits before and after the point, any exponent", "why_tests_cant": "The path depends on the double nearest to the value; short literals are rounded, long ones are taken apart, and the cases where the two disagree are rare.", "anchors": ["src/tracing/js/bigint.js: parseStringValue, parseValue, isPrecise"]}
{"id": "C84", "title": "Big integers are made of numbers exactly", "statement": "In a JavaScript tracer, bigint(x) of a number x that is an integer gives that integer, so that calculations with gas, depths, program counters and other numbers are not off; for every other number it throws.", "quantifier": "all doubles up to 2^1023 in size, all roundings to nearest and all shortest decimal texts", "why_tests_cant": "Numbers from 2^53 on go through their shortest decimal text, whose digits depend on the neighbouring doubles.", "anchors": ["src/tracing/js/bigint.js: parseNumberValue, parseStringValue, isPrecise"]}
{"id": "C85", "title": "The reported differences lead from the state before to the state after", "statement": "A client that applies the reported difference of an account (the parity state diff, or what the geth prestate tracer in diff mode shows before and after) to the account as it was before the transaction gets the account as it is after: balance, nonce, code and every slot of the storage, and nothing if it was destroyed.", "quantifier": "all databases, all states a transaction leaves behind, all accounts in them and all slots", "why_tests_cant": "Ranges over accounts and storages of any size and over all combinations of created, destroyed, changed and unchanged parts; tests compare single reports.", "anchors": ["src/tracing/builder/parity.rs: populate_state_diff", "src/tracing/builder/geth.rs: GethTraceBuilder::{geth_prestate_traces,diff_traces}"]}
{"id": "C86", "title": "What a JavaScript tracer hears of the frames is what the call tracer shows of them", "statement": "A JavaScript tracer that opens a frame at every enter and closes it at every exit gets the tree of sub-frames that geth_call_traces shows for the same transaction: the same nesting and order, and for every frame the same type, from, to, value, gas, gas used, input, output, and an error exactly where the call tracer shows one.", "quantifier": "all execution trees, configurations and tracers with enter and exit", "why_tests_cant": "Relates two different inspectors on call trees of any depth and width; tests look at one of them on a few transactions.", "anchors": ["src/tracing/js/mod.rs: JsInspector::{call,call_end,create,create_end,selfdestruct}", "src/tracing/builder/geth.rs: GethTraceBuilder::geth_call_traces"]}
{"id": "C87", "title": "The logs of the call frames are the logs of the receipt", "statement": "With withLog, the logs of all frames of geth_call_traces together are the logs in the receipt of the transaction (none if it failed): each as often as it is there, with the same address, topics and data, and so that their order can be told.", "quantifier": "all execution trees, with failed and successful frames at any depth", "why_tests_cant": "Logs of frames that failed, or are inside of frames that failed, have to be left out at any depth; ranges over trees of any size.", "anchors": ["src/tracing/builder/geth.rs: GethTraceBuilder::geth_call_traces", "src/tracing/types.rs: CallTraceNode::geth_empty_call_frame"]}
{"id": "C88", "title": "Step callbacks and struct logs tell of the same instructions", "statement": "For the same transaction, a JavaScript tracer with a step function is called once for each struct log the default tracer returns, in the same order, and its log object shows the same depth, program counter, opcode, gas, cost, refund, stack and memory as that struct log.", "quantifier": "all execution trees, all options of the default tracer, all JavaScript tracers with a step function", "why_tests_cant": "The two are produced by separate inspectors, one of which rebuilds the order of execution from a tree of frames; agreement is about sequences of any length and frames nested to any depth.", "anchors": ["src/tracing/js/mod.rs: JsInspector::step", "src/tracing/builder/geth.rs: GethTraceBuilder::geth_traces", "src/tracing/types.rs: CallTraceStep::convert_to_geth_struct_log"]}
{"id": "C89", "title": "An access list can be fed back", "statement": "If the list an AccessListInspector returns for a transaction is provided, in any order, to a new one with the same exclusions, then running the same transaction returns the same list, and running another one returns the list of both one after the other; a longer run never loses an entry of a shorter one.", "quantifier": "all provided lists, exclusions, histories and orders of the returned list", "why_tests_cant": "A statement about two runs and about every order a hash map may return; ranges over histories of any length.", "anchors": ["src/access_list.rs: AccessListInspector::new, step, into_access_list, access_list"]}
{"id": "C90", "title": "The gas shown for frames and steps adds up", "statement": "In a recording of all steps, going through the record of a frame with its gas limit, taking the cost of each step and adding for each call the gas limit of the called frame less the gas it used, gives at each step the gas shown there, and in the end the frame's gas limit less its gas used (apart from the code deposit of a creation); in other words, limit less used is what the caller of a frame gets back.", "quantifier": "all execution trees whose gas follows the rules of the EVM, all frames below the root", "why_tests_cant": "A conservation law over steps and calls nested to any depth and any ends of frames; tests look at single numbers.", "anchors": ["src/tracing/mod.rs: TracingInspector::fill_trace_on_call_end, start_step, fill_step_on_step_end", "src/tracing/types.rs: CallTrace, CallTraceStep, CallTraceNode::ordering"]}
{"id": "C91", "title": "The root's gas used is that of the receipt", "statement": "The gas used recorded for the root frame of a transaction is the gas used in its receipt, so that parity traces and call frames show the gas the sender paid for, whether or not the caller hands the receipt's gas over.", "quantifier": "all executions, statuses, refunds and intrinsic gas amounts", "why_tests_cant": "An arithmetic law between two ways of computing the gas of a transaction, over all amounts of gas and refunds; a test compares one transaction.", "anchors": ["src/tracing/mod.rs: TracingInspector::fill_trace_on_call_end, set_transaction_gas_used", "src/tracing/utils.rs: gas_used", "src/tracing/builder/parity.rs: ParityTraceBuilder::set_transaction_gas_used, into_trace_results", "src/tracing/builder/geth.rs: GethTraceBuilder::geth_call_traces"]}
{"id": "C92", "title": "The gas of all opcodes adds up to the gas of the transaction", "statement": "The gas an OpcodeGasInspector reports for all opcodes together, with what is charged outside of instructions (precompiles, code deposits), is the gas the root frame spent: no gas is counted twice and none is left out.", "quantifier": "all execution trees whose gas follows the rules of the EVM and whose instructions run to their end", "why_tests_cant": "A conservation law over instructions and calls nested to any depth; tests check single opcodes without calls.", "anchors": ["src/opcode.rs: OpcodeGasInspector::step, step_end, opcode_iter"]}
{"id": "C93", "title": "The call tree can be rebuilt from the flat parity traces", "statement": "The parity traces of a transaction, in whatever order a reader gets them, are the flat list of exactly one tree (addresses as paths, subtraces as numbers of direct children), and it is the tree of the frames of the execution with each frame's action, result and error, its calls in call order and its selfdestruct last; so two executions have the same traces exactly if they have the same tree.", "quantifier": "all pairs of execution trees and configurations, all orders of the traces", "why_tests_cant": "Uniqueness over all trees of any shape; a test can only show that one tree gives one list.", "anchors": ["src/tracing/builder/parity.rs: ParityTraceBuilder::into_transaction_traces_iter, trace_address, into_transaction_traces", "src/tracing/types.rs: CallTraceNode::parity_transaction_trace, parity_selfdestruct_trace"]}
{"id": "C94", "title": "The revert reason of a call frame is the one the contract gave", "statement": "A call frame shows a revert reason only if the frame failed; for a failure with `revert(s)` it is exactly the text `s` (none if it is empty), for a panic the presentation of its code, and for data that is neither, such as a custom error, there is none.", "quantifier": "all execution trees, all texts, panic codes and revert data, recording and call configurations", "why_tests_cant": "Over all texts and all byte strings; custom errors whose selector happens to be text are rare in tests.", "anchors": ["src/tracing/utils.rs: maybe_revert_reason", "src/tracing/types.rs: CallTraceNode::geth_empty_call_frame", "src/tracing/builder/geth.rs: GethTraceBuilder::geth_call_traces"]}
{"id": "C95", "title": "A vmTrace lists every executed instruction exactly once", "statement": "If all instructions are recorded, the entries of a vmTrace and of all traces nested in it, taken together, are the instructions the transaction executed, each exactly once with its position, opcode and cost; they are the ones the struct logs list. Read from the top (an entry, then the trace below it) they come in the order of execution.", "quantifier": "all execution trees, all configurations that record all instructions, all options for the struct logs", "why_tests_cant": "Losing or repeating the instructions of a frame depends on the whole shape of the call tree, which is unbounded.", "anchors": ["src/tracing/builder/parity.rs: ParityTraceBuilder::vm_trace, make_vm_trace, make_instruction", "src/tracing/builder/geth.rs: GethTraceBuilder::geth_traces"]}
{"id": "C96", "title": "Frames entered by EOFCREATE are recorded like the others", "statement": "Recording an execution in which contracts are created with EOFCREATE does not panic and gives a node for every frame, those of EOFCREATE included, under the frame that entered it; the value such a creation moves is listed as a transfer.", "quantifier": "all execution trees with frames entered by calls, creates and EOFCREATE, all configurations", "why_tests_cant": "The attachment of a frame depends on the frames recorded before it, over trees of any shape.", "anchors": ["src/tracing/mod.rs: impl Inspector for TracingInspector", "src/tracing/arena.rs: CallTraceArena::push_trace", "src/transfer.rs: impl Inspector for TransferInspector"]}
{"id": "C97", "title": "The number of a big integer is the nearest one", "statement": "In a JavaScript tracer, toJSNumber() and valueOf() of a bigint give the double nearest to the integer, which is the integer itself wherever a double is equal to it; and bigint(x).toJSNumber() is x for every number x that is an integer.", "quantifier": "all expressions over the methods of bigint objects whose value is at most 2^1023 in size, all doubles that are integers up to that size, all roundings to a nearest double", "why_tests_cant": "The value goes through its decimal digits, of any length, and back through the conversion of strings to numbers.", "anchors": ["src/tracing/js/bigint.js: BigInteger.prototype.valueOf, SmallInteger.prototype.valueOf, toJSNumber, parseNumberValue"]}
{"id": "C98", "title": "isPrime of big integers tells primes from other numbers", "statement": "In a JavaScript tracer, isPrime() of a bigint is true if the number, without its sign, is a prime, and false otherwise; it does not throw.", "quantifier": "all expressions over the methods of bigint objects, integers of any size and sign", "why_tests_cant": "Primality is a statement about all possible divisors; the loops run over numbers of any length.", "anchors": ["src/tracing/js/bigint.js: isBasicPrime, BigInteger.prototype.isPrime"]}
{"id": "C99", "title": "Random big integers lie between the bounds, and can be each integer there", "statement": "In a JavaScript tracer, bigint.randBetween(a, b) gives an integer that is not below the smaller and not above the larger of the bounds, whatever Math.random() gives; and each such integer is given for some random numbers.", "quantifier": "all bounds, of any size and sign and in any order, all sequences of random numbers, all roundings to a nearest double", "why_tests_cant": "The digits are drawn one by one, for numbers of any length, and each product with a random number is rounded.", "anchors": ["src/tracing/js/bigint.js: randBetween, truncate"]}
{"id": "C100", "title": "Primes are probable primes", "statement": "In a JavaScript tracer, isProbablePrime() of a bigint that is a prime, or the negative of one, is true, however many iterations are asked for and whatever the random numbers; it does not throw.", "quantifier": "all expressions over the methods of bigint objects, any number of iterations, all sequences of random numbers", "why_tests_cant": "The outcome depends on random numbers and on powers modulo numbers of any length.", "anchors": ["src/tracing/js/bigint.js: isBasicPrime, BigInteger.prototype.isProbablePrime, randBetween"]}
{"id": "C101", "title": "Big integers are read back to any base", "statement": "In a JavaScript tracer, bigint(b.toString(base), base) equals b for every bigint b and every base other than 0, also a negative base, a base above 36, and a base that is a bigint itself. The text consists of the digits of the number to that base, those from 36 on as decimal numbers in angle brackets, after a minus sign if the number is negative and the base is not.", "quantifier": "all integers, all bases other than those from 2 to 36 (C82), all texts of digits", "why_tests_cant": "Neither numbers nor bases are bounded; digits to negative bases need a correction of the quotient that depends on signs.", "anchors": ["src/tracing/js/bigint.js: toBase, stringify, parseBase, parseBaseFromArray"]}
{"id": "C102", "title": "The stack can be replayed from a vmTrace", "statement": "In a vmTrace made with the configuration for the vmTrace trace type, starting a frame with the empty stack and replacing, entry by entry, the operands of the entry's opcode by its pushed items gives the stack before every instruction of the frame, as the EVM had it.", "quantifier": "all transactions whose frames handle the stack as the EVM specifies for legacy bytecode, all frames shown, all instructions", "why_tests_cant": "The claim is about every prefix of every execution; one instruction whose result is not shown makes all later stacks wrong.", "anchors": ["src/tracing/builder/parity.rs: stack_push_count, make_instruction, vm_trace", "src/tracing/mod.rs: start_step, fill_step_on_step_end"]}
{"id": "C103", "title": "Call frames name the accounts involved", "statement": "In the geth call frames of a transaction every frame shows as from the account that executed the frame around it, and as to the account whose code it ran or that it created; a reader can tell from type, from and to which account each frame executed as; and a SELFDESTRUCT frame, like a parity selfdestruct trace, names the account that was destroyed.", "quantifier": "all execution trees whose frames are entered as the EVM specifies, all recording and call configurations without onlyTopCall", "why_tests_cant": "Which account executes depends on all enclosing frames (delegate calls inherit it); the claim relates neighbouring frames of arbitrary trees.", "anchors": ["src/tracing/mod.rs: call, create, selfdestruct", "src/tracing/types.rs: CallTraceNode::geth_empty_call_frame, geth_selfdestruct_call_trace, parity_selfdestruct_action, parity_action"]}
{"id": "C104", "title": "log.contract describes the frame that executes the instruction", "statement": "In the step function of a JavaScript tracer, log.contract describes the account that executes the instruction: getAddress is what the instruction ADDRESS would give there, getCaller what CALLER, getValue what CALLVALUE and getInput what CALLDATACOPY would give, so that for example db.getState(log.contract.getAddress(), slot) is what SLOAD reads.", "quantifier": "all executions, all instructions at any depth, all kinds of frames", "why_tests_cant": "The account, caller and value are inherited through any number of delegate calls; tests with plain calls never see the difference.", "anchors": ["src/tracing/js/mod.rs: JsInspector::call, create, step, push_call", "src/tracing/js/bindings.rs: Contract"]}
{"id": "C105", "title": "The configuration can be changed while recording", "statement": "If the configuration of a TracingInspector is changed through config_mut or update_config while a transaction executes, recording does not panic, every frame is still listed with its data, and the steps, logs, children and their order are those that the configuration set at the moment asks for; a step recorded with memory shows the memory as it was before its instruction.", "quantifier": "all executions; all ways of changing the configuration between hook calls", "why_tests_cant": "Tests record with one configuration from start to end. What a recorder keeps from one hook call to the next (the step to complete, the memory to share) only goes wrong for particular changes at particular instructions.", "anchors": ["src/tracing/mod.rs: TracingInspector::config_mut", "src/tracing/mod.rs: TracingInspector::update_config", "src/tracing/mod.rs: start_step", "src/tracing/mod.rs: fill_step_on_step_end"]}
{"id": "C106", "title": "A recording can be stored as JSON and read again", "statement": "With the feature serde, writing a CallTraceArena with serde_json and reading the text again never fails and gives back an equal arena.", "quantifier": "all arenas: all numbers of nodes, children, logs, steps and decoded data, all values of every field, in particular those of the recorded executions", "why_tests_cant": "The derived implementations of some fifteen types must fit together with hand-written ones for every combination of values (missing options, empty lists, strings with any characters, numbers of all sizes); a test stores a handful of recordings of common contracts.", "anchors": ["src/tracing/arena.rs: CallTraceArena", "src/tracing/types.rs: CallTraceNode", "src/tracing/types.rs: CallTrace", "src/tracing/types.rs: CallTraceStep", "src/tracing/types.rs: CallLog", "src/tracing/types.rs: TraceMemberOrder", "src/tracing/types.rs: DecodedTraceStep", "src/tracing/types.rs: opcode_serde"]}
{"id": "C107", "title": "Calls made with EXTCALL, EXTDELEGATECALL and EXTSTATICCALL are shown like other calls", "statement": "When contracts in the EVM object format call others with EXTCALL, EXTDELEGATECALL or EXTSTATICCALL, the struct logs list the instructions of the called contract after the calling instruction, in the order of execution; the vmTrace shows them as the sub-trace of that instruction; and the access list has the account it names.", "quantifier": "all execution trees whose frames are entered by CALL- and CREATE-like instructions and EXTCALL, EXTDELEGATECALL and EXTSTATICCALL, of all sizes and depths; all configurations and options", "why_tests_cant": "The three instructions are not in the lists of opcodes the builders and the access list compare with; that is invisible in every test with legacy contracts, and a test with one EXTCALL shows one execution, not that the instructions are wrong in all of them.", "anchors": ["src/tracing/types.rs: CallTraceStep::is_calllike_op", "src/tracing/types.rs: CallTraceNode::call_step_stack", "src/tracing/builder/geth.rs: GethTraceBuilder::geth_traces", "src/tracing/builder/parity.rs: ParityTraceBuilder::make_vm_trace", "src/access_list.rs: AccessListInspector"]}
{"id": "C108", "title": "A small inspector used for several transactions reports what separate ones would", "statement": "An opcode-gas inspector, opcode counter, four-byte inspector, transfer inspector or access-list inspector that is used for several transactions in a row, without being reset, reports the sums of the counts and gas that a separate inspector for each transaction reports, the lists of transfers one after the other, and the union of the access lists.", "quantifier": "all lists of transactions (of any length, trees of any size), totals within 64 bits", "why_tests_cant": "A block has any number of transactions of any shape, and state left over from one (an instruction that did not end) only matters for certain beginnings of the next.", "anchors": ["src/opcode.rs: OpcodeGasInspector", "src/tracing/opcount.rs: OpcodeCountInspector", "src/tracing/fourbyte.rs: FourByteInspector", "src/transfer.rs: TransferInspector", "src/access_list.rs: AccessListInspector"]}
{"id": "C109", "title": "A request is answered alike from every recording that holds what it needs", "statement": "The struct logs for a set of options and the vmTrace are the same whether they are built from a recording made with the configuration for this request (from_geth_config, from_parity_config) or from one made with any configuration that records more besides; and TracingInspectorConfig::all(), documented as having everything enabled, records enough for every request.", "quantifier": "all sequences of hook calls, all options, all pairs of configurations that record at least what the request needs", "why_tests_cant": "There are 2^7 configurations times the filters, and executions of any shape; a builder that looks at a field which another option happens to fill shows only for certain pairs.", "anchors": ["src/tracing/config.rs: TracingInspectorConfig, from_geth_config, from_parity_config, all", "src/tracing/builder/geth.rs: geth_traces", "src/tracing/builder/parity.rs: vm_trace, make_instruction"]}
{"id": "C110", "title": "The refund counter shown is that of the transaction", "statement": "The refund counter of a struct log, and the one getRefund gives in a step callback of a JavaScript tracer, is the refund the transaction has collected before the instruction, by all frames so far except failed ones, as the EVM counts it; a struct log leaves it out exactly if it is zero.", "quantifier": "all executions, at any depth of calls, all changes of the counter", "why_tests_cant": "revm keeps a signed counter per frame; the sum over the open frames has to be related to the transaction's for every nesting of calls, creations and failures.", "anchors": ["src/tracing/mod.rs: TracingInspector::start_step", "src/tracing/types.rs: CallTraceStep::convert_to_geth_struct_log", "src/tracing/js/mod.rs: JsInspector::step"]}
{"id": "C111", "title": "Only functions are counted by their selectors", "statement": "The result of the FourByteInspector for a transaction has, for every selector and size of arguments, the number of calls of contract functions with them (the call of the transaction itself included); the input of a precompiled contract, which has no functions, is not taken for a selector.", "quantifier": "all execution trees, all selectors and sizes", "why_tests_cant": "Which calls of an execution count depends on what each of them runs, for every nesting and number of calls.", "anchors": ["src/tracing/fourbyte.rs: FourByteInspector::call"]}
{"id": "C112", "title": "The access list is complete", "statement": "The access list that the access-list inspector returns has every account and every storage slot that an instruction of the execution accesses in the sense of the gas rules (operands of BALANCE, EXTCODESIZE, EXTCODECOPY, EXTCODEHASH, SELFDESTRUCT, of the legacy calls and of EXTCALL, EXTDELEGATECALL and EXTSTATICCALL, accounts that called ones delegate to, slots of SLOAD and SSTORE), except the sender, the recipient and the precompiles; so that the same execution with the list pays for no first access.", "quantifier": "all sequences of hook calls, all provided lists, senders, recipients, sets of precompiles and delegations", "why_tests_cant": "Tests compare the list of a handful of executions with a list written down by hand from what the inspector looks at; whether there is an instruction that accesses something and is not looked at is a question about all instructions.", "anchors": ["src/access_list.rs: AccessListInspector::{new,access_list,into_access_list,step}"]}
{"id": "C113", "title": "Failed frames are not shown as done", "statement": "A geth call frame of a frame that failed names no account as created, and has an output and a revert reason only if the code reverted; a parity trace with an error has no result that gives the account and the code of a created contract.", "quantifier": "all execution trees, recordings, call configurations and ways to fail", "why_tests_cant": "Which frames fail and how is up to the execution; the statement relates two result formats to every outcome of every frame.", "anchors": ["src/tracing/types.rs: CallTraceNode::{geth_empty_call_frame,parity_transaction_trace,parity_trace_output}", "src/tracing/builder/geth.rs: GethTraceBuilder::geth_call_traces", "src/tracing/builder/parity.rs: ParityTraceBuilder::into_transaction_traces"]}
{"id": "C114", "title": "Balances can be followed from call frames and from parity traces", "statement": "Starting from the balances before the transaction and paying every CALL with value, creation and selfdestruct shown by the parity traces, or by geth's call frames, except those that failed or are below one that failed, every account has the balance it has after the transaction (fees aside).", "quantifier": "every well-formed execution, of any depth and size and with any combination of failing and succeeding calls, creations, delegate calls, precompile calls and selfdestructs, in which money is moved as the EVM does; every recording configuration; every initial ledger", "why_tests_cant": "It relates all payments of whole trees of calls, with the undoing of failed subtrees, to balances; it also needs the trace addresses to show exactly which traces are below which.", "anchors": ["src/tracing/builder/geth.rs: geth_call_traces", "src/tracing/builder/parity.rs: ParityTraceBuilder::into_transaction_traces", "src/tracing/types.rs: CallTraceNode::{parity_action,parity_trace_output,parity_selfdestruct_trace,geth_selfdestruct_call_trace,geth_empty_call_frame}"]}
{"id": "C115", "title": "A database that fails is reported, and does not change the answer", "statement": "If some reads of the database fail while a prestate trace or the answer to a parity request is built, the caller either gets the error or the same answer as from the database that does not fail: what could not be read is never shown as missing.", "quantifier": "every database and every set of its account and code reads that fail, every state map, trace, prestate configuration and set of requested trace types", "why_tests_cant": "A test uses a database in memory that never fails, or fails at one place; here any set of reads may fail.", "anchors": ["src/tracing/utils.rs: load_account_code", "src/tracing/builder/geth.rs: GethTraceBuilder::geth_prestate_traces", "src/tracing/builder/parity.rs: {populate_state_diff, populate_vm_trace_bytecodes}, ParityTraceBuilder::into_trace_results_with_state"]}
{"id": "C116", "title": "Big integers are read from hexadecimal, octal and binary literals", "statement": "In a JavaScript tracer, bigint(text) gives the integer that a hexadecimal, octal or binary literal (0x…, 0o…, 0b…) denotes, whatever its length, and never another one.", "quantifier": "all texts that begin with a zero and one of the letters x, o and b in either case, with any number of digits, and all roundings to nearest", "why_tests_cant": "A test reads a few literals of a few digits; the library takes another path from 2^53 on and splits the text at every e, which is a hexadecimal digit.", "anchors": ["src/tracing/js/bigint.js: parseStringValue"]}
{"id": "C117", "title": "Big integers are made of their digits", "statement": "bigint.fromArray(digits, base, isNegative) of a JavaScript tracer gives the integer that the digits denote to the base, for any integers as digits and base, and rejects digits and bases that are no integers.", "quantifier": "every list of digits, of any length and size, every base, either sign", "why_tests_cant": "The digits and the base are unbounded, and the result goes through the arithmetic of numbers split in pieces of seven digits.", "anchors": ["src/tracing/js/bigint.js: Integer.fromArray, parseBaseFromArray, parseValue"]}
{"id": "C118", "title": "The limit on struct logs is kept", "statement": "Recording with from_geth_config(opts) and building struct logs with the same opts, opts.limit (if given and not zero) bounds the number of struct logs: they are the first that many executed instructions.", "quantifier": "all executions and all options, with any limit", "why_tests_cant": "Executions and limits are unbounded; tests use executions of a few instructions and no limit.", "anchors": ["src/tracing/builder/geth.rs: GethTraceBuilder::geth_traces, fill_geth_trace", "src/tracing/config.rs: TracingInspectorConfig::from_geth_config"]}
{"id": "C119", "title": "Transfers are listed in the order in which value moved", "statement": "TransferInspector lists the transfers in the order in which the value moves: that of a call or creation before those made inside of it. So if they are made one after the other, nobody pays what they do not have.", "quantifier": "all executions, of any nesting, with and without internal_only", "why_tests_cant": "The order depends on how calls, creations and selfdestructs are nested, without bound; tests have one creation without inner transfers.", "anchors": ["src/transfer.rs: TransferInspector (call, create_end, selfdestruct), into_transfers"]}
{"id": "C120", "title": "An inspector that records a second transaction shows the second transaction", "statement": "A TracingInspector with which a second transaction is executed (without fuse() in between) holds the recording of the second transaction, as a new inspector would make it.", "quantifier": "all configurations, all sequences of transactions", "why_tests_cant": "What is left over depends on all frames, steps and logs of the earlier transactions; tests execute one transaction or call fuse().", "anchors": ["src/tracing/mod.rs: TracingInspector::fuse, start_trace_on_call", "src/tracing/arena.rs: CallTraceArena::push_trace"]}
{"id": "C121", "title": "A JavaScript tracer that watches several transactions hears of each what it would hear of it alone", "statement": "A JsInspector used for several transactions calls the functions of the tracer for each transaction as a separate inspector would, in the order of the transactions, answers the EVM alike and panics only where a separate one would.", "quantifier": "all tracers, all sequences of transactions, whichever callbacks throw", "why_tests_cant": "The call stack left over by earlier transactions decides which frame is taken for the root; tests watch one transaction.", "anchors": ["src/tracing/js/mod.rs: JsInspector (step, step_end, call, call_end, create, create_end, selfdestruct), push_call, pop_call, is_root_call_active"]}
{"id": "C122", "title": "What was recorded stays recorded while the transaction goes on", "statement": "A recording that is read before the transaction is over shows nothing that is taken back later: every node stays at its position, a node whose frame has ended does not change any more, and a node whose frame is open keeps its parent, depth, kind, caller, value, input and gas limit, while its children, its logs, its order of events and its steps are extended at their ends only. The one exception is the step of the instruction that is being executed, which its end completes.", "quantifier": "all configurations, all legal histories of hook calls, any two moments within one transaction", "why_tests_cant": "The recording is read by inspectors that wrap this one and by debuggers in the middle of an execution; tests look at finished transactions.", "anchors": ["src/tracing/mod.rs: TracingInspector (step, step_end, log, call, call_end, create, create_end, selfdestruct), start_trace_on_call, fill_trace_on_call_end, start_step, fill_step_on_step_end", "src/tracing/arena.rs: CallTraceArena (push_trace, nodes)"]}
{"id": "C123", "title": "A state diff that could not be completed is not wrong, and does not spoil the next attempt", "statement": "If populate_state_diff fails because the database does, the diff it leaves behind in the map that was passed contains only entries of the complete diff; and filling the same map again from the same state gives what filling an empty one gives.", "quantifier": "all databases (failing anywhere), all states, all orders of iteration", "why_tests_cant": "The map is passed by reference and keeps what was written before the error; tests use databases that do not fail.", "anchors": ["src/tracing/builder/parity.rs: populate_state_diff"]}
{"id": "C124", "title": "A trace writer whose sink failed can be used again", "statement": "If write_arena returns an error because the sink failed, then a trace written later with the same TraceWriter is written as by a new writer with the same settings and starting indentation.", "quantifier": "all arenas (decoded or not, internal calls properly nested), all sinks, failing at any write, all settings and starting indentations", "why_tests_cant": "Tests write to memory, which does not fail; what matters is the state of the writer after a failure at any of the writes.", "anchors": ["src/tracing/writer.rs: TraceWriter::write_arena", "src/tracing/writer.rs: TraceWriter::write_node", "src/tracing/writer.rs: TraceWriter::write_step"]}
{"id": "C125", "title": "The call tree can be read from the text of a trace", "statement": "The text TraceWriter writes for a recorded transaction, with or without colours and without decoded information, is the same for two transactions exactly if these agree in: the frames and how they are nested; gas used and status of each; kind, account, value, input and output of each call; account and length of the code of each creation; topics and data of each log, and where between the frames it was emitted. So all of this can be read from the text, whatever bytes the contracts chose, and nothing else can.", "quantifier": "all pairs of transactions and configurations, all settings of the writers (with the same texts for addresses), all starting indentations, frames nested up to the 65535 levels the writer can count", "why_tests_cant": "Tests compare a few texts with expected ones; that no two different executions are shown alike is a statement about all pairs of them.", "anchors": ["src/tracing/writer.rs: TraceWriter::write_arena", "src/tracing/writer.rs: TraceWriter::write_trace_header", "src/tracing/writer.rs: TraceWriter::write_trace_footer", "src/tracing/writer.rs: TraceWriter::write_log"]}
{"id": "C126", "title": "The gas shown for an internal call is what was spent in it", "statement": "In the text of a trace, the number in brackets before a decoded internal call is the gas that the frame spent from the start of its first to the start of its last instruction.", "quantifier": "all transactions and configurations, all decoded information put on the recorded steps, all frames and pairs of recorded instructions of one", "why_tests_cant": "The number is a difference of two recorded ones, each computed from gas and refunds of the frame at that moment; the cases where it is off are those where refunds change in between, which no test has.", "anchors": ["src/tracing/mod.rs: TracingInspector::start_step", "src/tracing/utils.rs: gas_used", "src/tracing/writer.rs: TraceWriter::write_step"]}
{"id": "C127", "title": "The frames can be told apart in the struct logs", "statement": "Reading the struct logs by their depths gives the nesting of the executed instructions: the logs behind the log of an instruction that are deeper, up to the first that is not, are exactly those of the frame the instruction entered (and of the frames entered from there); the following ones belong to its own frame. So a debugger can step over calls, and two transactions with equal struct logs executed the same instructions in the same nesting.", "quantifier": "all executions in which a sub-frame is entered by the call instruction before it, of any depth and length; all configurations that record call instructions and leave out no frame; all geth options", "why_tests_cant": "Tests look at the depths in a few traces; that cutting at depths never joins or splits frames is a statement about all nestings.", "anchors": ["src/tracing/builder/geth.rs: GethTraceBuilder::geth_traces", "src/tracing/builder/geth.rs: GethTraceBuilder::fill_geth_trace", "src/tracing/mod.rs: TracingInspector::start_step"]}
{"id": "C128", "title": "Decoded texts cannot forge lines of a trace", "statement": "Each line of the text TraceWriter writes is the first or last line of a frame, a line of a log, of an internal call or of a decoded step of the recorded transaction, whatever texts the labels, decoded arguments, return values, logs and steps contain. So a contract cannot make the text show calls that did not happen by passing texts to other contracts.", "quantifier": "all transactions and configurations, all decoded information, all settings of the writer and starting indentations", "why_tests_cant": "Tests print harmless texts; the claim is about every text that may be decoded from data an attacker chose.", "anchors": ["src/tracing/writer.rs: TraceWriter::write_trace_header", "src/tracing/writer.rs: TraceWriter::write_log", "src/tracing/writer.rs: TraceWriter::write_step", "src/tracing/types.rs: DecodedCallTrace"]}
{"id": "C129", "title": "Results can be built from every recording that is read", "statement": "If a text is read as a CallTraceArena without an error, the recording that was read can be written and read again unchanged, and struct logs, call frames, flat traces, traces by type and vmTrace can be built from it without a panic or an endless loop.", "quantifier": "all texts, all recordings, all sets of known opcodes, all options of the builders", "why_tests_cant": "Tests read what they wrote; the claim is about all texts, also damaged or hostile ones.", "anchors": ["src/tracing/arena.rs: CallTraceArena", "src/tracing/types.rs: CallTraceNode", "src/tracing/types.rs: opcode_serde", "src/tracing/builder/parity.rs: ParityTraceBuilder::trace_address"]}
{"id": "C130", "title": "The storage shown in the struct logs is what the contract holds", "statement": "If storage is enabled, each slot in the storage map of a struct log has there the value the executing contract holds in this slot when the instruction is done.", "quantifier": "all executions over any contracts whose instructions change the storage as the EVM says, all options, every log", "why_tests_cant": "It depends on the whole history of writes and reverts before a log; tests look at single contracts without reverts.", "anchors": ["src/tracing/builder/geth.rs: GethTraceBuilder::fill_geth_trace", "src/tracing/mod.rs: TracingInspector::fill_step_on_step_end"]}
{"id": "C131", "title": "Big integers are compared and combined with plain numbers and texts as numbers are", "statement": "In a JavaScript tracer, equals, notEquals, greater, lesser, greaterOrEquals and lesserOrEquals of a big integer, given a number or the text of one, say how the two numbers are ordered, also for the infinities; add, subtract, multiply, divide and mod calculate with the integer that the number or text stands for.", "quantifier": "all big integers of any size and sign that tracers calculate, all doubles up to 2^1023, the infinities, NaN, all decimal literals, all expressions of these methods", "why_tests_cant": "Doubles from 2^53 on and texts with exponents take other ways through the library than the small integers tests use; there are unboundedly many of them.", "anchors": ["src/tracing/js/bigint.js: BigInteger.prototype.compare, SmallInteger.prototype.compare, parseValue, parseNumberValue"]}
{"id": "C132", "title": "Chained configuration calls: what was asked last is what is recorded", "statement": "After any sequence of the methods that switch parts of a tracing configuration on and off, each part is as it was asked for last, and as at the start if no call concerned it (asking for state diffs with with_state_diffs or set_steps_and_state_diffs asks for steps as well). An inspector with that configuration records no steps or all instructions that were started, in every step the memory, the whole stack, pushed items or none of them, storage changes only if asked for, and all logs or none.", "quantifier": "all sequences of calls of the configuration methods, all configurations to start from, all execution trees", "why_tests_cant": "There are unboundedly many sequences, and the methods overlap: some of them set two options.", "anchors": ["src/tracing/config.rs: TracingInspectorConfig::{set_steps,with_state_diffs,set_steps_and_state_diffs,...}", "src/tracing/mod.rs: TracingInspector"]}
{"id": "C133", "title": "Big integers are compared by operators as the integers are", "statement": "In a JavaScript tracer, the operators <, >, <=, >=, == and != between two big integers, or between a big integer and a number, say how the integers and numbers are ordered.", "quantifier": "all results of calculations with big integers of at most 2^1023 in size, all doubles, all six operators, all roundings to a nearest double", "why_tests_cant": "Stack items have up to 256 bits, and the operators see only the doubles nearest to them; tests with small numbers do not show it.", "anchors": ["src/tracing/js/bigint.js: BigInteger.prototype.valueOf, SmallInteger.prototype.valueOf"]}
{"id": "C134", "title": "A recording of several transactions can be printed", "statement": "TraceWriter::write_arena prints what a TracingInspector holds after several transactions, recorded without fuse() in between, without a panic, showing the frames of all of them.", "quantifier": "all configurations, all sequences of transactions, all writer settings, all sinks that do not fail; C134_any: all arenas whose sub-frames come after the frames that made them", "why_tests_cant": "Whether the writer panics depends on how the numbers of steps of the roots compare, over all sequences of transactions; tests print a recording of one transaction.", "anchors": ["src/tracing/writer.rs: TraceWriter::write_arena, write_node, write_item, write_step", "src/tracing/mod.rs: TracingInspector::start_trace_on_call, fuse", "src/tracing/arena.rs: CallTraceArena::push_trace"]}
{"id": "C135", "title": "What the geth builders return after a transaction is about that transaction", "statement": "After a transaction was recorded by a TracingInspector that had recorded others before, without fuse() in between, the responses of geth_call_traces and geth_traces are those of the last transaction alone.", "quantifier": "all configurations, all sequences of transactions, all call-tracer and struct-log options; call frames: if no root and no first frame below a root selfdestructs", "why_tests_cant": "Which calls stand where depends on all the frames of all the transactions and on how the children of the shared root are counted; tests build responses from a recording of one transaction.", "anchors": ["src/tracing/builder/geth.rs: GethTraceBuilder::geth_call_traces, geth_traces, fill_geth_trace", "src/tracing/types.rs: CallTraceNode::call_step_stack", "src/tracing/mod.rs: TracingInspector::start_trace_on_call, fuse", "src/tracing/arena.rs: CallTraceArena::push_trace"]}
{"id": "C136", "title": "The parity traces after a transaction are those of that transaction", "statement": "After a transaction was recorded by a TracingInspector that had recorded others before, without fuse() in between, into_transaction_traces returns the traces of the last transaction alone, with its subtraces and trace addresses.", "quantifier": "all configurations, all sequences of transactions", "why_tests_cant": "The address of each trace is found by walking up through the children of all the frames of all the transactions; tests build traces from a recording of one transaction.", "anchors": ["src/tracing/builder/parity.rs: ParityTraceBuilder::into_transaction_traces_iter, trace_address", "src/tracing/mod.rs: TracingInspector::start_trace_on_call, fuse", "src/tracing/arena.rs: CallTraceArena::push_trace"]}
{"id": "C137", "title": "The vmTrace after a transaction is that of that transaction", "statement": "After a transaction was recorded by a TracingInspector that had recorded others before, without fuse() in between, vm_trace, into_trace_type_traces and into_trace_results_with_state return what they return for the last transaction alone.", "quantifier": "all configurations, all sequences of transactions, all sets of trace types, databases, states and execution results", "why_tests_cant": "The pairing of call instructions with vm traces of callees goes through a queue that is filled by all the frames of all the transactions; tests build vm traces from a recording of one transaction.", "anchors": ["src/tracing/builder/parity.rs: ParityTraceBuilder::vm_trace, make_vm_trace, into_trace_type_traces, into_trace_results_with_state", "src/tracing/mod.rs: TracingInspector::start_trace_on_call, fuse", "src/tracing/arena.rs: CallTraceArena::push_trace"]}
{"id": "C138", "title": "A mux frame is about the transaction that was executed last", "statement": "A MuxInspector with which several transactions are executed gives, by try_into_mux_frame, the frame that a new MuxInspector gives for the last transaction.", "quantifier": "all mux configurations with distinct tracer types, all sequences of transactions, all results and databases", "why_tests_cant": "A mux has no way to be reset, so what it accumulates depends on all transactions it has seen; tests use a new one for each.", "anchors": ["src/tracing/mux.rs: MuxInspector::try_into_mux_frame, impl Inspector for MuxInspector", "src/tracing/fourbyte.rs: FourByteInspector", "src/tracing/builder/geth.rs: GethTraceBuilder::geth_call_traces, geth_prestate_traces"]}
