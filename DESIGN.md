# Design

Subject: paradigmxyz/evm-inspectors at the commit in /repo (crate `revm-inspectors` 0.5, revm 10,
alloy 0.1). The properties are in `properties.jsonl`, the claims in `MANIFEST.json`, the attempts to
break the theorems with wrong programs in `seeded/LOG.jsonl`, the Lean project in `lean/`.

Contents: 1 approach, 2 trusted base, 3 what is modelled and what is not, 4 assumptions about the
dependencies, 5 conventions of the model, 6 the properties one by one, 7 defects of the code found on the
way, 8 axioms of each theorem.

## 1. Approach

The crate consists of *inspectors* (state machines driven by revm's hooks) and *builders* (pure
functions from the recorded arena to RPC responses). There are three layers.

1. **Environment** (`Verif/Revm.lean`, `Verif/Spec/Exec.lean`). The hook arguments are records. An
   execution of one transaction is a *call tree*: a root frame with a body; a body is a sequence of
   instructions, logs, selfdestruct notices and sub-frames. `Tx.events` flattens a tree to the hook
   sequence revm 10 emits. Properties quantify over all trees (no bound on depth, width, length), over
   all prefixes of such sequences, or over arbitrary event lists.
2. **Code** (`Verif/Model/*.lean`). One Lean definition per Rust function, cited by file and lines.
   Panics are explicit: functions that can panic return `Except Panic _`; indexing is `[i]?` with a
   panic on `none`; nothing is totalised silently.
3. **Specification** (`Verif/Spec/*.lean`). Small recursive functions on call trees (or plain
   mathematical definitions) that do not mention the arena, the stacks or the builders.

The central theorem is a refinement (`Lemmas/Layout`, `Lemmas/Refine`): running the recorder on the
events of a tree yields an arena that is the pre-order layout of the tree. The builder theorems are
composed with it, so the final statements read "recording an execution and building the response gives
`spec tree`".

Files: `Verif/Model/*` model, `Verif/Spec/*` specifications, `Verif/Lemmas/*` helper lemmas,
`Verif/Props/*` the property theorems (named `C07_...`). Beside each theorem there is a concrete,
non-trivial case meeting its hypotheses. Where the code violates a property, a theorem named
`C.._refuted...` proves the negation on a concrete reachable input, and a `_partial` theorem proves the
property under the exact missing hypothesis.

## 2. Trusted base

* Lean 4.33.0's kernel. The theorems depend on no axioms but `propext`, `Classical.choice` and
  `Quot.sound` (section 8). No `sorry`, no own axiom, no `native_decide`, no `bv_decide`. Mathlib
  is imported in one module only (`Lemmas/Miller`, for Fermat's theorem).
* The reading of the Rust code as Lean definitions (a citation at each definition).
* The reading of the specifications as the English statements of `properties.jsonl`.
* The assumptions about revm, alloy, boa and the standard library of section 4. None of the
  dependencies is in the sandbox.

## 3. Modelled and not modelled

Modelled, function by function:

| file in /repo | model |
|---|---|
| `src/tracing/mod.rs` (TracingInspector, hooks, fuse, builders' entry points, TransactionContext) | `Model/Inspector`, `Model/Changing` (configuration changes), `Model/Replies` |
| `src/tracing/arena.rs` | `Model/Inspector`, `Model/Stored` (serde derive) |
| `src/tracing/types.rs` | `Model/Types`, `Model/Geth`, `Model/Parity`, `Model/Stored` (serde derives) |
| `src/tracing/config.rs` | `Model/Config`, `Model/ConfigChain` |
| `src/tracing/utils.rs` | `Model/Types`, `Model/Geth` |
| `src/tracing/builder/geth.rs` | `Model/Geth`, `Model/State` (prestate) |
| `src/tracing/builder/parity.rs` | `Model/Parity`, `Model/State` (state diff, account codes) |
| `src/tracing/builder/walker.rs` | `Model/Parity` |
| `src/opcode.rs`, `src/tracing/opcount.rs`, `src/tracing/fourbyte.rs`, `src/access_list.rs`, `src/transfer.rs` | `Model/Standalone` |
| `src/tracing/mux.rs` | `Model/Mux` |
| `src/tracing/writer.rs` | `Model/Writer` |
| `src/tracing/js/builtins.rs` (conversions, native functions) | `Model/JsValues`, `Model/JsObjects`, `Model/JsJson` |
| `src/tracing/js/bindings.rs` (guards, memory, stack, contract, database objects, result context) | `Model/JsValues`, `Model/JsGuards`, `Model/JsDb`, `Model/JsResult`, `Model/JsObjects` |
| `src/tracing/js/bigint.js` (making, writing, `negate`, `abs`, `add`, `subtract`, `multiply`, `divide`, `mod`, `compare`) | `Model/BigInt` |
| `src/tracing/js/bigint.js` (`square`, `pow`, `modPow`, `modInv`, `next`, `prev`, shifts, bit operations, `gcd`, `lcm`, `max`, `min`, predicates) | `Model/BigMath` |
| `src/tracing/js/bigint.js` (`isBasicPrime`, `isPrime`) | `Model/BigPrime` |
| `src/tracing/js/bigint.js` (`randBetween`, `isProbablePrime`) | `Model/BigRandom` |
| `src/tracing/js/bigint.js` (`parseValue`, `fromArray`) | `Model/BigArray` |
| `src/tracing/js/bigint.js` (`Integer` with a base, `parseBase`, `parseBaseFromArray`) | `Model/BigRead` |
| `src/tracing/js/bigint.js` (`toBase`, `parseBase` and `compareAbs` for any base) | `Model/BigBase` |
| `src/tracing/js/bigint.js` (`parseStringValue`, `parseNumberValue`, `valueOf`), JavaScript's conversion of texts to numbers | `Model/BigText` |
| `src/tracing/js/bigint.js` (`compare` and the others with plain numbers and texts as arguments; `valueOf` as JavaScript's comparison operators use it) | `Model/BigCompare`, `Model/BigOperators` |
| `src/tracing/js/mod.rs` | `Model/JsInspector`, `Model/JsResult`, `Model/JsJson` |

Not modelled:

* The JavaScript engine. A tracer's program is a shape (which functions it defines) and an arbitrary
  oracle of which callback invocations throw. `register_builtins` is not modelled. The JSON result is
  modelled from the returned value on, a tree; `JSON.stringify` and the parser of serde_json are written
  down from their specifications (`Model/JsJson`), boa's `to_json` is a parameter. The argument objects (`into_js_object`) are lists of named native closures over a heap
  of byte arrays; of the big-integer library only what `Model/BigInt`, `Model/BigMath`, `Model/BigRead`, `Model/BigText`, `Model/BigBase`, `Model/BigPrime`, `Model/BigRandom` and `Model/BigArray` list (`Math.random()` is a parameter).
* `Debug`, `Display`, `Clone`, plain getters and setters, constructors that only store
  their arguments; the writer's `use_colors(ColorChoice)` (the colour flag is an argument).
* Memory use, running time, allocation failure, stack overflow of deep recursion.
* `CallTraceDecodedData` is an input of the writer; nothing in the crate fills it.
* That hooks do not write to the interpreter, the context or their inputs is by the value-passing form
  of the model (read off the source: no hook of an observer assigns to them).

## 4. Assumptions about the dependencies

revm 10

* Hook schedule: `step`, the instruction, `step_end` (also for a failed instruction, and for CALL and
  CREATE instructions, with status `CallOrCreate`, before the sub-frame's hook); `log` and `selfdestruct`
  come after `step_end` of their instruction; `call`/`create` when a frame is entered and
  `call_end`/`create_end` when it is left (also after an inspector's override). If `step` sets a status
  other than `Continue`, the instruction and `step_end` are skipped. Frames of precompiles execute no
  instruction.
* EOFCREATE (revm 10 with the object format) enters frames that are announced by the hooks `eofcreate` and
  `eofcreate_end` only, whose default implementations do nothing; only C96 speaks of such executions, all other
  properties are about executions without EOFCREATE.
* `journaled_state.depth()` at the call hook of a frame is the number of open frames.
* A CALL or CREATE instruction that ends with status `CallOrCreate` enters a frame (`Attached`). Properties with
  this assumption are about executions without EXTCALL, EXTDELEGATECALL and EXTSTATICCALL, of which C107 speaks.
* A warm or cold `SLOAD` adds at most `AccountWarmed`/`StorageWarmed` entries; an effective `SSTORE` adds
  a `StorageChanged` entry.
* `SharedMemory::slice` out of bounds panics (in release builds it is undefined behaviour).
* `InstructionResult` has the variants of revm-interpreter 6/7; `SuccessOrHalt` maps them as in
  `Revm.lean`. `Gas` is `limit`, `remaining`, `refunded : i64`.
* `OpCode::new` knows some set of opcodes (a parameter where it matters).

alloy

* The response types have the fields of the model; `GethDebugTracerConfig::into_*_config` is a parameter
  (parse outcome). `hex::encode` is lower case, `hex::decode` strips one optional `0x`.
* `Delta`, `ChangedType`, `AccountState`, `DiffMode` as in `Model/State`. The EIP-55 checksum of an
  address is a parameter of the writer. What alloy-sol-types does for
  `maybe_revert_reason` (`GenericRevertReason::decode` and the `Display` of a contract error) is a parameter
  (`RevertDecoder`), except for C94, for which `decode` is written out from its documentation
  (Model/RevertReason.lean).

serde, serde_json

* Derived implementations write structs as objects with the names of the fields and enums by the names of their
  variants; `serde_json` writes and reads JSON as in `Model/Stored` and `Model/JsJson`. alloy writes byte strings,
  addresses and hashes as `0x` and all digits, ruint numbers as `0x` without leading zeros. Other notations
  that are accepted when reading are left out.

boa

* Building argument objects does not throw; a callback either returns or throws. `u64 as f64` rounds to
  the nearest double (`f64OfU64`).

Rust

* Integer overflow panics where the code uses `+`, `-`, `*` on machine integers (debug profile); the
  theorems that need it carry the bound (`< 2^64`) or prove that it cannot happen.
* `BTreeMap` iterates in key order; `HashMap` in an arbitrary order, over which the theorems quantify.
* Laws of revm that are hypotheses of single theorems, next to them in `Spec/`: how SLOAD and SSTORE
  extend the journal (`StorageLaw`, C18) and how frames keep their refund counters (`FrameRefunds`, C110).

## 5. Conventions of the model

* `U256 = BitVec 256`, `Address = BitVec 160`, `OpCode = UInt8`; gas and sizes are `Nat`; refunds `Int`.
* The configuration is a separate argument of the recorder `TI` instead of a field.
* The two internal stacks of the inspector have their top at the head of the list.
* Loops over the arena that are not structural take fuel, and running out of fuel is the panic value
  `diverge`; the theorems prove that it does not happen.
* Executions are trees (`Spec/Exec`). `C01_histories` proves that their hook calls are exactly the sequences that
  a watcher of nesting accepts (`Spec/Legal`), so nothing is lost by speaking of trees.
* C01 is split in two conditions: `WF` (nesting, what revm guarantees) and `Safe` (a step that is
  recorded with pushed-items snapshots leaves enough items on the stack); `C01_panic_iff` says that the
  second is exactly what is needed.
* `OMap` is a map by its entries in key order, `AMap` a map that is only looked up and updated.
* The mux model is a list of inspectors with replies; hooks that can replace the result
  return `Reply`.
* The writer's output is a list of glyphs; the sink decides at each write whether and after how many
  glyphs it fails.

## 6. The properties one by one

| id | property | status | model and proof |
|---|---|---|---|
| C01 | Recording never panics on a legal hook history | proved | Hooks as `TI.hook : Config → TI → Event → Except Panic TI`; invariant along prefixes of all well-nested histories; `C01_panic_iff` gives the exact condition. `C01_histories`: the tree view of executions is equivalent to a watcher of hook calls (`Spec/Legal`), by parsing; `C01_panic_iff_hooks` states C01 for such sequences. C01_histories: the hook calls of execution trees, which the properties range over, are exactly the sequences accepted by a watcher that only knows which frames are open. |
| C02 | Pushed-stack snapshots are safe and are the top of the stack | partial | `stackPushCount` and the end-of-step hook; exact success condition. Failed instructions that leave too few stack items make the recorder panic (witness proved); C01_panic_iff says exactly when. |
| C03 | The recorded arena is the call tree | partial | Refinement of the recorder to the pre-order layout of the tree; induction over trees. C03_recorded states the recorded data of every frame. Missing: the node of a DELEGATECALL or CALLCODE frame that selfdestructs shows the destroyed contract instead of the callee (C03_exact, C03_refuted); everything else is as claimed. |
| C04 | Arena links are consistent at every moment | proved | Link invariant from the layout, at the end and after every prefix. |
| C05 | Per-frame ordering is the execution order | proved | Ordering lists resolve to the chronological record of the frame; induction over bodies; at every prefix. |
| C06 | Steps are recorded exactly as configured | proved | Recorded steps are the views of the executed instructions that pass the filter; induction over bodies. |
| C07 | Memory snapshots show the memory before the step | partial | Memory snapshot sharing; induction along a frame. Without an opcode filter, requires that KECCAK256, LOGn, CREATE, CREATE2, EOFCREATE and the EXTCALL family did not expand memory and that DATACOPY did not change it (witnesses of the failures proved). |
| C08 | Storage changes belong to the instruction that made them | partial | Journal lookup at the end of a step. An SLOAD or ineffective SSTORE can report an earlier instruction's change (witness proved). |
| C09 | Delegate calls inherit the value in scope | proved | Nearest non-delegating ancestor as an inductive relation; induction over trees. |
| C10 | Precompile exclusion drops exactly the calls it names | proved | Layouts of a tree and of the pruned tree are compared. |
| C100 | Primes are probable primes | proved | The loop is followed with C81's arithmetic and C99's bounds, which gives Fermat's test; primes pass by Fermat's theorem (from Mathlib). C100_exact: the outcome is Fermat's test for the numbers drawn. C100_refuted: other numbers may be probable primes, 341 if all random numbers are zero; this is not part of the property. Iterations are natural numbers or left out. |
| C101 | Big integers are read back to any base | partial | The loop of toBase is followed with C81's arithmetic: quotient and corrected digit give the number back, and the measure 2|n| (plus one if n is negative) falls; digits to a base are unique, so this fixes the text. Reading goes digit by digit with C83 for the numbers in brackets. Digits from 2^53 on are the arrays of the library (groups), whose commas make the text unreadable; refuted with such a digit. C101_exact: for every base but those from -1 to 36 the integer is written with its digits, and the text is read back as the integer if no digit is 2^53 or more and rejected otherwise; so all bases up to 2^53 in size round trip (C101_roundtrip_partial; bases from 2 to 36 are C82). C101_writes and C101_reads state the text; C101_rejects and C101_other_characters: digits that are too large and characters that are no digits throw; C101_unary: bases 1 and -1, where integers from about 2^32 on throw; base 0 has no digits (C101_zero). Missing, because false: digits from 2^53 on are written as arrays and cannot be read back (C101_refuted). |
| C102 | The stack can be replayed from a vmTrace | partial | The EVM's handling of the stack between consecutive instructions is a hypothesis with its own table of operands (Spec/StackReplay.lean); by C80_exact the entries show the counted topmost items, so induction over the instructions either keeps the recomputed stack equal or, after an opcode whose result is not shown, shorter. C102_replay_partial: frames without calls, creates, TLOAD, BLOBHASH and BLOBBASEFEE; C102_exact: the stack before an instruction is recomputed exactly if none of these came before it in its frame. Missing: the results of calls and creates are never shown as pushed (C102_refuted). |
| C103 | Call frames name the accounts involved | partial | What the EVM fills in when a frame is entered is a hypothesis (Spec/Accounts.lean). The call-frame tree of C20/C21 is walked by induction over the execution; membership of the SELFDESTRUCT frames through their positions. C103_accounts_partial: who made a frame and which account it executed as are always right. C103_exact: to is wrong exactly for DELEGATECALL and CALLCODE frames in which a selfdestruct was reported (of code at another account), and a SELFDESTRUCT frame shows the caller of the destroyed contract as from (C103_refuted). |
| C104 | log.contract describes the frame that executes the instruction | partial | The environment of a frame (what ADDRESS, CALLER, CALLVALUE and CALLDATACOPY give) is a specification of its own (Spec/JsContract.lean); the instructions with their frames are aligned with the step callbacks of C63 by induction over the execution, then each method is compared for every kind of frame. Right for all instructions in frames of CALL and STATICCALL. In frames of DELEGATECALL and CALLCODE getAddress is the account whose code runs, in those of DELEGATECALL getCaller is the executing account and getValue 0, in creations getInput is the init code; C104_exact says for every instruction which of the four are right. |
| C105 | The configuration can be changed while recording | partial | `TI.runWith` runs each hook with the configuration of its moment; `CTx` is an execution with a configuration for each instruction, log, frame entry and frame end. The closed form of the recording (`ownC`, `newNodesC`) is proved by induction over the frame body as for one configuration; `itemsC` says what is to be recorded. For the memory an induction over the recorded instructions shows when the shared memory is the right one. Two concrete refutations. Proved for any configuration at each instruction, frame entry, frame end and log, changed between instructions: no panic, all frames with their data, and the record of each frame is what the configuration of the moment asks for. The memory is right exactly if it did not change between two successive recorded steps of which the second takes the memory of the first; refuted in general, because steps that were not recorded in between (recording paused over an MSTORE) are not considered. Also refuted for changes between the two hook calls of an instruction: switching steps on there panics. |
| C106 | A recording can be stored as JSON and read again | partial | `Model/Stored` writes out the derived serialization of every type of a recording and serde_json's writer; the parser is that of C79. Each decoder is proved to invert its encoder; the text of a JSON value with 64-bit integers and different keys is proved to be parsed as it by induction over the value, and recordings are shown to be such values of depth at most 10 (the parser allows 127). For executions the recorded opcodes are those of the executed instructions (C05's lemma). Proved for every arena whose numbers have 64 bits (as their Rust types say), down to the JSON text: writing and reading never fails, and what is read is the arena with the unknown opcodes of its steps replaced by INVALID and nothing else changed; so it is the same exactly if every recorded opcode is known to revm. Refuted for a recorded unknown opcode. |
| C107 | Calls made with EXTCALL, EXTDELEGATECALL and EXTSTATICCALL are shown like other calls | partial | `MadeByCalls` (`Spec/ExtCalls`) says which executions are meant; it is C72's `Attached` with the three further opcodes. From C72_exact: in what is listed for a frame every instruction of these opcodes is followed by one that is not deeper (induction over the instructions and frames), whereas in the execution some such instruction is followed by a deeper one if its frame executes anything. From C29_exact: traces are handed out to CALL- and CREATE-like instructions only. The access list: induction over the hook calls. Proved for executions without frames entered by these instructions. C107_never: with such a frame that executes anything the struct logs are always wrong. C107_vm_exact: such an instruction never has a sub-trace. C107_access_exact: such instructions never contribute to the access list. Three witnesses. |
| C108 | A small inspector used for several transactions reports what separate ones would | partial | The measures of C35-C39 are shown to add up over concatenated histories (induction over the hook calls); for the opcode gas the charge of an instruction that still waits for its end is an extra term, which is shown to vanish for histories of transactions in which every instruction ends or is known (no transaction begins with the end of an instruction). Proved in full but for the opcode gas, where it requires that every instruction ends or that revm knows all opcodes that start; C108_opcode_gas_exact says what is charged in any two histories, and the witness shows gas charged to an instruction of the first transaction when one of the second ends. |
| C109 | A request is answered alike from every recording that holds what it needs | partial | From C66_options_only_add: two recordings restrict to a common one. `gethTraces` and `vmTrace` of the restriction are the restriction of `gethTraces` and `vmTrace` (`onlyOf`, `vmOnly` of `Spec/Suffices`; induction over the loops), and the options already take away what the configuration made for them does not record. Struct logs depend on nothing but what the options need (full); the vmTrace on nothing else but for the storage entries, which the configuration made for it does not record (C109_refuted_stores). TracingInspectorConfig::all() records neither storage changes nor pushed items (C109_all_exact, C109_refuted_all). The exact theorems say what is missing from the answers for every configuration. |
| C11 | Gas limit and gas used of the root frame are transaction-level | partial | Root gas after the end hook against the yellow-paper refund rule. Non-negative refund counter required; for a negative counter the code's result is wrong (witness proved). |
| C110 | The refund counter shown is that of the transaction | partial | The transaction's counter as a function of the execution tree (`Spec/Refund`), which failed calls restore; revm's counters per frame as a law; induction over trees. C110_refund_partial: all instructions of the root frame, and those of other frames if no frame around had collected a refund when it called. Missing: what the callers have collected is left out, and a frame that takes refunds away shows a number near 2^64 (C110_refuted). C110_exact says for every execution what is shown and when it is right; C110_js the same for getRefund of step callbacks. |
| C111 | Only functions are counted by their selectors | partial | The functions called, as a count over the frames of the execution tree (`Spec/Selectors`); the count of the hooks splits into these and the calls of precompiles. C111_selectors_partial: transactions in which no precompile is called with four bytes of input or more. Missing: such calls are counted as calls of functions (C111_refuted). C111_exact: the counts of every execution, and that they are right exactly in these transactions. Counts below 2^64. |
| C112 | The access list is complete | partial | The accounts and slots an instruction accesses, from EIP-2929, EIP-7069 and EIP-7702 (`Spec/Accesses`); from the exact contents of the list (`C38_exact`) by cases on the opcode. C112_complete_partial: executions without EXTCALL, EXTDELEGATECALL and EXTSTATICCALL in which no called account delegates to another. Missing: the accounts these instructions call (C112_refuted) and the accounts delegated to (C112_refuted_delegate) are not in the list. C112_exact: exactly when the list is complete. |
| C113 | Failed frames are not shown as done | partial | From the frame-by-frame description of both results (C20, C28) by cases on the outcome and the header of the frame; the claims a failed frame must not make are in `Spec/Failed`. C113_failed_partial: transactions in which no creation fails and frames that fail other than by a revert have no data. Missing: failed creations are shown with the account, by parity also with code (C113_refuted). C113_exact: exactly when the traces claim nothing of failed frames. onlyTopCall off (C23 covers it). |
| C114 | Balances can be followed from call frames and from parity traces | partial | Model: the recorder and the two builders (C07, C19, C20). Specification (`Spec/Followed`): a reader who finds the payments in call frames or traces and skips what failed, by the tree of frames or by the prefix order of the trace addresses; and the balances of `Spec/Ledger`. Proof: induction over the execution; the addresses of the traces below a frame extend its own, siblings' do not extend each other, so that a failed trace takes with it exactly what is below it. Proved for the parity traces, of every execution including failing frames, selfdestructs and precompiles; for the geth call frames of executions without selfdestructs. Refuted for call frames with selfdestructs: the SELFDESTRUCT frame names the caller of the destroyed account as the one that pays. C114_call_frames_exact: for every execution, selfdestructs included, by how much the call frames are wrong for each account, and so when they are right. |
| C115 | A database that fails is reported, and does not change the answer | partial | `Spec/Unreliable` says what it means that one database is another one some of whose reads fail. Proved by induction over the state map (state diff, prestate) and over the queue of the breadth-first search (vmTrace): every account and code that is read successfully is the one of the database that does not fail, and every other read ends in an error, except those of `load_account_code`. Proved: for two databases, one of which is the other except that any of its reads fail, whatever reads those are: the codes of a vmTrace that are filled in without an error are those of the database that does not fail (full); so are both modes of the prestate trace and the answer to any parity request, if the codes that are not loaded with the accounts can be read. Missing because the code violates it (C115_refuted): if reading a code fails, the prestate shows the contract without code and the state diff says that it was created with no code, without an error. C115_prestate_exact (default mode), C115_prestate_diff_exact (diff mode, if no created account had code before) and C115_state_diff_exact: the answer is wrong exactly if code is lost in this way. |
| C116 | Big integers are read from hexadecimal, octal and binary literals | partial | `parseText` (the model of parseStringValue, with StringToNumber of ECMAScript) against positional notation (`announced`, `Spec/BigPrefix`). Small literals are converted to numbers. For large ones: the letter stays in what is tested for decimal digits, whatever the splitting at e and the removal of a point do. Proved: every hexadecimal, octal or binary literal (0x, 0o, 0b in either case) that denotes an integer below 2^53 is read as that integer. C116_exact: every other text without white space that begins so is rejected, whatever follows, also where it contains an e that is taken for an exponent. Missing because the code violates it: literals from 2^53 on, such as addresses and words, are rejected (C116_refuted), and so are those with a sign (C116_signed). |
| C117 | Big integers are made of their digits | partial | Model: `Model/BigArray` on top of the arithmetic (C80, C81) and of reading numbers and texts (C83, C84). Specification (`Spec/BigArray`): the sum of digits times powers. Proof: induction over the digits with the exactness of `add` and `multiply`. C117_digits_partial: for digits and a base that stand for any integers (also negative ones, or digits larger than the base), given as numbers, texts or big integers, the result is the sum of the digits times the powers of the base. C117_exact: a base that JavaScript takes for false (0, NaN, empty text) is taken for ten, and the whole is rejected if a digit or the base is. C117_roundtrip: from the digits of an integer the same integer is made. Missing because the code violates it: the base 0 as a number (C117_refuted). Arguments other than numbers, texts and big integers are not modelled. |
| C118 | The limit on struct logs is kept | partial | Model: `GethOptions.limit`, which no function of the model reads, as no code does. Specification: the first entries of the executed instructions in order (`keepFirst`). Proof: from C16 and the lengths of the lists. C118_limit_partial: executions of no more instructions than the limit. Missing because the code violates it: nothing reads the limit, so all instructions are listed (C118_refuted); C118_exact: the logs are right exactly if there are no more instructions than the limit. |
| C119 | Transfers are listed in the order in which value moved | partial | Model: `transferHook` (C39). Specification (`Spec/Moved`): transfers in the order of entering frames. Proof: induction over the execution; a list followed by an entry is the entry followed by a permutation of the list only if the list is empty or the entry is repeated. C119_order_partial: executions in which no value moves while a creation that reports an account is running. C119_exact: every transfer is listed as often as it was made, and (if no two are the same) in the right order exactly in these executions. Missing because the code violates it: a creation is listed after all that moved during it, so that contracts seem to pay before they receive (C119_refuted). |
| C12 | Gas-used arithmetic is safe and tight | proved | `gas_used` for every fork: bounds and monotonicity by arithmetic over all naturals and integers. |
| C120 | An inspector that records a second transaction shows the second transaction | partial | Model: the recorder (C01). Specification (`Spec/Unfused`): the two recordings in one arena, the frames of the second moved behind those of the first, a shared root. Proof: a simulation between the separate and the shared recording that every hook keeps. C120_plain_partial: after a transaction whose root did nothing. C120_when: of two transactions the recording is that of the second exactly if the first entered no frame and recorded no step and no log. C120_exact: what any number of transactions leave in one recording. Missing because the code violates it: without fuse() the frames of earlier transactions stay below the root of the later one (C120_refuted). |
| C121 | A JavaScript tracer that watches several transactions hears of each what it would hear of it alone | proved | Model: `JsInsp` (C50). Proof: every hook commutes with having heard callbacks before (the exceptions being renumbered), and C50_exact says that a transaction leaves no other trace in the inspector; induction over the transactions. For every tracer (which functions it defines, which of its callbacks throw) and any number of transactions. What the tracer itself remembers from one transaction to the next is its own affair. |
| C122 | What was recorded stays recorded while the transaction goes on | proved | Model: `TI.hook`. Specification: Spec/Growing.lean (open frames from the hook calls, when a node continues another). Proof: an invariant by induction over the hook calls (the trace stack holds the open frames; those that may call others are a chain of last children; the step in progress is the last one of the innermost frame), and a relation between the arenas of two moments that is preserved by every hook call and is transitive. For every configuration and any two moments of any legal history (several transactions included, as long as the later moment is in the same transaction as the earlier one; a further root replaces the root node, which is the subject of C120). Which frames are open is computed from the hook calls alone. |
| C123 | A state diff that could not be completed is not wrong, and does not spoil the next attempt | partial | Model: `populateLeaves` (beside `populateStateDiff`, with which it is proved to return the same). Proof: the failing iteration is located by induction over the accounts; for the second attempt, an iteration is shown to make the same of an absent entry, of an empty one and of one that any attempt completed, and the rest follows by induction with the lookup lemmas of sorted maps. Refuted as stated: an account that could not be read is left in the diff as unchanged (C123_refuted). C123_exact says for every database, state and order of iteration what is left behind; C123_true_partial says that every other entry is the one of the complete diff (the codes of created accounts being readable, see C115); C123_again holds for all pairs of databases and all states. |
| C124 | A trace writer whose sink failed can be used again | partial | Model: the writer of C51, which keeps its state when it fails. Spec: `StopsIn`, a place in the lines of the text and the level there. Proof: the induction over documents of C51 again, with the relation between what was printed and the indentation after a failure; the text at another indentation is the same lines at other levels, and longer. Refuted as stated: after a failure behind the first line the next trace is written too deep (C124_refuted). C124_exact says for all traces, sinks and settings where the writer is left; C124_next, by how many levels the next trace is too deep, and that it is right exactly if the indentation was left unchanged; C124_early_partial, that this is so if flushing failed or the first line was not completed. |
| C125 | The call tree can be read from the text of a trace | proved | Model: the writer of C51. Spec: `SeenTree`, what is to be seen of an execution. Proof: without decoded information the text is that of a list of lines without line breaks, computed from what is seen; lines are cut apart at the breaks, and by induction over two trees at the same level each line tells what comes next; numbers, words, bytes, addresses and statuses are determined by their texts. For all pairs of transactions, configurations and settings: the texts agree up to colours if and only if what is to be seen of the executions agrees. Hypothesis: the text of an address is 0x and its forty hexadecimal digits in either case (alloy). Traces with labels, decoded calls or decoded logs are outside, as these texts are arbitrary. |
| C126 | The gas shown for an internal call is what was spent in it | partial | Model: `newStep` (the used gas of a step), `gas_used`, the writer of C51. Spec: `spentBefore` and `givableBefore` of an instruction. Proof: the recorded steps of a frame are those of its instructions (C06), decoded information leaves the used gas as it is, and arithmetic; the refutation is the text of a transaction with three internal calls. Refuted for internal calls during which the refunds of the frame change. Exactly: the number shown is the difference of what was spent, each less what refunds could give back at that moment; it is right if and only if this part is the same at both ends (or nothing was spent). Partial theorem: with a refund counter of zero at both ends. That the number in brackets in the text is this one is C51. |
| C127 | The frames can be told apart in the struct logs | proved | Model: `gethTraces` and the recorder as in C16 and C72. Spec: `StepTree` (instructions with those of the frame they enter), `StepTree.cut` (reading a list by its depths), `txSteps` (the tree of an execution). Proof: C72 gives the list; by induction over the execution the list is the tree written in order, with depths that grow by one per level; by induction over such trees, cutting the list gives the tree back. For all options of geth_traces and all configurations that record the six CALL- and CREATE-like opcodes and leave out no frame (also with an opcode filter); what is listed otherwise is C72. Hypothesis `Attached`: a sub-frame is entered by the call instruction right before it, as in revm. |
| C128 | Decoded texts cannot forge lines of a trace | partial | Model: the writer of C51. Spec: `cutLines` (the pieces between line breaks), `Doc.shown` (the decoded texts that are printed), `decodedTexts` (all of a node). Proof: by induction over the document a line contains a line break exactly if one of the decoded texts in it does; cutting the printed lines gives them back if none does, and there are as many pieces as line breaks at least. The refutation compares the texts of two transactions. Refuted for decoded texts that contain line breaks, which are printed as they are: two transactions, one with and one without a payment, have the same text (C128_refuted). C128_exact: the lines of the text are those of the trace, one for one, if no printed decoded text contains a line break, and more otherwise. Without decoded information it always holds (C125). Texts of addresses as in C125. |
| C129 | Results can be built from every recording that is read | partial | Model: `Stored.read` and `Stored.write` of C106 and the builders of C73. Proof: inversion of the readers, field by field, gives that numbers fit and opcodes are known; the converse is C106. Written recordings keep their links (C04), from which the builders succeed (C73). Two recordings whose nodes refer to each other wrongly refute the rest; one of them makes the loop of `trace_address` go on for every number of rounds. Refuted: reading checks the types only, not the links between the nodes, so texts are read without an error from which the flat traces panic or are built forever. C129_exact: what can be read is exactly what has numbers of 64 bits and known opcodes, and it can be written and read again unchanged. C129_written_partial: for texts the library wrote, all results can be built. Forms of JSON that are accepted but never written are modelled as far as said in Model/Stored. |
| C13 | A fused inspector is a new inspector | proved | State after `fuse` is the initial state; witnesses for reuse without it. |
| C130 | The storage shown in the struct logs is what the contract holds | partial | Model: the recorder and `geth_traces` of C18. Spec: `ctxAfter`, `SlotLaw`, `NothingUndone`, in terms of the states before and after the instructions. Proof: by induction over the executed instructions the value last written to a slot is what it holds; the maps are those of C18. The refutation is a transaction with a reverted call. Refuted where a frame that wrote was reverted: its values stay in the maps of later logs (C130_refuted). C130_held_partial: executions in which nothing is undone, with the proviso of C18 about ambiguous accesses. C130_held_or_undone: a value that is shown and not held was the last one written and was undone since. What is shown in every execution is C18_exact. |
| C131 | Big integers are compared and combined with plain numbers and texts as numbers are | partial | Model: `Big.compareArg`, `Big.compareWith`, `Big.calculate` in `Model/BigCompare`: the infinities first, then `parseValue` (C83, C84) and the methods of C77. Spec: `Asked`, the order of rational numbers, and `Mixed`, expressions over integers. Proof: from C83 and C84 the value given is an integer; rounding is monotone, so what is not rounded to a number lies on the same side of it as of its shortest digits. C131_exact gives the answer of the six comparing methods for every number and decimal literal. It is right for integers below 2^53, the infinities, and for larger numbers if the big integer is not rounded to them (C131_right_partial); arithmetic is right with such numbers and with texts that are read (C131_arith_partial). Missing: from 2^53 on numbers are compared by their shortest digits, so that the big integer 2^60 is not equal to 2**60, and comparisons with fractions throw (C131_refuted). |
| C132 | Chained configuration calls: what was asked last is what is recorded | proved | Model: `ConfigMethod.run` and `Config.chain` in `Model/ConfigChain`, over the methods of `Model/Config`. Spec: for each option what each method asks for (`asksSteps`, ...), and `LastAsked`. Proof: induction over the chain from its end; the recording by C05, C06 and C08. For every chain of the seventeen methods from every configuration, and what an inspector with it records of every transaction. What leaving out calls of precompiles means for the recording is C10; what is in the storage changes is C08. |
| C133 | Big integers are compared by operators as the integers are | partial | Model: `CompareOperator.apply` in `Model/BigOperators`, the operators of ECMAScript on what `valueOf` returns. Spec: `OperatorAsks`, the order of rational numbers, `NearestTo`. Proof: C97 gives the nearest double; what is nearest keeps the order. C133_exact: the operators compare the nearest doubles; C133_right_iff says for each operator exactly when the answer is right. It is right for all integers that are doubles, and an answer that one side is greater is always right (C133_right_partial). Missing, because false: different integers with the same nearest double are taken for equal, and == of two big integers compares objects, so that bigint("5") == bigint("5") is false (C133_refuted). The operators themselves are those of ECMAScript. |
| C134 | A recording of several transactions can be printed | partial | Model: `Model/Writer`, `Model/Inspector`. Spec: `LeadsTo`, `Refers`, `Printable` in `Spec/WriterAny`, the text as in C51. Proof: by induction on the distance from the end of the arena a node is printed as a document or the writer fails; for several transactions the arena of C120_exact is looked at, the documents are joined. C134_any: for every arena with undecoded steps exactly when it is printed and when the writer panics. C134_unfused: of several transactions recorded without fuse() the arena is printed exactly if none recorded more steps in its root than the last one. C134_text: what is printed then. C134_two_partial is the part that holds for two transactions. Missing, because false: a longer transaction before a shorter one makes the writer panic (C134_refuted). |
| C135 | What the geth builders return after a transaction is about that transaction | partial | Model: `Model/Geth`, `Model/Inspector`. Spec: the results for the single recordings, `frames` and `joinBody` (one body after another). Proof: the arena of C120_exact has the links of the joined bodies; the roll-up over a body (lemma of C20) is applied to it, by induction over the transactions; for the logs the search for a failed ancestor is shown to give the same in the shared arena as in the single ones; selfdestructs are taken out of what the roll-up gives for an arena of this shape with any selfdestructs; for the struct logs two arenas with the same traces and children are followed in step. C135_call_frames: exactly what geth_call_traces without logs returns for any number of transactions in which no root and no first frame below it selfdestructs. C135_apart_from_selfdestructs: for any transactions the same, apart from the frames of selfdestructs. C135_selfdestructs: the frames of selfdestructs are, in some order, those of all calls below a root and that of the last root. C135_logs: as C135_call_frames with logs; each transaction shows the logs it would show had it ended as the last one did. C135_when: for two of them it is the result for the second alone exactly if the first entered no frame. C135_two_partial: in that case the struct logs are right too. Missing, because false: after a transaction with calls both show calls of the earlier one (C135_refuted), and logs of an earlier root, even a reverted one, are shown as logs of the last account (C135_refuted_logs). Not stated: below which frame the selfdestructs of roots and of first frames are shown; the formula with them fails (C135_refuted_selfdestruct). |
| C136 | The parity traces after a transaction are those of that transaction | partial | Model: `Model/Parity`, `Model/Inspector`. Spec: the traces of the single recordings, joined by `joinTraces` (one root and its selfdestruct, those of the second; the traces of the calls of the first; those of the second with the first number of each path raised by the calls of the first), and `shownCalls`. Proof: over the arena of C120_exact the address walk from a frame of the first transaction is unchanged and from one of the second is moved (induction over the walk); then induction over the transactions. C136_traces: exactly what into_transaction_traces returns for any number of transactions. C136_when: for two of them it is the result for the second alone exactly if the first shows no call. C136_last_partial: the same direction for any number. Missing, because false: after a transaction with calls the traces show them too and the paths are others (C136_refuted). |
| C137 | The vmTrace after a transaction is that of that transaction | partial | Model: `Model/Parity`, `Model/Inspector`. Spec: the result for the single recording. Proof: by induction over the earlier transactions the arena stays one root without children; by C120_exact the last one gives its own arena, except for the logs of the root; and no parity builder looks at logs (induction over each loop). C137_alone_partial: any number of earlier transactions that entered no frame; then the vm trace, the traces of all requested types and the results with state are those of the last transaction alone. Missing, because false: after a transaction with calls the vm trace shows the instructions of an earlier callee (C137_refuted). |
| C138 | A mux frame is about the transaction that was executed last | partial | Model: `Model/Mux`, `Model/Standalone`, `Model/Geth`. Spec: the entries of the frame that a new mux gives for each transaction (`MuxGives`). Proof: C42_independent reduces each entry to its tracer alone; the four-byte counts add up by C37_frame and C37_keys, the call frames by C135_call_frames and C135_logs; the prestate and noop traces do not depend on the history. C138_state_partial: the entries of the prestate and noop tracers do not depend on what the mux was used for before. C138_fourbyte: the counts of the four-byte tracer are the sums over all transactions (below 2^64). C138_calls: the call tracer, without logs and if no root and no first frame below it selfdestructs, reports the root of the last transaction with the calls of all of them. C138_apart_from_selfdestructs: for any transactions the same, apart from the frames of selfdestructs. C138_logs: as C138_calls with logs, if no transaction failed. C138_logs_ended: the same for transactions that end differently, where calls and logs are those of each transaction had it ended as the last one. Missing, because false: calls and counts of earlier transactions are reported too (C138_refuted). Not stated: where the selfdestructs of roots and of first frames are shown, nested muxes (C42_nested reduces them to their parts). |
| C14 | Recorded logs name the emitting contract | proved | Logs of a node and the executing address; refinement and induction. |
| C15 | Inspectors are observers | proved | `Model/Replies`: every observer returns the unchanged outcome; all hooks of all inspectors. Hook return values; that the hooks do not modify their interpreter, context and input arguments is by the value-passing form of the model. |
| C16 | Geth struct logs are the executed instructions in execution order | proved | Work-stack loop of `fill_geth_trace`; induction over trees with a general stack. |
| C17 | Struct logs honour the tracing options | proved | Composition of `from_geth_config`, the recorder and the struct-log builder. |
| C18 | Struct-log storage is the accumulated storage of the contract | partial | Storage accumulation along the chronological list, against the changes the EVM made (`Spec/Changes`); a contract shown with a slot of the contract it called is proved. C18_storage_partial: executions in which no SLOAD or SSTORE that journals nothing runs while the journal ends with an earlier change. Missing: otherwise the slot of another contract can appear (C18_refuted). C18_exact says for every execution what is shown. |
| C19 | Struct-log error and return data describe the step | partial | Error and return data of struct logs. Instructions that enter a frame carry the error CallOrCreate, and return data is the frame's final output (witness proved). |
| C20 | Geth call frames form the call tree | proved | `geth_call_traces`: frames and roll-up loop; the result is the specified tree. |
| C21 | Selfdestruct frames sit under the frame that selfdestructed | partial | Placement of selfdestruct frames by the roll-up loop. Exactly one frame per selfdestruct always (C21_once); placed under the frame entered just before. C21_exact: that is the documented place if and only if every selfdestructing frame below the root was the first one its parent called (witness of the contrary proved). |
| C22 | Call-frame logs appear iff the frame and all its ancestors succeeded | partial | Logs of frames with a failed ancestor. A failed root still shows its own logs (witness proved); all other frames are right. |
| C23 | onlyTopCall yields the root alone | proved | Option `onlyTopCall`. |
| C24 | Parity trace addresses are the paths of the call tree | proved | Path computed by walking parents is the unique path from the root; follow-the-path specification. |
| C25 | Parity subtraces counts the emitted direct children | proved | Number of attached sub-calls. |
| C26 | Parity traces come in depth-first order | partial | Order of localized traces against depth-first order. The order is depth-first exactly when no frame that ran SELFDESTRUCT has attached sub-calls (proved as an equivalence); otherwise the selfdestruct trace comes before the sub-calls' traces (witness proved). |
| C27 | The two parity entry points agree | proved | The entry points give the same list, for all arenas and for all executions. |
| C28 | Parity result and error reflect the frame outcome | proved | Action, result and error of a trace by frame kind and outcome. |
| C29 | vmTrace nests sub-traces under the instructions that made the calls | partial | `make_vm_trace` loop with its queue; refinement to the nested trace of the tree. Proved when only first sub-frames call further, nothing is left out and the STOP special case does not apply; three witnesses show that each condition is needed. C29_exact says for every execution which trace is attached where. Absence of panics is proved in full. |
| C30 | Populating vmTrace bytecodes is safe and hits the right frames | partial | `populate_vm_trace_bytecodes`: queue loop over addresses; absence of panics; the order of the queue is the breadth-first order of the paths, so the k-th sub-trace gets the code of the k-th shown frame by trace address. Absence of panics, and exactly which code every sub-trace gets, are proved without conditions (C30_exact; C30_populate for any trace and addresses); that this is the code of the frame whose steps it lists holds under the conditions of C29 (witness of the failure proved). |
| C31 | The breadth-first walker visits every attached frame once | proved | Queue invariant: the walk lists every attached frame once, by depth, siblings in call order. |
| C32 | State diff reports exactly the changed accounts | proved | Lookup characterisation of the parity state diff on accounts and slots; errors; iteration order irrelevant. |
| C33 | Prestate (default mode) reports the accounts as before the transaction | proved | Lookup characterisation of the prestate; errors; iteration order irrelevant. |
| C34 | Prestate diff mode reports the differences | partial | Lookup characterisation of the diff mode. Exactly what is listed is proved without conditions (C34_exact). That unchanged accounts are not listed needs their code to be loaded; the witness shows an unchanged contract listed otherwise. |
| C35 | Opcode gas statistics are exact | partial | Fold over the history; totals per opcode against the list of executed instructions. Proved for all histories whose totals fit in 64 bits and in which every instruction ends or has an opcode revm knows; witnesses show nested calls whose summed gas overflows, and gas charged to an instruction that was never executed. C35_exact says for every sequence of hook calls, also with instructions that never end, when it overflows and what is reported otherwise. |
| C36 | The opcode counter counts every instruction | proved | Count equals the number of steps. For histories of fewer than 2^64 instructions. |
| C37 | Four-byte statistics are exact and keys do not collide | proved | Counts per key against the call list; frame conversion. For counts below 2^64. |
| C38 | The access list is the provided one plus what was touched | partial | Access list as a set against the provided list and the touched slots; order of the result. Proved for provided lists without repeated addresses; the witness shows slots lost otherwise. |
| C39 | Transfers are exactly the value movements | proved | Transfer list against value-carrying calls, creates and selfdestructs in order. |
| C40 | An opcode filter is the set of enabled opcodes | proved | 256-bit word as a set of opcodes. |
| C41 | Config presets request what the trace types need | proved | Case analysis over the options; setters commute. |
| C42 | Mux runs its tracers independently | proved | Mux runs every inspector as it would run alone, also nested. For configurations without repeated tracer types (they come from a map), nested ones included. |
| C43 | Mux configuration is validated exactly | proved | Validation outcomes and error values of the mux configuration. |
| C44 | Memory chunks are lossless | proved | Chunks decode to the memory; injective. |
| C45 | Opcode serialization round-trips | partial | Serialise then deserialise. Opcodes revm does not know come back as INVALID (proved). |
| C46 | JS address and hash conversions | proved | Address and hash conversions of byte strings of any length; induction over the bytes. |
| C47 | JS handles die with their hook | partial | Guarded references as cells of a heap; any interleaving of callbacks and reads. Reads through a stale handle see nothing; `length` gives exactly the length captured when the handle was made (witness). |
| C48 | JS memory and stack accessors check bounds | partial | Bounds checks of `peek`, `getUint`, `slice` over all doubles. peek for every number but NaN; getUint below 2^64 - 32; slice only for ranges that end at the end of the memory. The code violates the rest (C48_refuted). |
| C49 | isPrecompiled is available to JS tracers | partial | Callability of the precompile predicate over all histories. isPrecompiled is never registered, for any history (proved); the closure itself is right once registered. |
| C50 | JS enter and exit callbacks pair up and the call stack is balanced | partial | Callbacks along an execution against the specification of enter/exit pairs. Proved for tracers that define enter whenever they define exit and while enter does not throw for a call; both exceptions have witnesses. |
| C51 | Writer prints the call tree | partial | Writer as a state machine on glyph output; recursion over the arena; specification by documents and lines. The text is proved for every recorded arena with any decoded information, and exactly when the writer panics; it panics for internal calls with a common end and for an arena of two transactions without a fuse in between, and a failed write leaves the indentation raised (witnesses). |
| C52 | Setting the transaction gas changes the root gas only | proved | Setter against all other fields of the arena and against the built parity traces. |
| C53 | Error text classification | proved | Error texts by instruction result, pairwise distinct. |
| C54 | A node is a selfdestruct exactly when it executed one | proved | Selfdestruct predicate. |
| C55 | Pushed-item counts match the EVM | partial | Push counts against the stack effect of all opcodes, in legacy code and in the object format. TLOAD, BLOBHASH and BLOBBASEFEE are counted as pushing nothing (proved), and so are seven opcodes of the object format (C55_object_format). |
| C56 | Callers are exactly the frames' callers | proved | Callers of the arena. |
| C57 | Destroyed accounts are reported in the prestate diff | partial | Destroyed accounts in the prestate diff. Proved when the balance, the nonce or a slot changed as well; otherwise the account is dropped (witness). |
| C58 | JS hex round trip | proved | Hex conversions. |
| C59 | JS database accessors reflect the current state | partial | Database object against the current state. getBalance/getNonce for changed accounts; getState, getCode and exists differ from the current state, and getCode adds 33 zeros to analysed code (witnesses). |
| C60 | A JS tracer is accepted exactly if its functions can be called | partial | Constructor checks. All checks but that fault is callable (witness). |
| C61 | fault reports every failed instruction | partial | `fault` invocations along an execution. fault is called for reverting instructions of tracers with step; halts, tracers without step, a fault that is an object but no function, and pc/op are wrong (witnesses). C61_exact gives the exact list of fault callbacks of every execution. |
| C62 | The result context describes the transaction | partial | Result context against transaction and outcome. All fields but the intrinsic gas, which is always 0; C62_exact says for every value what the number fields show (exact if and only if a double holds it, at most 2^64). |
| C63 | step is called once per started instruction with the interpreter's data | partial | Step objects against the executed instructions. All fields but the cost, which is the gas spent so far (witness). |
| C64 | A JS tracer changes the execution only by throwing | partial | Replies of the JavaScript inspector's hooks for every program (oracle of exceptions). Without an exception a hook only watches; an exception in step, in enter of a create and in exit of a frame becomes a revert carrying it. Exceptions in fault and at a selfdestruct are ignored, and one in enter of a call is a panic (todo!) (C64_refuted). C64_exact: for every tracer, state and hook, when the EVM is answered with a revert and when the hook panics. |
| C65 | Colours change nothing but colours | proved | Relation between coloured and plain run of the writer. |
| C66 | Recording options only add | proved | Simulation between the runs with two configurations over arbitrary event lists; builders commute with removing steps and logs. |
| C67 | Geth call frames and parity traces of one recording describe the same frames | proved | Both outputs are functions of the frames (C18, C24); the preorder of the call-frame tree is matched with the located frames by induction over the execution. |
| C68 | The counting inspectors agree with the recording | proved | Weights of actions and headers summed over the frames equal sums over the hook history; the nodes give the same sums (C03, C06). |
| C69 | Transfers of calls agree with the recorded calls | proved | Transfers of the execution filtered to calls equal the transfers on entering the frames in preorder; nodes read the same data (C03). |
| C70 | Methods of the JS argument objects report what they are named after | partial | Objects as named closures over a heap of arrays; invariant over arbitrary sequences of tracer operations (calls, allocations, writes). All methods, all data and all code that does not write to the array getInput/getOutput of the same object gave and leaves the global bigint alone; numbers exactly if they have at most 53 significant bits. Witnesses for the array, the global and a number. C70_exact: what every method gives whatever the code before it did. |
| C71 | toContract and toContract2 name the contract that would be created | partial | Case analysis over the conversions of the arguments; the hash functions are parameters. All but that numbers that are no nonce (negative, NaN) do not throw (witness); C71_exact says which nonce is used for every number. |
| C72 | Struct logs list exactly the recorded instructions, whatever is recorded | partial | The loop of `fill_geth_trace` refines a weave of each frame's recorded instructions with the lists of its shown calls; induction over the tree with a general work stack and storage map. Exactly what is listed is proved for every configuration; it is the order of execution if every CALL- and CREATE-like opcode is recorded and no frame is left out. Otherwise recorded instructions of sub-calls are lost or listed after another call (witnesses). |
| C73 | Results can be built from any recording, complete or interrupted | proved | From the link invariants of C04 (which hold after any event list): induction over the height of the subtree below a node, with the steps, visits and frames of a subtree bounded by those of the arena; parents decrease along `trace_address` and the roll-up. For arbitrary event lists, from the link invariants of C04 alone; the writer is not among the builders (C51). |
| C74 | The reports about the state agree with each other | proved | From the exact lookup characterisations C32_state_diff, C33_prestate and C34_exact, the uniqueness of the account before, and case analysis on the slot. Accounts that were created or destroyed, and code not loaded, are described exactly by C32_state_diff, C33_prestate and C34_exact. |
| C75 | A parity response contains what was asked for and nothing else | proved | The traces by type are the flat traces (C27), the vmTrace and an empty diff by membership; the response with a state is decided by case analysis on the four optional parts and the characterisations C30_populate and C32_state_diff. Which frame each code belongs to: C30_exact. What the flat traces and the vmTrace hold: C26, C27, C29, C30. |
| C76 | Big integers are written as the numbers they were made from | proved | An array denotes the sum of its digits times powers of 10^7. Induction over the pieces of seven digits for reading, over the digits from the top for writing with padding, and over the number for other bases. For strings of digits with or without a sign; other strings are C83 and C116, numbers C84. |
| C77 | Arithmetic of big integers in tracers is that of the integers | proved | An invariant of the objects (digits in range, no leading zero, small exactly if a double holds it, sign fields that agree with the value) is kept by every method; loop invariants relate the arrays to the integers. Karatsuba by induction over the sizes; long division (`divMod1`) by normalising the divisor and bounding the guessed digit, `divMod2` by bounding its guess for every rounding to a nearest double. Numbers that might not fit a double go through a check that is shown not to fail. Arguments are big integers; numbers and strings as arguments are C131. |
| C78 | The listed transfers account for the balances | partial | A ledger semantics of the execution tree, in which failing frames restore the balances, against the sum of the listed transfers; induction over the tree. Executions without failing frames; C78_exact says for every execution by how much the list is wrong: by the transfers of failed frames and below them, which are listed although they are taken back (witness). |
| C79 | The JSON result of a JavaScript tracer is its result | partial | The writer of JSON.stringify and the parser of serde_json are modelled on characters; mutual induction over the value shows that the parser, before any rest of the text, gives the JSON of the value or, exactly for too deep values and halves of surrogate pairs, an error. Induction over the fuel shows that parsing ends. Values nested at most 127 deep without halves of surrogate pairs; C79_exact says for every value what happens. The texts of numbers other than integers are assumed to have the forms ECMAScript gives (NumberText); which double serde_json reads from them is not modelled, nor are toJSON methods other than that of bigint.js. |
| C80 | The entries of a vmTrace describe the executed instructions | partial | The traces given out by the walk (C29_exact) are closed under sub-traces (induction over paths), each lists the recorded steps of its frame, and the recorded steps are computed from the instructions (induction over the instructions, with the shared memory of C07_exact); the ideal is a separate predicate on an entry, an instruction and the state after it, and the exact condition under which the code's entry meets it is proved. Proved for position, opcode, gas cost and pushed items of every entry; the gas left, the memory and the slot are never what OpenEthereum documents unless the instruction did nothing of the kind (C80_right_iff; witness). C80_exact says what every entry is. Outside the STOP case of C29, in which there are no entries. |
| C81 | Powers, shifts, bit operations and divisors of big integers are those of the integers | partial | Each method is proved to keep the invariant of C77 and to give the integer: loops by induction on fuel with the invariants of square-and-multiply, of the digits to the base 2^23 (bits of sums), of the binary gcd (lowest bits of 32-bit words) and of the extended Euclidean algorithm; then induction over expressions against a separate evaluator of integers. Expressions without the cases Plain excludes; C81_exact says for every expression what the library gives or that it throws. Shifts by big integers always throw, lcm(0,0) throws, negative powers of zero are zero, modPow is 1 for exponents that are not positive, modInv fails for negative moduli (witnesses). Math.pow is taken to be exact where the power is below 2^53. Primality tests are C98. |
| C82 | Big integers are read from text to any base | partial | Positional notation is the specification. Induction over the characters for both loops that look at them, over the digits for the sum of powers (with C77), and a comparison with parseInt for short texts, whose numbers are below 2^53. Every text that denotes a number is read as that number, and toString and reading are inverse (full). Texts that denote none: long ones are rejected (C82_rejects_partial), of short ones only the start is read (C82_refuted, C82_starts), and an opening angle bracket without a closing one makes the reading endless (C82_bracket). C82_exact gives the outcome for every text without angle brackets, for bases other than 10. The quotient of logarithms is a parameter with the bounds it has. |
| C83 | Big integers are read from decimal literals | partial | The value of a literal is a rational number, given separately; rounding to doubles is a parameter with the property of being nearest. Induction over the characters for the parts of the text, positional notation for the digits in groups of seven, and bounds for when the rounded value is below 2^53. C83_exact gives the outcome for every decimal literal (sign, digits, point, exponent). Integers are read exactly if they are below 2^53 or written without plus sign and, if without exponent, without point, or with an exponent that covers the digits after the point (C83_reads_partial); this includes what toString writes (C83_numerals). Missing: longer integers in other notations are rejected (C83_refuted), fractions next to an integer are read as that integer (C83_fraction_refuted), and some texts that are no literals give objects that are not integers (C83_objects). Hexadecimal, octal and binary texts are C116. |
| C84 | Big integers are made of numbers exactly | partial | The text of a number is specified as in ECMAScript: as few digits as possible that round to it. Its notations are literals of C83; that the point is after all digits follows from the number of digits being least, and rounding being monotone. C84_exact gives the outcome for every double up to 2^1023: integers below 2^53 exactly, numbers that are no integers rejected, and larger numbers as their shortest digits followed by zeros. So the result is always rounded to the number again (C84_back_partial). Missing: from 2^53 on it need not be the number itself; bigint(2**60) is not 2^60 (C84_refuted). NaN and the infinities are rejected (C84_special). |
| C85 | The reported differences lead from the state before to the state after | partial | A small interpreter of reports (Spec/Apply.lean) is run on a view of the account before; the specifications of C32 and C34 determine the result, field by field and slot by slot, which is compared with a view of the account after. The exact theorems give, for both formats, necessary and sufficient conditions under which applying the report gives the account after. Missing, because false: parity entries of accounts that were not created never show a change of code (EIP-7702 delegations) and entries of destroyed contracts keep nonce, code and storage; geth does not show that code was removed, and omits destroyed contracts that are otherwise unchanged. |
| C86 | What a JavaScript tracer hears of the frames is what the call tracer shows of them | partial | The callbacks of C50_exact are fed to a small stack machine (Spec/JsFrames.lean); the tree it builds is compared with the tree of C20 by induction over the execution. C86_exact: without selfdestructs, nesting, order, type, from, gas, gas used, input and output always agree, and to, value and error exactly if all sub-frames succeeded, no value was in scope without moving (DELEGATECALL) and creations reported the address that was announced. Missing, because false: exit never gives an error, the value of a DELEGATECALL is 0, and a selfdestruct is told as a second call of the running frame. |
| C87 | The logs of the call frames are the logs of the receipt | partial | The receipt is a function of the execution (Spec/Receipt.lean); the logs collected from the frames of C21/C22 are related to it by induction, as a permutation. C87_exact: for successful transactions the shown logs are a permutation of those of the receipt, and in their order if no frame logs after a sub-frame that left logs. Missing, because false: the order (there is no index or position; two executions with different orders have equal frames), and the logs of a failed root are shown (C22_refuted). |
| C88 | Step callbacks and struct logs tell of the same instructions | partial | The order of execution of C16 and the started instructions of C63 are shown to be the same sequence by induction over bodies; then C72_exact, C07 and C44 are put next to C63, log by log. For every execution and all options the step callbacks and struct logs are equally many and agree one by one in depth, program counter, opcode, gas, refund and stack, and in memory under the condition of C07. Missing, because false: the cost (C88_cost says what each of the two shows, C88_refuted is a witness) and the memory after KECCAK256, LOGn or a create that expands it (C88_refuted_memory). |
| C89 | An access list can be fed back | proved | C38_exact determines each run's list up to order; lists with the same addresses and slots, each once and sorted, are permutations of each other; what was touched in two histories is the union. For all provided lists (also with repeated addresses), exclusions and histories. |
| C90 | The gas shown for frames and steps adds up | partial | The EVM's flow of gas through a body is a separate predicate, the reader's account an inductive relation over the record of C05; induction over the body with the surplus of the account as a parameter shows that it is right exactly if no called frame failed with gas left. C90_exact: for every frame below the root that runs code, the account is right if and only if every frame it called ended with a status that gives gas back, or without gas; C90_back_exact says it for each frame. Missing, because false: a frame that fails otherwise (invalid jump, out of gas, ...) is shown with the gas it had used when it failed, although its caller gets nothing back (C90_refuted). The gas of the EVM is a hypothesis (GasFlow, LimitOK). |
| C91 | The root's gas used is that of the receipt | partial | The receipt's gas is specified from the root frame's end (Spec/ReceiptGas.lean). The recorded value is a function of the same numbers (run_frames); a strict inequality of capped refunds for all amounts settles every transaction with intrinsic gas, and C52 and C20 the values handed over. C91_set_partial: once the receipt's gas used is set on the inspector or handed to the builders, it is what they show, for every execution. Missing, because false: without that the root frame's recorded gas used is less than the receipt's for every transaction that pays intrinsic gas (C91_refuted); C91_exact says for executions without intrinsic gas when it is equal. The receipt's gas is specified from revm's rules (refund cap, floor, authorisation refund), not modelled from revm's code. |
| C92 | The gas of all opcodes adds up to the gas of the transaction | partial | Induction over the body with the gas flow as hypothesis gives the gas of all instructions of all frames; the sum over the reported opcodes is the sum over the instructions because every opcode is reported once (C35). C92_exact gives the reported total for every execution with the gas of the EVM; C92_iff: it is right if and only if every frame below the root lost all its gas. Missing, because false: the gas limit of every sub-call that gives gas back is counted on top (C92_refuted, for every such transaction). The gas of the EVM is a hypothesis (GasFlow, Runs). |
| C93 | The call tree can be rebuilt from the flat parity traces | proved | The tree is defined by recursion over the execution, its flat list by recursion over the tree. Induction over the body shows the list to be a permutation of the traces of C24; looking up addresses is a relation that is functional on lists with distinct addresses, which gives uniqueness. For every execution and configuration; the traces are the flat list of the tree up to order, and C93_flat_tree also says exactly when in order (C26). The tree and its flat list are specified in Spec/FlatTree.lean. |
| C94 | The revert reason of a call frame is the one the contract gave | partial | The library's decoder is written out and put in place of the parameter of C20. Big-endian arithmetic gives the round trip for every text; the frames of the tree are walked in step with the frames of the execution (C67), which lifts the statement from one frame to all. Exact for every execution: right exactly if no frame failed with data that is neither error and happens to be UTF-8 text (or is read as an error since only the last eight bytes of its words are looked at); such data, e.g. the custom error with selector 61626364 or a panic cut after its selector, is shown as a reason (C94_refuted, for every such text). The decoder of alloy-sol-types is written from its documentation (Model/RevertReason.lean); of from_utf8_lossy only its law on valid UTF-8 is used, outputs are shorter than 2^64 bytes. All data are covered: any offset, cut and damaged encodings, texts that are not UTF-8. |
| C95 | A vmTrace lists every executed instruction exactly once | partial | From C29_exact: an invariant of the queue of traces (what has not been given away lists all steps of the frames left so far) and a counting argument (a frame with at least as many call instructions as sub-frames leaves at most one more trace waiting) show that at the end only the root's trace is left. The order by induction over the body under VmFriendly. C95_exact: for every execution the entries are the executed instructions, each once, if and only if the STOP special case of C29 does not strike, although the traces can be nested in the wrong places; if it strikes nothing is listed (C95_refuted). The order of execution is proved under the conditions of C29. That precompiles run no code and every frame is entered by a call instruction are hypotheses. |
| C96 | Frames entered by EOFCREATE are recorded like the others | partial | Execution trees with a third kind of frame, whose hooks do nothing; counting of the nodes the hooks add, and an invariant (the root alone) up to the first frame that is entered. For the exact outcome (`Props.EofExact`): the chain of last children from the root on is the list of the last shown frames by depth, kept by every hook; a separate spec (`Spec.EofPlaces`) finds the parents from depths alone. C96_exact: for all executions with safe steps, the recorder survives iff every frame entered by a call or a create finds a shown frame one step above, and which parent each of them gets. C96_parents, C96_parents_iff: the parents are the frames that entered them iff no call or create is made by the init code of an EOFCREATE; those made there get a frame that is not open. No inspector defines revm's hooks for EOFCREATE. C96_missing: a recording has exactly the nodes of the other frames. C96_panics: the recorder panics whenever the first call or create of a transaction is made by the init code of an EOFCREATE. Witnesses for instructions and calls recorded in the wrong frame and for the value. |
| C97 | The number of a big integer is the nearest one | proved | C81 gives the integer and its digits, C83's reading of literals the number; the round trip is C84_back_partial followed by the same reading. Integers above 2^1023 in size, which need not be numbers, are outside the statement. C97_back assumes that rounding treats both signs alike. |
| C98 | isPrime of big integers tells primes from other numbers | partial | The loops are followed with C81's arithmetic, which gives the test of Miller and Rabin as a statement on natural numbers; Fermat's theorem (from Mathlib) and the square roots of one modulo a prime show that primes pass. The witness is computed with powers by squaring, proved equal to the powers. C98_exact: isPrime is the test of Miller and Rabin with the eight bases 2 to 19, never throws and always ends. C98_primes_partial: every prime is accepted, so what is rejected is no prime. Missing: products that pass the test with all bases are accepted, such as 341550071728321 = 10670053 * 32010157 (C98_refuted). |
| C99 | Random big integers lie between the bounds, and can be each integer there | partial | Every positive number below 2^53 has a double below it that is nearer to its product with a random number than the number itself, so that products stay below; induction over the digits drawn compares the result with the range. For reaching an integer k of n, the least multiple of 2^-53 that is at least k/n gives a product from k to k + 1/2, and both ends are doubles; from larger ranges this is used for each digit, which are drawn from all ten millions as soon as one is below that of the range. C99_between_partial: the result is between the bounds, for all bounds and random numbers. C99_reach_partial: each integer between bounds less than 2^52 apart is drawn with some random number. C99_top and C99_reach_many: from ranges of at least 2^53 numbers exactly those are drawn that lie below the range rounded down to its first digit to the base of ten millions. Missing: from ranges of at least 2^53 numbers the upper end is not drawn, because the first digit to the base of ten millions is drawn below that of the range (C99_top); 2^60 is never drawn from 0 to 2^60 (C99_refuted); and of 2^53 - 2^26 - 2 numbers 2^52 is never drawn, because of rounding (C99_refuted_gap). Not stated: which of more than 2^52 and less than 2^53 numbers are drawn. |

## 7. Defects of the code found on the way

Each is proved of the model by the named theorem.

1. `make_vm_trace` keeps one global FIFO of sub traces: sub traces are attached to the wrong
   instructions when a later sibling calls further (`C29_refuted_order`), and `populate` then assigns
   wrong codes (`C30_refuted`).
2. The STOP special case of the vm trace empties the whole vm trace when any frame's only instruction is
   STOP (`C29_refuted_stop`).
3. With precompile calls left out, the call steps to precompiles consume the next attached child, in vm
   traces (`C29_refuted_precompile`).
4. A geth selfdestruct frame is placed under the frame entered just before (`C21_refuted`).
5. The logs of a failed root are shown (`C22_refuted`).
6. The root's gas is wrong for a negative refund counter (`C11_refuted_negative_refund`).
7. A failed instruction that leaves a short stack panics the recorder with pushed-items snapshots
   (`C02_refuted_failed_instruction`).
8. A step can report the storage change of an earlier instruction (`C08_refuted_stale_entry`); the struct logs then
   show slots of other contracts (`C18_refuted`).
9. Memory snapshots are shared across instructions that expand memory (`C07_refuted_keccak`) and across DATACOPY,
   which writes to it (`C07_refuted_datacopy`).
10. Struct logs of calls carry the error `CallOrCreate`; return data is the frame's final output
    (`C19_refuted`).
11. `AccessListInspector::new` loses slots of addresses that are repeated (`C38_refuted`).
12. JavaScript: bounds of `slice`, NaN, `getUint` (`C48_refuted`); stale length (`C47_refuted`);
    `isPrecompiled` never registered (`C49_refuted`); `exit` without `enter`, `todo!()` when `enter`
    throws (`C50_refuted_exit`, `C50_refuted_enter`), exceptions of `fault` and at a selfdestruct ignored
    (`C64_refuted`); database object, `getCode` with 33 zeros
    behind analysed code (`C59_refuted`); `fault` not
    checked (`C60_refuted`) and called only for reverts (`C61_refuted`); intrinsic gas 0 (`C62_refuted`);
    cost is the gas spent so far (`C63_refuted`); `getInput` and `getOutput` share one writable array
    (`C70_refuted`), numbers above 2^53 are rounded (`C70_refuted_number`), `toContract` takes a negative
    nonce for 0 (`C71_refuted`).
13. Reuse without fuse keeps the old transaction and can panic (`C13_stale_without_fuse`,
    `C13_fuse_is_needed`).
14. A parity selfdestruct trace comes before the traces of the frame's sub-calls (`C26_refuted`).
15. The writer panics for internal calls with a common end and for an arena of two transactions; a
    failed write leaves the indentation raised (`C51_refuted_*`).
16. TLOAD, BLOBHASH, BLOBBASEFEE count as pushing nothing (`C55_refuted`), and so do seven opcodes of the
    object format (`C55_object_format`).
17. Unknown opcodes do not survive serde (`C45_refuted_unknown`); a stored recording that is read again shows
    them as `INVALID` (`C106_refuted_unknown`).
18. The prestate diff lists an unchanged contract whose code was not loaded (`C34_refuted`) and drops a
    destroyed account with unchanged fields (`C57_refuted`).
19. `OpcodeGasInspector` can overflow for nested calls (`C35_refuted`). An instruction that another inspector stopped
    is charged later, when an instruction with an opcode revm does not know ends (`C35_refuted_stale`), even in
    the next transaction (`C108_refuted`).
20. `fill_geth_trace` gives the i-th recorded call instruction the i-th shown call: with an opcode filter
    that leaves out calls the recorded instructions of sub-calls are lost (`C72_refuted_lost`), with
    left-out precompile calls they are listed after the wrong instruction (`C72_refuted_order`).
21. `TransferInspector` lists the transfers of failed calls and creations (`C78_refuted`).
22. `json_result` fails for results nested more than 127 deep and for strings with half a surrogate pair
    (`C79_refuted`).
23. The entries of the vm trace: `used` is the gas before the operation, `MemoryDelta` is always present,
    holds the whole memory before the operation and has its length as the offset, and `from_parity_config`
    does not record the storage changes `StorageDelta` is made from (`C80_refuted`, `C80_right_iff`).
24. Big integers: a shift by a big integer always throws, `lcm(0,0)` throws, `pow` of zero with a negative
    exponent is zero, `modPow` is 1 for every exponent that is not positive, `modInv` says "not co-prime"
    for negative moduli (`C81_refuted`, `C81_inverse_refuted`).
25. `bigint(text, base)` reads only the start of short texts (`1-2` and `1.5` are 1), and does not end on
    long texts with an opening angle bracket and no closing one (`C82_refuted`, `C82_bracket`).
26. `bigint(text)` rejects integers from `2^53` on that are written with a plus sign or a point
    (`9007199254740993.0`), reads fractions that are next to an integer as that integer
    (`0.99999999999999999999` is 1), and accepts texts that are no numbers: `12345e` is 45, `1e` is an object
    that is not equal to 1, and `e5` is an object that is printed as `undefined` (`C83_refuted`,
    `C83_fraction_refuted`, `C83_objects`).
27. `bigint(x)` of a number from `2^53` on gives the shortest digits of the number followed by zeros, not
    the number: `bigint(2**60)` is 1152921504606847000 (`C84_refuted`).
28. Applying the reported differences does not always give the state after: the parity state diff does not
    show code that an account got without being created (EIP-7702 delegations) and keeps nonce, code and
    storage of destroyed contracts (`C85_parity_refuted_code`, `C85_parity_refuted_destroyed`); geth's diff
    mode does not show that code was removed and omits contracts that were destroyed and are otherwise
    unchanged (`C85_geth_refuted_code`, `C85_geth_refuted_destroyed`).
29. JavaScript tracers: `exit` never gives an error, also for frames that failed; the value of a DELEGATECALL
    is 0 where the call tracer shows the value in scope; a selfdestruct is told as another call of the running
    frame (`C86_refuted`, `C86_refuted_selfdestruct`).
30. The logs in call frames have no index or position: executions that emit them in different orders have
    equal frames (`C87_refuted_order`).
31. JavaScript tracers are told another cost (C63) and, after a hidden expansion (C07), another memory
    than struct logs show for the same instruction (`C88_refuted`, `C88_refuted_memory`).
32. A frame that fails other than by a revert is shown with the gas it had used at that moment, although
    all its gas is lost for the caller (`C90_refuted`; revm leaves the rest in `InterpreterResult::gas`, and
    the recorder takes `gas.spent()`).
33. Unless the caller sets it, the root frame's gas used leaves out the intrinsic gas and, after a failure, the
    gas that is lost: it is less than the receipt's for every ordinary transaction (`C91_refuted`).
34. `OpcodeGasInspector` counts the gas handed to a call for the call instruction and what the called frame does
    with it once more; the total exceeds the gas of the transaction by the gas limits of all calls
    (`C92_exact`, `C92_refuted`).
35. Revert data that is no known error is shown as the revert reason if its bytes are valid UTF-8, for example
    the custom error with selector 0x61626364 as "abcd" (`C94_refuted`).
36. In the STOP special case of `vm_trace` (the frame entered last ends with STOP, some frame begins with one)
    the whole `vmTrace` is empty (`C95_refuted`; the same code as in C29).
37. No inspector implements `eofcreate`/`eofcreate_end` (revm 10). Frames of EOFCREATE are not recorded, their
    instructions are recorded as their creator's, the calls they make are attached to the last call of the creator,
    and without one the recorder panics with "Disconnected trace" (`C96_missing`, `C96_panics`, `C96_refuted`;
    exactly which executions survive and which parents the frames get: `C96_exact`, `C96_parents_iff`).
38. `isPrime` of a big integer is a test with eight fixed bases: it accepts 341550071728321, the product of
    10670053 and 32010157 (`C98_refuted`).
39. `randBetween` never draws the upper end of ranges of `2^53` and more numbers: the first digit is drawn
    below that of the size of the range (`C99_top`, `C99_refuted`). Of somewhat fewer numbers rounding leaves out
    some, such as `2^52` of `2^53 - 2^26 - 2` numbers (`C99_refuted_gap`).
40. Big integers are written to bases above `2^53` with digits that are arrays of numbers with commas between
    them (`stringify` of a `BigInteger`), which cannot be read back (`C101_refuted`).
41. C102: the entries of CALL, CALLCODE, DELEGATECALL, STATICCALL, CREATE and CREATE2 in a `vmTrace` never
    show a pushed item (their count in `stack_push_count` is 0, and the step ends before the result is
    put on the stack), so the stack cannot be replayed past a call (`C102_refuted`, `C102_exact`).
42. C03, C103: the selfdestruct hook overwrites the address of the running frame with the destroyed
    contract, so a DELEGATECALL or CALLCODE frame whose code selfdestructs no longer shows whose code ran
    (`C03_refuted`, `C103_refuted`).
43. C103: a geth SELFDESTRUCT frame has as `from` the caller of the destroyed contract, not the contract
    (`C103_refuted`); without a report of the hook, which the comment in the code says is so since Cancun,
    it has neither `to` nor `value` (`C103_exact`).
44. C104: `log.contract` of a JavaScript tracer describes the frame as `enter` shows it, not the account that
    executes: under DELEGATECALL and CALLCODE `getAddress()` is the library, under DELEGATECALL `getCaller()`
    is the executing account and `getValue()` 0, in a creation `getInput()` is the init code.
45. C105: the memory a step shares with the step recorded before it is not refreshed when instructions in
    between were not recorded because steps were switched off (or filtered, and the filter then removed): after
    a pause over an MSTORE the next step shows the old memory (`C105_refuted_memory`). Switching steps on
    between `step` and `step_end` of an instruction panics (`C105_refuted_during`).
46. C107: `is_calllike_op` and the access list do not know EXTCALL, EXTDELEGATECALL and EXTSTATICCALL (revm 10
    announces their frames with `call`). The instructions of the contracts they call are missing from the struct
    logs and the vmTrace, or shown below a later CALL of the same frame, whose own instructions are then lost;
    the accounts they name are not in the access list.
47. C109: `TracingInspectorConfig::all`, documented as having everything enabled, records neither storage
    changes nor pushed items; struct logs from it have no storage, a vmTrace no pushed items
    (`C109_refuted_all`). `from_parity_config` does not record storage changes, so that the vmTrace has no
    storage entries (`C109_refuted_stores`).
48. Refund counters shown leave out what the callers have collected, and can be numbers near 2^64
    (`C110_refuted`).
49. The four-byte inspector counts the inputs of precompiles as calls of functions (`C111_refuted`).
50. The access list lacks the accounts called by EXTCALL, EXTDELEGATECALL and EXTSTATICCALL (`C112_refuted`) and the accounts
    that called ones delegate to (`C112_refuted_delegate`); how the latter are charged is left to the EVM, the model has
    them as a parameter.
51. A creation that fails is shown with the account it would have created in geth's call frames (go-ethereum shows none) and, if it
    reverted, by parity traces with the revert data as the code of that account; a creation that fails because of its
    code (too long, too expensive) is shown with that code as its output and, if it is text, as the revert reason
    (`C113_refuted`).
52. **C114**: the SELFDESTRUCT frame of geth's call frames shows the caller of the destroyed contract as the account its money comes from (C103), so that balances followed from call frames are wrong; from the parity traces they are right.
53. **C115**: `load_account_code` takes a code that cannot be read as no code: the prestate trace shows the contract without code and the state diff shows a creation with empty code, without an error (`C115_refuted`).
54. **C116**: bigint("0x…") throws for hexadecimal literals from 2^53 on, such as every address and most words, although shorter ones are read (`C116_refuted`).
55. **C117**: `bigint.fromArray` takes the base 0 for base 10 (`base||10`): `fromArray([1,2],0)` is 12, while with the big integer 0 as base it is 2 (`C117_refuted`).
56. **C118**: `GethDefaultTracingOptions::limit` is ignored: neither `from_geth_config` nor `geth_traces` reads it, so a request with limit 3 gets all struct logs (`C118_refuted`).
57. **C119**: `TransferInspector` lists a creation when it ends, after all transfers made by its init code; read in order a contract pays before it has received its endowment (`C119_refuted`).
58. **C120**: A second transaction recorded without `fuse()` overwrites the data and steps of the root but keeps its children, logs and ordering, and all earlier frames; so call trees and parity traces of the second transaction list calls of the first (`C120_refuted`). The step entries of the old ordering then point at steps of the new root.
59. `populate_state_diff` puts an entry for an account into the map before it reads the account (src/tracing/builder/parity.rs:486 and 505). If reading fails, the map that was passed is left with an entry that shows the account as unchanged, whatever happened to it (C123_refuted).
60. A failed write leaves the indentation of a `TraceWriter` at the level it had reached (src/tracing/writer.rs:152-160, 283-307: the level is restored only on success), so that everything written with it later is indented too far (C124_exact, C124_next, C124_refuted).
61. The gas in brackets before an internal call is a difference of two amounts from which the possible refunds have been taken off (at most a fifth of what was spent). An internal call that spends 4500 gas and clears a slot for 4800 of refunds is shown with 3300; and as the refund counter of a frame may be negative and is cast to an unsigned number, an internal call that takes refunds of the caller back is shown with too little too (src/tracing/mod.rs:404-405, src/tracing/writer.rs:264-318). C126_refuted has the text.
62. Decoded texts are printed without escaping line breaks. A call with the decoded argument "hi)\n    ├─ [600] 0x0b::01020304{value: 6}(05)\n    │   └─ ← [Return] 0x0708\n    ├─ emit Paid(to: 0x0b" is printed exactly like a call with argument "hi" that pays another account and emits a log (src/tracing/writer.rs:179-205). Whoever decodes must remove line breaks. C128_refuted.
63. Deserializing a CallTraceArena does not check that its nodes refer to each other properly (src/tracing/arena.rs:7). A node that is its own parent and child makes ParityTraceBuilder::trace_address loop forever while the path it collects grows (src/tracing/builder/parity.rs:94-105), and a node that its parent does not list makes it panic. Recordings from others must be checked before results are built from them. C129_refuted_loop, C129_refuted_panic.
64. The storage maps of the struct logs keep what reverted frames wrote: after a call to a contract that stored 9 in slot 5 (where 7 was) and reverted, a later SSTORE of this contract to slot 6 is shown with slot 5 holding 9 (src/tracing/builder/geth.rs:55-69). C130_refuted.
65. Big integers are not equal to the same number from 2^53 on: bigint("1152921504606846976").equals(2**60) is false, since the number is read from its shortest digits 1152921504606847000; and bigint(1).greater(0.5) throws (src/tracing/js/bigint.js, parseNumberValue). C131_refuted.
66. Big integers cannot be compared by operators: bigint("5") == bigint("5") is false, as two objects are compared, and bigint("1152921504606847000") > bigint("1152921504606846976") is false, as both are turned into 2**60 (src/tracing/js/bigint.js, valueOf). C133_refuted.
67. After several transactions without fuse() the writer panics if an earlier transaction recorded more steps in its root than the last one: the ordering list of the root keeps the entries of the earlier steps, while the steps are replaced (src/tracing/writer.rs:272, src/tracing/arena.rs:60). C134_refuted; exactly when: C134_unfused.
68. After several transactions without fuse() geth_traces puts the instructions of a callee of an earlier transaction behind a CALL of the last one, since the children of the shared root are taken by position, and geth_call_traces lists the calls of all transactions below the root of the last (src/tracing/types.rs:218-236, src/tracing/arena.rs:60). C135_refuted; exactly when for the call frames: C135_when. With logs, the root frame shows the logs of the roots of all transactions, reverted ones included, with the address of the last (src/tracing/types.rs:393-404): C135_refuted_logs. If the first call of a transaction selfdestructs, this is shown below the last call of the transaction before (src/tracing/builder/geth.rs:143-148): C135_refuted_selfdestruct. The selfdestruct of the root of an earlier transaction is not shown at all: C135_selfdestructs.
69. After several transactions without fuse() into_transaction_traces lists the calls of all transactions below the root of the last and counts them in its subtraces, the selfdestructs of earlier roots are not listed, and the trace addresses of the calls of the last one are raised by the number of calls of the earlier ones (src/tracing/builder/parity.rs:66-108, src/tracing/arena.rs:60). C136_refuted; exactly when: C136_when.
70. After several transactions without fuse() vm_trace puts the instructions of a callee of an earlier transaction into the CALL of the last one, since the children of the shared root are those of all transactions (src/tracing/builder/parity.rs:306-360, src/tracing/arena.rs:60). C137_refuted.
71. A MuxInspector cannot be reset: used for a second transaction it reports the calls and the selectors of both (src/tracing/mux.rs:20, 37-64). C138_refuted.
72. Not stated as properties: `from_geth_config` never records return data; `into_trace_results_with_state` with vmTrace on a
    builder without nodes panics.

## 8. Axioms of each theorem

Generated with `#print axioms` for all theorems of the manifest.

| axioms | theorems (prefix `Verif.Props.`) |
|---|---|
| Classical.choice, Quot.sound, propext | C01_histories, C01_no_panic, C01_no_panic_hooks, C01_no_panic_without_pushes, C01_panic_iff, C01_panic_iff_hooks, C02_pushed_items_partial, C02_refuted_failed_instruction, C03_arena_is_call_tree_partial, C03_exact, C03_recorded, C03_refuted, C04_links, C04_links_at_every_moment, C05_complete_at_every_moment, C05_ordering_is_execution_order, C06_refund_counter, C06_steps_as_configured, C07_exact, C07_memory_partial, C08_exact, C08_storage_change_partial, C09_delegate_value, C100_exact, C100_primes, C100_refuted, C101_exact, C101_other_characters, C101_reads, C101_refuted, C101_rejects, C101_roundtrip_partial, C101_unary, C101_writes, C101_zero, C102_exact, C102_replay_partial, C103_accounts_partial, C103_exact, C103_refuted, C105_changing_partial, C105_memory_exact, C106_exact, C106_executions, C106_refuted_unknown, C106_roundtrip_partial, C107_logs_exact, C107_logs_partial, C107_never, C107_vm_exact, C108_access, C108_opcode_gas_exact, C108_opcode_gas_partial, C10_left_out_iff, C10_rest_unchanged, C110_exact, C110_js, C110_refund_partial, C110_refuted, C111_exact, C111_selectors_partial, C113_exact, C113_failed_partial, C113_refuted, C114_call_frames_exact, C114_call_frames_partial, C114_parity, C114_refuted_call_frames, C115_prestate_diff_exact, C116_exact, C116_reads_partial, C116_refuted, C116_signed, C117_digits_partial, C117_exact, C117_refuted, C117_roundtrip, C118_exact, C118_limit_partial, C118_refuted, C119_exact, C119_order_partial, C119_refuted, C11_exact, C11_root_gas_partial, C120_exact, C120_plain_partial, C120_when, C122_grows, C124_early_partial, C124_exact, C124_next, C124_refuted, C125_read, C125_text_iff, C126_exact, C126_refuted, C126_without_refunds_partial, C127_cut, C127_iff, C128_exact, C128_lines_partial, C128_refuted, C129_exact, C129_refuted_loop, C129_refuted_panic, C129_written_partial, C130_held_or_undone, C130_held_partial, C130_refuted, C131_arith_partial, C131_exact, C131_refuted, C131_right_partial, C132_recorded, C133_exact, C133_refuted, C133_right_iff, C133_right_partial, C134_any, C134_refuted, C134_text, C134_two_partial, C134_unfused, C135_apart_from_selfdestructs, C135_call_frames, C135_logs, C135_selfdestructs, C135_two_partial, C135_when, C136_last_partial, C136_traces, C136_when, C137_alone_partial, C138_apart_from_selfdestructs, C138_calls, C138_fourbyte, C138_logs, C138_logs_ended, C138_refuted, C138_state_partial, C13_stale_without_fuse, C14_logs, C16_chronological, C17_options, C18_exact, C18_refuted, C18_storage_partial, C19_error_and_return_data_partial, C19_refuted, C20_call_frame_tree, C21_exact, C21_once, C21_refuted, C21_selfdestruct_placement_partial, C22_exact, C22_logs_partial, C22_refuted, C23_only_top_call, C24_trace_addresses, C25_subtraces, C26_order_partial, C27_entry_points_agree, C27_executions, C27_recordings, C28_outcomes, C28_types, C29_exact, C29_no_panic, C29_refuted_stop, C29_vm_trace_partial, C30_codes_partial, C30_exact, C30_no_panic, C30_populate, C31_breadth_first, C31_by_level, C32_state_diff, C34_exact, C34_prestate_diff_partial, C35_exact, C35_opcode_gas_partial, C35_overflow_iff, C35_unended_partial, C37_frame, C37_key_text, C37_keys, C39_transfers, C40_config, C40_enable_eq_enabled, C40_filter_is_set, C40_order_irrelevant, C42_independent, C42_nested, C44_injective, C44_memory_chunks, C46_idempotent, C47_lifetime_partial, C48_exact, C48_getUint_partial, C48_peek_partial, C48_slice_exact, C48_slice_partial, C49_callable_partial, C51_panic_iff, C51_prints, C51_recorded, C51_refuted_indentation, C51_refuted_same_end, C51_refuted_second_transaction, C51_text, C51_undecoded, C52_parity, C53_distinct, C53_error_text, C54_is_selfdestruct, C56_callers, C57_destroyed_partial, C57_exact, C58_buffers, C59_current_partial, C59_exact, C62_context_partial, C62_transaction_data, C65_colours, C65_plain, C67_geth_and_parity_agree, C68_counts_agree, C69_transfers_agree, C70_exact, C70_methods_partial, C70_nearest, C70_refuted, C70_refuted_bigint, C70_refuted_number, C70_value_exact, C71_contracts_partial, C71_exact, C71_refuted, C72_exact, C72_filtered_partial, C72_once, C73_at_every_moment, C73_builders, C73_with_state, C74_modes_agree, C74_parity_and_geth_agree, C75_results, C75_with_state, C76_text, C77_arith, C77_compare, C77_quotients, C77_rounding, C78_balances_partial, C78_exact, C78_refuted, C79_bigint, C79_ends, C79_exact, C79_integers, C79_refuted, C79_replaced, C79_result_partial, C80_entries_partial, C80_exact, C81_arith_partial, C81_bits, C81_exact, C81_inverse_partial, C81_inverse_refuted, C81_predicates, C81_refuted, C81_shift_by_big, C82_base_ten, C82_bracket, C82_exact, C82_reads, C82_refuted, C82_rejects_partial, C82_roundtrip, C82_starts, C83_exact, C83_fraction_refuted, C83_numerals, C83_objects, C83_reads_partial, C83_refuted, C84_back_partial, C84_exact, C84_refuted, C84_special, C84_text_exists, C85_geth_exact, C85_geth_partial, C85_geth_refuted_code, C85_geth_refuted_destroyed, C85_parity_exact, C85_parity_partial, C85_parity_refuted_code, C85_parity_refuted_destroyed, C85_untouched, C86_exact, C86_frames_partial, C86_refuted, C86_refuted_selfdestruct, C87_exact, C87_logs_partial, C87_refuted_order, C88_cost, C88_refuted, C88_steps_partial, C89_carry_on, C89_stable, C90_back_exact, C90_exact, C90_ledger_partial, C90_refuted, C91_exact, C91_refuted, C91_set_partial, C92_exact, C92_iff, C92_no_calls_partial, C92_refuted, C93_flat_tree, C93_same_tree, C94_exact, C94_reasons_partial, C94_refuted, C95_exact, C95_order_partial, C95_refuted, C95_struct_logs_partial, C96_exact, C96_parents, C96_parents_iff, C97_back, C97_nearest, C98_exact, C98_primes_partial, C98_refuted, C99_between_partial, C99_reach_many, C99_reach_partial, C99_refuted, C99_refuted_gap, C99_top |
| Quot.sound, propext | C07_refuted_datacopy, C07_refuted_keccak, C08_refuted_stale_entry, C104_contract_partial, C104_exact, C105_refuted_memory, C108_counts, C108_fourbyte, C108_transfers, C109_all_exact, C109_struct_logs, C109_struct_logs_exact, C109_vm_exact, C109_vm_partial, C112_complete_partial, C112_exact, C115_prestate_exact, C115_state_diff_exact, C121_replies, C121_several, C123_again, C123_exact, C123_true_partial, C12_gas_used, C132_last_asked, C26_refuted, C32_errors, C32_into, C32_order, C33_errors, C33_order, C33_prestate, C34_refuted, C36_opcount, C37_counts, C38_access_list_partial, C38_exact, C38_order, C39_histories, C45_exact, C46_conversions, C46_shape, C47_refuted, C48_getUint_exact, C48_refuted, C49_refuted, C50_callbacks_partial, C50_exact, C50_stack, C55_object_format, C58_hex, C58_strings, C59_refuted, C60_new_partial, C61_exact, C61_fault_partial, C62_exact, C62_refuted, C63_steps_partial, C64_exact, C64_interference_partial, C64_throws_partial, C66_options_only_add, C66_responses, C70_numbers, C72_refuted_lost, C80_refuted, C88_refuted_memory, C89_grows, C96_missing, C96_panics, C96_without_eof_partial |
| none | C115_refuted, C123_refuted, C41_presets, C41_setters, C55_refuted, C60_refuted |
| propext | C102_refuted, C104_refuted, C105_refuted_during, C107_access_exact, C107_refuted_access, C107_refuted_lost, C107_refuted_order, C108_refuted, C109_refuted_all, C109_refuted_stores, C111_refuted, C112_refuted, C112_refuted_delegate, C115_parity_partial, C115_prestate_partial, C115_vm, C11_refuted_negative_refund, C120_refuted, C135_refuted, C135_refuted_logs, C135_refuted_selfdestruct, C136_refuted, C137_refuted, C13_fuse, C13_fuse_is_needed, C15_observers, C29_refuted_order, C29_refuted_precompile, C30_refuted, C35_executions, C35_refuted, C35_refuted_stale, C38_refuted, C41_geth, C41_geth_call, C41_parity, C41_parity_set, C41_setters_commute, C43_error, C43_validation, C45_opcode_serde_partial, C45_refuted_unknown, C50_refuted_enter, C50_refuted_exit, C52_inspector, C55_exact, C55_push_counts_partial, C57_refuted, C59_analyzed, C59_empty_code_hash, C60_errors, C61_refuted, C63_refuted, C64_refuted, C72_refuted_order, C73_links_needed, C80_right_iff, C96_refuted |
