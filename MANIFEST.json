{
 "claims": [
  {
   "property": "C01",
   "status": "proved",
   "theorems": [
    "Verif.Props.C01_no_panic",
    "Verif.Props.C01_no_panic_without_pushes",
    "Verif.Props.C01_panic_iff",
    "Verif.Props.C01_histories",
    "Verif.Props.C01_no_panic_hooks",
    "Verif.Props.C01_panic_iff_hooks"
   ],
   "note": "C01_histories: the hook calls of execution trees, which the properties range over, are exactly the sequences accepted by a watcher that only knows which frames are open."
  },
  {
   "property": "C02",
   "status": "partial",
   "theorems": [
    "Verif.Props.C02_pushed_items_partial",
    "Verif.Props.C02_refuted_failed_instruction",
    "Verif.Props.C01_panic_iff"
   ],
   "note": "Failed instructions that leave too few stack items make the recorder panic (witness proved); C01_panic_iff says exactly when."
  },
  {
   "property": "C03",
   "status": "partial",
   "theorems": [
    "Verif.Props.C03_arena_is_call_tree_partial",
    "Verif.Props.C03_recorded",
    "Verif.Props.C03_exact",
    "Verif.Props.C03_refuted"
   ],
   "note": "C03_recorded states the recorded data of every frame. Missing: the node of a DELEGATECALL or CALLCODE frame that selfdestructs shows the destroyed contract instead of the callee (C03_exact, C03_refuted); everything else is as claimed."
  },
  {
   "property": "C04",
   "status": "proved",
   "theorems": [
    "Verif.Props.C04_links",
    "Verif.Props.C04_links_at_every_moment"
   ],
   "note": ""
  },
  {
   "property": "C05",
   "status": "proved",
   "theorems": [
    "Verif.Props.C05_ordering_is_execution_order",
    "Verif.Props.C05_complete_at_every_moment"
   ],
   "note": ""
  },
  {
   "property": "C06",
   "status": "proved",
   "theorems": [
    "Verif.Props.C06_steps_as_configured",
    "Verif.Props.C06_refund_counter"
   ],
   "note": ""
  },
  {
   "property": "C07",
   "status": "partial",
   "theorems": [
    "Verif.Props.C07_memory_partial",
    "Verif.Props.C07_refuted_keccak",
    "Verif.Props.C07_refuted_datacopy",
    "Verif.Props.C07_exact"
   ],
   "note": "Without an opcode filter, requires that KECCAK256, LOGn, CREATE, CREATE2, EOFCREATE and the EXTCALL family did not expand memory and that DATACOPY did not change it (witnesses of the failures proved)."
  },
  {
   "property": "C08",
   "status": "partial",
   "theorems": [
    "Verif.Props.C08_storage_change_partial",
    "Verif.Props.C08_refuted_stale_entry",
    "Verif.Props.C08_exact"
   ],
   "note": "An SLOAD or ineffective SSTORE can report an earlier instruction's change (witness proved)."
  },
  {
   "property": "C09",
   "status": "proved",
   "theorems": [
    "Verif.Props.C09_delegate_value"
   ],
   "note": ""
  },
  {
   "property": "C10",
   "status": "proved",
   "theorems": [
    "Verif.Props.C10_left_out_iff",
    "Verif.Props.C10_rest_unchanged"
   ],
   "note": ""
  },
  {
   "property": "C11",
   "status": "partial",
   "theorems": [
    "Verif.Props.C11_root_gas_partial",
    "Verif.Props.C11_refuted_negative_refund",
    "Verif.Props.C11_exact"
   ],
   "note": "Non-negative refund counter required; for a negative counter the code's result is wrong (witness proved)."
  },
  {
   "property": "C12",
   "status": "proved",
   "theorems": [
    "Verif.Props.C12_gas_used"
   ],
   "note": ""
  },
  {
   "property": "C13",
   "status": "proved",
   "theorems": [
    "Verif.Props.C13_fuse",
    "Verif.Props.C13_stale_without_fuse",
    "Verif.Props.C13_fuse_is_needed"
   ],
   "note": ""
  },
  {
   "property": "C14",
   "status": "proved",
   "theorems": [
    "Verif.Props.C14_logs"
   ],
   "note": ""
  },
  {
   "property": "C40",
   "status": "proved",
   "theorems": [
    "Verif.Props.C40_filter_is_set",
    "Verif.Props.C40_enable_eq_enabled",
    "Verif.Props.C40_order_irrelevant",
    "Verif.Props.C40_config"
   ],
   "note": ""
  },
  {
   "property": "C41",
   "status": "proved",
   "theorems": [
    "Verif.Props.C41_parity",
    "Verif.Props.C41_parity_set",
    "Verif.Props.C41_geth",
    "Verif.Props.C41_geth_call",
    "Verif.Props.C41_presets",
    "Verif.Props.C41_setters",
    "Verif.Props.C41_setters_commute"
   ],
   "note": ""
  },
  {
   "property": "C52",
   "status": "proved",
   "theorems": [
    "Verif.Props.C52_inspector",
    "Verif.Props.C52_parity"
   ],
   "note": ""
  },
  {
   "property": "C53",
   "status": "proved",
   "theorems": [
    "Verif.Props.C53_error_text",
    "Verif.Props.C53_distinct"
   ],
   "note": ""
  },
  {
   "property": "C54",
   "status": "proved",
   "theorems": [
    "Verif.Props.C54_is_selfdestruct"
   ],
   "note": ""
  },
  {
   "property": "C55",
   "status": "partial",
   "theorems": [
    "Verif.Props.C55_push_counts_partial",
    "Verif.Props.C55_refuted",
    "Verif.Props.C55_exact",
    "Verif.Props.C55_object_format"
   ],
   "note": "TLOAD, BLOBHASH and BLOBBASEFEE are counted as pushing nothing (proved), and so are seven opcodes of the object format (C55_object_format)."
  },
  {
   "property": "C44",
   "status": "proved",
   "theorems": [
    "Verif.Props.C44_memory_chunks",
    "Verif.Props.C44_injective"
   ],
   "note": ""
  },
  {
   "property": "C45",
   "status": "partial",
   "theorems": [
    "Verif.Props.C45_opcode_serde_partial",
    "Verif.Props.C45_refuted_unknown",
    "Verif.Props.C45_exact"
   ],
   "note": "Opcodes revm does not know come back as INVALID (proved)."
  },
  {
   "property": "C16",
   "status": "proved",
   "theorems": [
    "Verif.Props.C16_chronological"
   ],
   "note": ""
  },
  {
   "property": "C17",
   "status": "proved",
   "theorems": [
    "Verif.Props.C17_options",
    "Verif.Props.C72_exact"
   ],
   "note": ""
  },
  {
   "property": "C18",
   "status": "partial",
   "theorems": [
    "Verif.Props.C18_storage_partial",
    "Verif.Props.C18_exact",
    "Verif.Props.C18_refuted"
   ],
   "note": "C18_storage_partial: executions in which no SLOAD or SSTORE that journals nothing runs while the journal ends with an earlier change. Missing: otherwise the slot of another contract can appear (C18_refuted). C18_exact says for every execution what is shown."
  },
  {
   "property": "C19",
   "status": "partial",
   "theorems": [
    "Verif.Props.C19_error_and_return_data_partial",
    "Verif.Props.C72_exact",
    "Verif.Props.C19_refuted"
   ],
   "note": "Instructions that enter a frame carry the error CallOrCreate, and return data is the frame's final output (witness proved)."
  },
  {
   "property": "C20",
   "status": "proved",
   "theorems": [
    "Verif.Props.C20_call_frame_tree"
   ],
   "note": ""
  },
  {
   "property": "C21",
   "status": "partial",
   "theorems": [
    "Verif.Props.C21_once",
    "Verif.Props.C21_exact",
    "Verif.Props.C21_selfdestruct_placement_partial",
    "Verif.Props.C21_refuted"
   ],
   "note": "Exactly one frame per selfdestruct always (C21_once); placed under the frame entered just before. C21_exact: that is the documented place if and only if every selfdestructing frame below the root was the first one its parent called (witness of the contrary proved)."
  },
  {
   "property": "C22",
   "status": "partial",
   "theorems": [
    "Verif.Props.C22_logs_partial",
    "Verif.Props.C22_refuted",
    "Verif.Props.C22_exact"
   ],
   "note": "A failed root still shows its own logs (witness proved); all other frames are right."
  },
  {
   "property": "C23",
   "status": "proved",
   "theorems": [
    "Verif.Props.C23_only_top_call"
   ],
   "note": ""
  },
  {
   "property": "C24",
   "status": "proved",
   "theorems": [
    "Verif.Props.C24_trace_addresses"
   ],
   "note": ""
  },
  {
   "property": "C25",
   "status": "proved",
   "theorems": [
    "Verif.Props.C25_subtraces"
   ],
   "note": ""
  },
  {
   "property": "C26",
   "status": "partial",
   "theorems": [
    "Verif.Props.C26_order_partial",
    "Verif.Props.C26_refuted"
   ],
   "note": "The order is depth-first exactly when no frame that ran SELFDESTRUCT has attached sub-calls (proved as an equivalence); otherwise the selfdestruct trace comes before the sub-calls' traces (witness proved)."
  },
  {
   "property": "C27",
   "status": "proved",
   "theorems": [
    "Verif.Props.C27_entry_points_agree",
    "Verif.Props.C27_recordings",
    "Verif.Props.C27_executions"
   ],
   "note": ""
  },
  {
   "property": "C28",
   "status": "proved",
   "theorems": [
    "Verif.Props.C28_outcomes",
    "Verif.Props.C28_types"
   ],
   "note": ""
  },
  {
   "property": "C29",
   "status": "partial",
   "theorems": [
    "Verif.Props.C29_vm_trace_partial",
    "Verif.Props.C29_exact",
    "Verif.Props.C29_no_panic",
    "Verif.Props.C29_refuted_order",
    "Verif.Props.C29_refuted_stop",
    "Verif.Props.C29_refuted_precompile"
   ],
   "note": "Proved when only first sub-frames call further, nothing is left out and the STOP special case does not apply; three witnesses show that each condition is needed. C29_exact says for every execution which trace is attached where. Absence of panics is proved in full."
  },
  {
   "property": "C30",
   "status": "partial",
   "theorems": [
    "Verif.Props.C30_no_panic",
    "Verif.Props.C30_exact",
    "Verif.Props.C30_populate",
    "Verif.Props.C30_codes_partial",
    "Verif.Props.C30_refuted"
   ],
   "note": "Absence of panics, and exactly which code every sub-trace gets, are proved without conditions (C30_exact; C30_populate for any trace and addresses); that this is the code of the frame whose steps it lists holds under the conditions of C29 (witness of the failure proved)."
  },
  {
   "property": "C31",
   "status": "proved",
   "theorems": [
    "Verif.Props.C31_breadth_first",
    "Verif.Props.C31_by_level"
   ],
   "note": ""
  },
  {
   "property": "C32",
   "status": "proved",
   "theorems": [
    "Verif.Props.C32_state_diff",
    "Verif.Props.C32_into",
    "Verif.Props.C32_errors",
    "Verif.Props.C32_order"
   ],
   "note": ""
  },
  {
   "property": "C33",
   "status": "proved",
   "theorems": [
    "Verif.Props.C33_prestate",
    "Verif.Props.C33_errors",
    "Verif.Props.C33_order"
   ],
   "note": ""
  },
  {
   "property": "C34",
   "status": "partial",
   "theorems": [
    "Verif.Props.C34_prestate_diff_partial",
    "Verif.Props.C34_exact",
    "Verif.Props.C33_order",
    "Verif.Props.C34_refuted"
   ],
   "note": "Exactly what is listed is proved without conditions (C34_exact). That unchanged accounts are not listed needs their code to be loaded; the witness shows an unchanged contract listed otherwise."
  },
  {
   "property": "C57",
   "status": "partial",
   "theorems": [
    "Verif.Props.C57_destroyed_partial",
    "Verif.Props.C57_refuted",
    "Verif.Props.C57_exact"
   ],
   "note": "Proved when the balance, the nonce or a slot changed as well; otherwise the account is dropped (witness)."
  },
  {
   "property": "C35",
   "status": "partial",
   "theorems": [
    "Verif.Props.C35_opcode_gas_partial",
    "Verif.Props.C35_executions",
    "Verif.Props.C35_refuted",
    "Verif.Props.C35_overflow_iff",
    "Verif.Props.C35_exact",
    "Verif.Props.C35_unended_partial",
    "Verif.Props.C35_refuted_stale"
   ],
   "note": "Proved for all histories whose totals fit in 64 bits and in which every instruction ends or has an opcode revm knows; witnesses show nested calls whose summed gas overflows, and gas charged to an instruction that was never executed. C35_exact says for every sequence of hook calls, also with instructions that never end, when it overflows and what is reported otherwise."
  },
  {
   "property": "C36",
   "status": "proved",
   "theorems": [
    "Verif.Props.C36_opcount"
   ],
   "note": "For histories of fewer than 2^64 instructions."
  },
  {
   "property": "C37",
   "status": "proved",
   "theorems": [
    "Verif.Props.C37_counts",
    "Verif.Props.C37_keys",
    "Verif.Props.C37_frame",
    "Verif.Props.C37_key_text"
   ],
   "note": "For counts below 2^64."
  },
  {
   "property": "C38",
   "status": "partial",
   "theorems": [
    "Verif.Props.C38_access_list_partial",
    "Verif.Props.C38_order",
    "Verif.Props.C38_refuted",
    "Verif.Props.C38_exact"
   ],
   "note": "Proved for provided lists without repeated addresses; the witness shows slots lost otherwise."
  },
  {
   "property": "C39",
   "status": "proved",
   "theorems": [
    "Verif.Props.C39_transfers",
    "Verif.Props.C39_histories"
   ],
   "note": ""
  },
  {
   "property": "C15",
   "status": "proved",
   "theorems": [
    "Verif.Props.C15_observers"
   ],
   "note": "Hook return values; that the hooks do not modify their interpreter, context and input arguments is by the value-passing form of the model."
  },
  {
   "property": "C42",
   "status": "proved",
   "theorems": [
    "Verif.Props.C42_independent",
    "Verif.Props.C42_nested"
   ],
   "note": "For configurations without repeated tracer types (they come from a map), nested ones included."
  },
  {
   "property": "C43",
   "status": "proved",
   "theorems": [
    "Verif.Props.C43_validation",
    "Verif.Props.C43_error"
   ],
   "note": ""
  },
  {
   "property": "C46",
   "status": "proved",
   "theorems": [
    "Verif.Props.C46_conversions",
    "Verif.Props.C46_shape",
    "Verif.Props.C46_idempotent"
   ],
   "note": ""
  },
  {
   "property": "C48",
   "status": "partial",
   "theorems": [
    "Verif.Props.C48_peek_partial",
    "Verif.Props.C48_getUint_partial",
    "Verif.Props.C48_slice_partial",
    "Verif.Props.C48_refuted",
    "Verif.Props.C48_exact",
    "Verif.Props.C48_slice_exact",
    "Verif.Props.C48_getUint_exact"
   ],
   "note": "peek for every number but NaN; getUint below 2^64 - 32; slice only for ranges that end at the end of the memory. The code violates the rest (C48_refuted)."
  },
  {
   "property": "C58",
   "status": "proved",
   "theorems": [
    "Verif.Props.C58_hex",
    "Verif.Props.C58_strings",
    "Verif.Props.C58_buffers"
   ],
   "note": ""
  },
  {
   "property": "C47",
   "status": "partial",
   "theorems": [
    "Verif.Props.C47_lifetime_partial",
    "Verif.Props.C47_refuted"
   ],
   "note": "Reads through a stale handle see nothing; `length` gives exactly the length captured when the handle was made (witness)."
  },
  {
   "property": "C49",
   "status": "partial",
   "theorems": [
    "Verif.Props.C49_callable_partial",
    "Verif.Props.C49_refuted"
   ],
   "note": "isPrecompiled is never registered, for any history (proved); the closure itself is right once registered."
  },
  {
   "property": "C50",
   "status": "partial",
   "theorems": [
    "Verif.Props.C50_callbacks_partial",
    "Verif.Props.C50_stack",
    "Verif.Props.C50_refuted_exit",
    "Verif.Props.C50_refuted_enter",
    "Verif.Props.C50_exact"
   ],
   "note": "Proved for tracers that define enter whenever they define exit and while enter does not throw for a call; both exceptions have witnesses."
  },
  {
   "property": "C59",
   "status": "partial",
   "theorems": [
    "Verif.Props.C59_current_partial",
    "Verif.Props.C59_refuted",
    "Verif.Props.C59_exact",
    "Verif.Props.C59_empty_code_hash",
    "Verif.Props.C59_analyzed"
   ],
   "note": "getBalance/getNonce for changed accounts; getState, getCode and exists differ from the current state, and getCode adds 33 zeros to analysed code (witnesses)."
  },
  {
   "property": "C60",
   "status": "partial",
   "theorems": [
    "Verif.Props.C60_new_partial",
    "Verif.Props.C60_errors",
    "Verif.Props.C60_refuted"
   ],
   "note": "All checks but that fault is callable (witness)."
  },
  {
   "property": "C61",
   "status": "partial",
   "theorems": [
    "Verif.Props.C61_fault_partial",
    "Verif.Props.C61_refuted",
    "Verif.Props.C61_exact"
   ],
   "note": "fault is called for reverting instructions of tracers with step; halts, tracers without step, a fault that is an object but no function, and pc/op are wrong (witnesses). C61_exact gives the exact list of fault callbacks of every execution."
  },
  {
   "property": "C62",
   "status": "partial",
   "theorems": [
    "Verif.Props.C62_context_partial",
    "Verif.Props.C62_exact",
    "Verif.Props.C62_transaction_data",
    "Verif.Props.C70_numbers",
    "Verif.Props.C70_nearest",
    "Verif.Props.C62_refuted"
   ],
   "note": "All fields but the intrinsic gas, which is always 0; C62_exact says for every value what the number fields show (exact if and only if a double holds it, at most 2^64)."
  },
  {
   "property": "C63",
   "status": "partial",
   "theorems": [
    "Verif.Props.C63_steps_partial",
    "Verif.Props.C63_refuted"
   ],
   "note": "All fields but the cost, which is the gas spent so far (witness)."
  },
  {
   "property": "C64",
   "status": "partial",
   "theorems": [
    "Verif.Props.C64_interference_partial",
    "Verif.Props.C64_throws_partial",
    "Verif.Props.C64_exact",
    "Verif.Props.C64_refuted"
   ],
   "note": "Without an exception a hook only watches; an exception in step, in enter of a create and in exit of a frame becomes a revert carrying it. Exceptions in fault and at a selfdestruct are ignored, and one in enter of a call is a panic (todo!) (C64_refuted). C64_exact: for every tracer, state and hook, when the EVM is answered with a revert and when the hook panics."
  },
  {
   "property": "C51",
   "status": "partial",
   "theorems": [
    "Verif.Props.C51_prints",
    "Verif.Props.C51_recorded",
    "Verif.Props.C51_text",
    "Verif.Props.C51_undecoded",
    "Verif.Props.C51_panic_iff",
    "Verif.Props.C51_refuted_same_end",
    "Verif.Props.C51_refuted_second_transaction",
    "Verif.Props.C51_refuted_indentation"
   ],
   "note": "The text is proved for every recorded arena with any decoded information, and exactly when the writer panics; it panics for internal calls with a common end and for an arena of two transactions without a fuse in between, and a failed write leaves the indentation raised (witnesses)."
  },
  {
   "property": "C65",
   "status": "proved",
   "theorems": [
    "Verif.Props.C65_colours",
    "Verif.Props.C65_plain"
   ],
   "note": ""
  },
  {
   "property": "C66",
   "status": "proved",
   "theorems": [
    "Verif.Props.C66_options_only_add",
    "Verif.Props.C66_responses"
   ],
   "note": ""
  },
  {
   "property": "C67",
   "status": "proved",
   "theorems": [
    "Verif.Props.C67_geth_and_parity_agree"
   ],
   "note": ""
  },
  {
   "property": "C68",
   "status": "proved",
   "theorems": [
    "Verif.Props.C68_counts_agree"
   ],
   "note": ""
  },
  {
   "property": "C69",
   "status": "proved",
   "theorems": [
    "Verif.Props.C69_transfers_agree"
   ],
   "note": ""
  },
  {
   "property": "C70",
   "status": "partial",
   "theorems": [
    "Verif.Props.C70_methods_partial",
    "Verif.Props.C70_exact",
    "Verif.Props.C70_refuted_bigint",
    "Verif.Props.C70_value_exact",
    "Verif.Props.C70_numbers",
    "Verif.Props.C70_nearest",
    "Verif.Props.C70_refuted",
    "Verif.Props.C70_refuted_number"
   ],
   "note": "All methods, all data and all code that does not write to the array getInput/getOutput of the same object gave and leaves the global bigint alone; numbers exactly if they have at most 53 significant bits. Witnesses for the array, the global and a number. C70_exact: what every method gives whatever the code before it did."
  },
  {
   "property": "C71",
   "status": "partial",
   "theorems": [
    "Verif.Props.C71_contracts_partial",
    "Verif.Props.C71_refuted",
    "Verif.Props.C71_exact"
   ],
   "note": "All but that numbers that are no nonce (negative, NaN) do not throw (witness); C71_exact says which nonce is used for every number."
  },
  {
   "property": "C72",
   "status": "partial",
   "theorems": [
    "Verif.Props.C72_exact",
    "Verif.Props.C72_filtered_partial",
    "Verif.Props.C72_once",
    "Verif.Props.C72_refuted_lost",
    "Verif.Props.C72_refuted_order"
   ],
   "note": "Exactly what is listed is proved for every configuration; it is the order of execution if every CALL- and CREATE-like opcode is recorded and no frame is left out. Otherwise recorded instructions of sub-calls are lost or listed after another call (witnesses)."
  },
  {
   "property": "C73",
   "status": "proved",
   "theorems": [
    "Verif.Props.C73_builders",
    "Verif.Props.C73_with_state",
    "Verif.Props.C73_at_every_moment",
    "Verif.Props.C73_links_needed"
   ],
   "note": "For arbitrary event lists, from the link invariants of C04 alone; the writer is not among the builders (C51)."
  },
  {
   "property": "C74",
   "status": "proved",
   "theorems": [
    "Verif.Props.C74_modes_agree",
    "Verif.Props.C74_parity_and_geth_agree"
   ],
   "note": "Accounts that were created or destroyed, and code not loaded, are described exactly by C32_state_diff, C33_prestate and C34_exact."
  },
  {
   "property": "C75",
   "status": "proved",
   "theorems": [
    "Verif.Props.C75_results",
    "Verif.Props.C75_with_state"
   ],
   "note": "Which frame each code belongs to: C30_exact. What the flat traces and the vmTrace hold: C26, C27, C29, C30."
  },
  {
   "property": "C76",
   "status": "proved",
   "theorems": [
    "Verif.Props.C76_text"
   ],
   "note": "For strings of digits with or without a sign; other strings are C83 and C116, numbers C84."
  },
  {
   "property": "C77",
   "status": "proved",
   "theorems": [
    "Verif.Props.C77_arith",
    "Verif.Props.C77_compare",
    "Verif.Props.C77_quotients",
    "Verif.Props.C77_rounding"
   ],
   "note": "Arguments are big integers; numbers and strings as arguments are C131."
  },
  {
   "property": "C78",
   "status": "partial",
   "theorems": [
    "Verif.Props.C78_balances_partial",
    "Verif.Props.C78_exact",
    "Verif.Props.C78_refuted"
   ],
   "note": "Executions without failing frames; C78_exact says for every execution by how much the list is wrong: by the transfers of failed frames and below them, which are listed although they are taken back (witness)."
  },
  {
   "property": "C79",
   "status": "partial",
   "theorems": [
    "Verif.Props.C79_result_partial",
    "Verif.Props.C79_exact",
    "Verif.Props.C79_integers",
    "Verif.Props.C79_bigint",
    "Verif.Props.C79_ends",
    "Verif.Props.C79_replaced",
    "Verif.Props.C79_refuted"
   ],
   "note": "Values nested at most 127 deep without halves of surrogate pairs; C79_exact says for every value what happens. The texts of numbers other than integers are assumed to have the forms ECMAScript gives (NumberText); which double serde_json reads from them is not modelled, nor are toJSON methods other than that of bigint.js."
  },
  {
   "property": "C80",
   "status": "partial",
   "theorems": [
    "Verif.Props.C80_entries_partial",
    "Verif.Props.C80_exact",
    "Verif.Props.C80_right_iff",
    "Verif.Props.C80_refuted"
   ],
   "note": "Proved for position, opcode, gas cost and pushed items of every entry; the gas left, the memory and the slot are never what OpenEthereum documents unless the instruction did nothing of the kind (C80_right_iff; witness). C80_exact says what every entry is. Outside the STOP case of C29, in which there are no entries."
  },
  {
   "property": "C81",
   "status": "partial",
   "theorems": [
    "Verif.Props.C81_exact",
    "Verif.Props.C81_arith_partial",
    "Verif.Props.C81_bits",
    "Verif.Props.C81_shift_by_big",
    "Verif.Props.C81_predicates",
    "Verif.Props.C81_inverse_partial",
    "Verif.Props.C81_refuted",
    "Verif.Props.C81_inverse_refuted"
   ],
   "note": "Expressions without the cases Plain excludes; C81_exact says for every expression what the library gives or that it throws. Shifts by big integers always throw, lcm(0,0) throws, negative powers of zero are zero, modPow is 1 for exponents that are not positive, modInv fails for negative moduli (witnesses). Math.pow is taken to be exact where the power is below 2^53. Primality tests are C98."
  },
  {
   "property": "C82",
   "status": "partial",
   "theorems": [
    "Verif.Props.C82_reads",
    "Verif.Props.C82_roundtrip",
    "Verif.Props.C82_exact",
    "Verif.Props.C82_rejects_partial",
    "Verif.Props.C82_starts",
    "Verif.Props.C82_bracket",
    "Verif.Props.C82_base_ten",
    "Verif.Props.C82_refuted"
   ],
   "note": "Every text that denotes a number is read as that number, and toString and reading are inverse (full). Texts that denote none: long ones are rejected (C82_rejects_partial), of short ones only the start is read (C82_refuted, C82_starts), and an opening angle bracket without a closing one makes the reading endless (C82_bracket). C82_exact gives the outcome for every text without angle brackets, for bases other than 10. The quotient of logarithms is a parameter with the bounds it has."
  },
  {
   "property": "C83",
   "status": "partial",
   "theorems": [
    "Verif.Props.C83_exact",
    "Verif.Props.C83_reads_partial",
    "Verif.Props.C83_numerals",
    "Verif.Props.C83_refuted",
    "Verif.Props.C83_fraction_refuted",
    "Verif.Props.C83_objects"
   ],
   "note": "C83_exact gives the outcome for every decimal literal (sign, digits, point, exponent). Integers are read exactly if they are below 2^53 or written without plus sign and, if without exponent, without point, or with an exponent that covers the digits after the point (C83_reads_partial); this includes what toString writes (C83_numerals). Missing: longer integers in other notations are rejected (C83_refuted), fractions next to an integer are read as that integer (C83_fraction_refuted), and some texts that are no literals give objects that are not integers (C83_objects). Hexadecimal, octal and binary texts are C116."
  },
  {
   "property": "C84",
   "status": "partial",
   "theorems": [
    "Verif.Props.C84_exact",
    "Verif.Props.C84_back_partial",
    "Verif.Props.C84_text_exists",
    "Verif.Props.C84_special",
    "Verif.Props.C84_refuted"
   ],
   "note": "C84_exact gives the outcome for every double up to 2^1023: integers below 2^53 exactly, numbers that are no integers rejected, and larger numbers as their shortest digits followed by zeros. So the result is always rounded to the number again (C84_back_partial). Missing: from 2^53 on it need not be the number itself; bigint(2**60) is not 2^60 (C84_refuted). NaN and the infinities are rejected (C84_special)."
  },
  {
   "property": "C85",
   "status": "partial",
   "theorems": [
    "Verif.Props.C85_parity_exact",
    "Verif.Props.C85_parity_partial",
    "Verif.Props.C85_geth_exact",
    "Verif.Props.C85_geth_partial",
    "Verif.Props.C85_untouched",
    "Verif.Props.C85_parity_refuted_code",
    "Verif.Props.C85_parity_refuted_destroyed",
    "Verif.Props.C85_geth_refuted_code",
    "Verif.Props.C85_geth_refuted_destroyed"
   ],
   "note": "The exact theorems give, for both formats, necessary and sufficient conditions under which applying the report gives the account after. Missing, because false: parity entries of accounts that were not created never show a change of code (EIP-7702 delegations) and entries of destroyed contracts keep nonce, code and storage; geth does not show that code was removed, and omits destroyed contracts that are otherwise unchanged."
  },
  {
   "property": "C86",
   "status": "partial",
   "theorems": [
    "Verif.Props.C86_exact",
    "Verif.Props.C86_frames_partial",
    "Verif.Props.C86_refuted",
    "Verif.Props.C86_refuted_selfdestruct"
   ],
   "note": "C86_exact: without selfdestructs, nesting, order, type, from, gas, gas used, input and output always agree, and to, value and error exactly if all sub-frames succeeded, no value was in scope without moving (DELEGATECALL) and creations reported the address that was announced. Missing, because false: exit never gives an error, the value of a DELEGATECALL is 0, and a selfdestruct is told as a second call of the running frame."
  },
  {
   "property": "C87",
   "status": "partial",
   "theorems": [
    "Verif.Props.C87_exact",
    "Verif.Props.C87_logs_partial",
    "Verif.Props.C87_refuted_order",
    "Verif.Props.C22_refuted"
   ],
   "note": "C87_exact: for successful transactions the shown logs are a permutation of those of the receipt, and in their order if no frame logs after a sub-frame that left logs. Missing, because false: the order (there is no index or position; two executions with different orders have equal frames), and the logs of a failed root are shown (C22_refuted)."
  },
  {
   "property": "C88",
   "status": "partial",
   "theorems": [
    "Verif.Props.C88_steps_partial",
    "Verif.Props.C88_cost",
    "Verif.Props.C88_refuted",
    "Verif.Props.C88_refuted_memory"
   ],
   "note": "For every execution and all options the step callbacks and struct logs are equally many and agree one by one in depth, program counter, opcode, gas, refund and stack, and in memory under the condition of C07. Missing, because false: the cost (C88_cost says what each of the two shows, C88_refuted is a witness) and the memory after KECCAK256, LOGn or a create that expands it (C88_refuted_memory)."
  },
  {
   "property": "C89",
   "status": "proved",
   "theorems": [
    "Verif.Props.C89_carry_on",
    "Verif.Props.C89_stable",
    "Verif.Props.C89_grows"
   ],
   "note": "For all provided lists (also with repeated addresses), exclusions and histories."
  },
  {
   "property": "C90",
   "status": "partial",
   "theorems": [
    "Verif.Props.C90_exact",
    "Verif.Props.C90_back_exact",
    "Verif.Props.C90_ledger_partial",
    "Verif.Props.C90_refuted"
   ],
   "note": "C90_exact: for every frame below the root that runs code, the account is right if and only if every frame it called ended with a status that gives gas back, or without gas; C90_back_exact says it for each frame. Missing, because false: a frame that fails otherwise (invalid jump, out of gas, ...) is shown with the gas it had used when it failed, although its caller gets nothing back (C90_refuted). The gas of the EVM is a hypothesis (GasFlow, LimitOK)."
  },
  {
   "property": "C91",
   "status": "partial",
   "theorems": [
    "Verif.Props.C91_refuted",
    "Verif.Props.C91_exact",
    "Verif.Props.C91_set_partial"
   ],
   "note": "C91_set_partial: once the receipt's gas used is set on the inspector or handed to the builders, it is what they show, for every execution. Missing, because false: without that the root frame's recorded gas used is less than the receipt's for every transaction that pays intrinsic gas (C91_refuted); C91_exact says for executions without intrinsic gas when it is equal. The receipt's gas is specified from revm's rules (refund cap, floor, authorisation refund), not modelled from revm's code."
  },
  {
   "property": "C92",
   "status": "partial",
   "theorems": [
    "Verif.Props.C92_exact",
    "Verif.Props.C92_iff",
    "Verif.Props.C92_no_calls_partial",
    "Verif.Props.C92_refuted"
   ],
   "note": "C92_exact gives the reported total for every execution with the gas of the EVM; C92_iff: it is right if and only if every frame below the root lost all its gas. Missing, because false: the gas limit of every sub-call that gives gas back is counted on top (C92_refuted, for every such transaction). The gas of the EVM is a hypothesis (GasFlow, Runs)."
  },
  {
   "property": "C93",
   "status": "proved",
   "theorems": [
    "Verif.Props.C93_flat_tree",
    "Verif.Props.C93_same_tree"
   ],
   "note": "For every execution and configuration; the traces are the flat list of the tree up to order, and C93_flat_tree also says exactly when in order (C26). The tree and its flat list are specified in Spec/FlatTree.lean."
  },
  {
   "property": "C94",
   "status": "partial",
   "theorems": [
    "Verif.Props.C94_exact",
    "Verif.Props.C94_reasons_partial",
    "Verif.Props.C94_refuted"
   ],
   "note": "Exact for every execution: right exactly if no frame failed with data that is neither error and happens to be UTF-8 text (or is read as an error since only the last eight bytes of its words are looked at); such data, e.g. the custom error with selector 61626364 or a panic cut after its selector, is shown as a reason (C94_refuted, for every such text). The decoder of alloy-sol-types is written from its documentation (Model/RevertReason.lean); of from_utf8_lossy only its law on valid UTF-8 is used, outputs are shorter than 2^64 bytes. All data are covered: any offset, cut and damaged encodings, texts that are not UTF-8."
  },
  {
   "property": "C95",
   "status": "partial",
   "theorems": [
    "Verif.Props.C95_exact",
    "Verif.Props.C95_struct_logs_partial",
    "Verif.Props.C95_order_partial",
    "Verif.Props.C95_refuted"
   ],
   "note": "C95_exact: for every execution the entries are the executed instructions, each once, if and only if the STOP special case of C29 does not strike, although the traces can be nested in the wrong places; if it strikes nothing is listed (C95_refuted). The order of execution is proved under the conditions of C29. That precompiles run no code and every frame is entered by a call instruction are hypotheses."
  },
  {
   "property": "C96",
   "status": "partial",
   "theorems": [
    "Verif.Props.C96_exact",
    "Verif.Props.C96_parents",
    "Verif.Props.C96_parents_iff",
    "Verif.Props.C96_missing",
    "Verif.Props.C96_without_eof_partial",
    "Verif.Props.C96_panics",
    "Verif.Props.C96_refuted"
   ],
   "note": "C96_exact: for all executions with safe steps, the recorder survives iff every frame entered by a call or a create finds a shown frame one step above, and which parent each of them gets. C96_parents, C96_parents_iff: the parents are the frames that entered them iff no call or create is made by the init code of an EOFCREATE; those made there get a frame that is not open. No inspector defines revm's hooks for EOFCREATE. C96_missing: a recording has exactly the nodes of the other frames. C96_panics: the recorder panics whenever the first call or create of a transaction is made by the init code of an EOFCREATE. Witnesses for instructions and calls recorded in the wrong frame and for the value."
  },
  {
   "property": "C97",
   "status": "proved",
   "theorems": [
    "Verif.Props.C97_nearest",
    "Verif.Props.C97_back"
   ],
   "note": "Integers above 2^1023 in size, which need not be numbers, are outside the statement. C97_back assumes that rounding treats both signs alike."
  },
  {
   "property": "C98",
   "status": "partial",
   "theorems": [
    "Verif.Props.C98_exact",
    "Verif.Props.C98_primes_partial",
    "Verif.Props.C98_refuted"
   ],
   "note": "C98_exact: isPrime is the test of Miller and Rabin with the eight bases 2 to 19, never throws and always ends. C98_primes_partial: every prime is accepted, so what is rejected is no prime. Missing: products that pass the test with all bases are accepted, such as 341550071728321 = 10670053 * 32010157 (C98_refuted)."
  },
  {
   "property": "C99",
   "status": "partial",
   "theorems": [
    "Verif.Props.C99_between_partial",
    "Verif.Props.C99_reach_partial",
    "Verif.Props.C99_top",
    "Verif.Props.C99_reach_many",
    "Verif.Props.C99_refuted",
    "Verif.Props.C99_refuted_gap"
   ],
   "note": "C99_between_partial: the result is between the bounds, for all bounds and random numbers. C99_reach_partial: each integer between bounds less than 2^52 apart is drawn with some random number. C99_top and C99_reach_many: from ranges of at least 2^53 numbers exactly those are drawn that lie below the range rounded down to its first digit to the base of ten millions. Missing: from ranges of at least 2^53 numbers the upper end is not drawn, because the first digit to the base of ten millions is drawn below that of the range (C99_top); 2^60 is never drawn from 0 to 2^60 (C99_refuted); and of 2^53 - 2^26 - 2 numbers 2^52 is never drawn, because of rounding (C99_refuted_gap). Not stated: which of more than 2^52 and less than 2^53 numbers are drawn."
  },
  {
   "property": "C100",
   "status": "proved",
   "theorems": [
    "Verif.Props.C100_primes",
    "Verif.Props.C100_exact",
    "Verif.Props.C100_refuted"
   ],
   "note": "C100_exact: the outcome is Fermat's test for the numbers drawn. C100_refuted: other numbers may be probable primes, 341 if all random numbers are zero; this is not part of the property. Iterations are natural numbers or left out."
  },
  {
   "property": "C101",
   "status": "partial",
   "theorems": [
    "Verif.Props.C101_exact",
    "Verif.Props.C101_roundtrip_partial",
    "Verif.Props.C101_writes",
    "Verif.Props.C101_reads",
    "Verif.Props.C101_rejects",
    "Verif.Props.C101_other_characters",
    "Verif.Props.C101_unary",
    "Verif.Props.C101_zero",
    "Verif.Props.C101_refuted"
   ],
   "note": "C101_exact: for every base but those from -1 to 36 the integer is written with its digits, and the text is read back as the integer if no digit is 2^53 or more and rejected otherwise; so all bases up to 2^53 in size round trip (C101_roundtrip_partial; bases from 2 to 36 are C82). C101_writes and C101_reads state the text; C101_rejects and C101_other_characters: digits that are too large and characters that are no digits throw; C101_unary: bases 1 and -1, where integers from about 2^32 on throw; base 0 has no digits (C101_zero). Missing, because false: digits from 2^53 on are written as arrays and cannot be read back (C101_refuted)."
  },
  {
   "property": "C102",
   "status": "partial",
   "theorems": [
    "Verif.Props.C102_replay_partial",
    "Verif.Props.C102_exact",
    "Verif.Props.C102_refuted"
   ],
   "note": "C102_replay_partial: frames without calls, creates, TLOAD, BLOBHASH and BLOBBASEFEE; C102_exact: the stack before an instruction is recomputed exactly if none of these came before it in its frame. Missing: the results of calls and creates are never shown as pushed (C102_refuted)."
  },
  {
   "property": "C103",
   "status": "partial",
   "theorems": [
    "Verif.Props.C103_accounts_partial",
    "Verif.Props.C103_exact",
    "Verif.Props.C103_refuted"
   ],
   "note": "C103_accounts_partial: who made a frame and which account it executed as are always right. C103_exact: to is wrong exactly for DELEGATECALL and CALLCODE frames in which a selfdestruct was reported (of code at another account), and a SELFDESTRUCT frame shows the caller of the destroyed contract as from (C103_refuted)."
  },
  {
   "property": "C104",
   "status": "partial",
   "theorems": [
    "Verif.Props.C104_exact",
    "Verif.Props.C104_contract_partial",
    "Verif.Props.C104_refuted"
   ],
   "note": "Right for all instructions in frames of CALL and STATICCALL. In frames of DELEGATECALL and CALLCODE getAddress is the account whose code runs, in those of DELEGATECALL getCaller is the executing account and getValue 0, in creations getInput is the init code; C104_exact says for every instruction which of the four are right."
  },
  {
   "property": "C105",
   "status": "partial",
   "theorems": [
    "Verif.Props.C105_changing_partial",
    "Verif.Props.C105_memory_exact",
    "Verif.Props.C105_refuted_memory",
    "Verif.Props.C105_refuted_during"
   ],
   "note": "Proved for any configuration at each instruction, frame entry, frame end and log, changed between instructions: no panic, all frames with their data, and the record of each frame is what the configuration of the moment asks for. The memory is right exactly if it did not change between two successive recorded steps of which the second takes the memory of the first; refuted in general, because steps that were not recorded in between (recording paused over an MSTORE) are not considered. Also refuted for changes between the two hook calls of an instruction: switching steps on there panics."
  },
  {
   "property": "C106",
   "status": "partial",
   "theorems": [
    "Verif.Props.C106_exact",
    "Verif.Props.C106_roundtrip_partial",
    "Verif.Props.C106_executions",
    "Verif.Props.C106_refuted_unknown"
   ],
   "note": "Proved for every arena whose numbers have 64 bits (as their Rust types say), down to the JSON text: writing and reading never fails, and what is read is the arena with the unknown opcodes of its steps replaced by INVALID and nothing else changed; so it is the same exactly if every recorded opcode is known to revm. Refuted for a recorded unknown opcode."
  },
  {
   "property": "C107",
   "status": "partial",
   "theorems": [
    "Verif.Props.C107_logs_partial",
    "Verif.Props.C107_logs_exact",
    "Verif.Props.C107_never",
    "Verif.Props.C107_vm_exact",
    "Verif.Props.C107_access_exact",
    "Verif.Props.C107_refuted_lost",
    "Verif.Props.C107_refuted_order",
    "Verif.Props.C107_refuted_access"
   ],
   "note": "Proved for executions without frames entered by these instructions. C107_never: with such a frame that executes anything the struct logs are always wrong. C107_vm_exact: such an instruction never has a sub-trace. C107_access_exact: such instructions never contribute to the access list. Three witnesses."
  },
  {
   "property": "C108",
   "status": "partial",
   "theorems": [
    "Verif.Props.C108_counts",
    "Verif.Props.C108_fourbyte",
    "Verif.Props.C108_transfers",
    "Verif.Props.C108_access",
    "Verif.Props.C108_opcode_gas_partial",
    "Verif.Props.C108_opcode_gas_exact",
    "Verif.Props.C108_refuted"
   ],
   "note": "Proved in full but for the opcode gas, where it requires that every instruction ends or that revm knows all opcodes that start; C108_opcode_gas_exact says what is charged in any two histories, and the witness shows gas charged to an instruction of the first transaction when one of the second ends."
  },
  {
   "property": "C109",
   "status": "partial",
   "theorems": [
    "Verif.Props.C109_struct_logs",
    "Verif.Props.C109_struct_logs_exact",
    "Verif.Props.C109_vm_partial",
    "Verif.Props.C109_vm_exact",
    "Verif.Props.C109_all_exact",
    "Verif.Props.C109_refuted_all",
    "Verif.Props.C109_refuted_stores"
   ],
   "note": "Struct logs depend on nothing but what the options need (full); the vmTrace on nothing else but for the storage entries, which the configuration made for it does not record (C109_refuted_stores). TracingInspectorConfig::all() records neither storage changes nor pushed items (C109_all_exact, C109_refuted_all). The exact theorems say what is missing from the answers for every configuration."
  },
  {
   "property": "C110",
   "status": "partial",
   "theorems": [
    "Verif.Props.C110_refund_partial",
    "Verif.Props.C110_exact",
    "Verif.Props.C110_js",
    "Verif.Props.C110_refuted"
   ],
   "note": "C110_refund_partial: all instructions of the root frame, and those of other frames if no frame around had collected a refund when it called. Missing: what the callers have collected is left out, and a frame that takes refunds away shows a number near 2^64 (C110_refuted). C110_exact says for every execution what is shown and when it is right; C110_js the same for getRefund of step callbacks."
  },
  {
   "property": "C111",
   "status": "partial",
   "theorems": [
    "Verif.Props.C111_selectors_partial",
    "Verif.Props.C111_exact",
    "Verif.Props.C111_refuted"
   ],
   "note": "C111_selectors_partial: transactions in which no precompile is called with four bytes of input or more. Missing: such calls are counted as calls of functions (C111_refuted). C111_exact: the counts of every execution, and that they are right exactly in these transactions. Counts below 2^64."
  },
  {
   "property": "C112",
   "status": "partial",
   "theorems": [
    "Verif.Props.C112_complete_partial",
    "Verif.Props.C112_exact",
    "Verif.Props.C112_refuted",
    "Verif.Props.C112_refuted_delegate"
   ],
   "note": "C112_complete_partial: executions without EXTCALL, EXTDELEGATECALL and EXTSTATICCALL in which no called account delegates to another. Missing: the accounts these instructions call (C112_refuted) and the accounts delegated to (C112_refuted_delegate) are not in the list. C112_exact: exactly when the list is complete."
  },
  {
   "property": "C113",
   "status": "partial",
   "theorems": [
    "Verif.Props.C113_failed_partial",
    "Verif.Props.C113_exact",
    "Verif.Props.C113_refuted"
   ],
   "note": "C113_failed_partial: transactions in which no creation fails and frames that fail other than by a revert have no data. Missing: failed creations are shown with the account, by parity also with code (C113_refuted). C113_exact: exactly when the traces claim nothing of failed frames. onlyTopCall off (C23 covers it)."
  },
  {
   "property": "C114",
   "status": "partial",
   "theorems": [
    "Verif.Props.C114_parity",
    "Verif.Props.C114_call_frames_partial",
    "Verif.Props.C114_call_frames_exact",
    "Verif.Props.C114_refuted_call_frames"
   ],
   "note": "Proved for the parity traces, of every execution including failing frames, selfdestructs and precompiles; for the geth call frames of executions without selfdestructs. Refuted for call frames with selfdestructs: the SELFDESTRUCT frame names the caller of the destroyed account as the one that pays. C114_call_frames_exact: for every execution, selfdestructs included, by how much the call frames are wrong for each account, and so when they are right."
  },
  {
   "property": "C115",
   "status": "partial",
   "theorems": [
    "Verif.Props.C115_vm",
    "Verif.Props.C115_prestate_partial",
    "Verif.Props.C115_parity_partial",
    "Verif.Props.C115_prestate_exact",
    "Verif.Props.C115_prestate_diff_exact",
    "Verif.Props.C115_state_diff_exact",
    "Verif.Props.C115_refuted"
   ],
   "note": "Proved: for two databases, one of which is the other except that any of its reads fail, whatever reads those are: the codes of a vmTrace that are filled in without an error are those of the database that does not fail (full); so are both modes of the prestate trace and the answer to any parity request, if the codes that are not loaded with the accounts can be read. Missing because the code violates it (C115_refuted): if reading a code fails, the prestate shows the contract without code and the state diff says that it was created with no code, without an error. C115_prestate_exact (default mode), C115_prestate_diff_exact (diff mode, if no created account had code before) and C115_state_diff_exact: the answer is wrong exactly if code is lost in this way."
  },
  {
   "property": "C116",
   "status": "partial",
   "theorems": [
    "Verif.Props.C116_exact",
    "Verif.Props.C116_reads_partial",
    "Verif.Props.C116_signed",
    "Verif.Props.C116_refuted"
   ],
   "note": "Proved: every hexadecimal, octal or binary literal (0x, 0o, 0b in either case) that denotes an integer below 2^53 is read as that integer. C116_exact: every other text without white space that begins so is rejected, whatever follows, also where it contains an e that is taken for an exponent. Missing because the code violates it: literals from 2^53 on, such as addresses and words, are rejected (C116_refuted), and so are those with a sign (C116_signed)."
  },
  {
   "property": "C117",
   "status": "partial",
   "theorems": [
    "Verif.Props.C117_digits_partial",
    "Verif.Props.C117_exact",
    "Verif.Props.C117_roundtrip",
    "Verif.Props.C117_refuted"
   ],
   "note": "C117_digits_partial: for digits and a base that stand for any integers (also negative ones, or digits larger than the base), given as numbers, texts or big integers, the result is the sum of the digits times the powers of the base. C117_exact: a base that JavaScript takes for false (0, NaN, empty text) is taken for ten, and the whole is rejected if a digit or the base is. C117_roundtrip: from the digits of an integer the same integer is made. Missing because the code violates it: the base 0 as a number (C117_refuted). Arguments other than numbers, texts and big integers are not modelled."
  },
  {
   "property": "C118",
   "status": "partial",
   "theorems": [
    "Verif.Props.C118_limit_partial",
    "Verif.Props.C118_exact",
    "Verif.Props.C118_refuted"
   ],
   "note": "C118_limit_partial: executions of no more instructions than the limit. Missing because the code violates it: nothing reads the limit, so all instructions are listed (C118_refuted); C118_exact: the logs are right exactly if there are no more instructions than the limit."
  },
  {
   "property": "C119",
   "status": "partial",
   "theorems": [
    "Verif.Props.C119_order_partial",
    "Verif.Props.C119_exact",
    "Verif.Props.C119_refuted"
   ],
   "note": "C119_order_partial: executions in which no value moves while a creation that reports an account is running. C119_exact: every transfer is listed as often as it was made, and (if no two are the same) in the right order exactly in these executions. Missing because the code violates it: a creation is listed after all that moved during it, so that contracts seem to pay before they receive (C119_refuted)."
  },
  {
   "property": "C120",
   "status": "partial",
   "theorems": [
    "Verif.Props.C120_plain_partial",
    "Verif.Props.C120_when",
    "Verif.Props.C120_exact",
    "Verif.Props.C120_refuted"
   ],
   "note": "C120_plain_partial: after a transaction whose root did nothing. C120_when: of two transactions the recording is that of the second exactly if the first entered no frame and recorded no step and no log. C120_exact: what any number of transactions leave in one recording. Missing because the code violates it: without fuse() the frames of earlier transactions stay below the root of the later one (C120_refuted)."
  },
  {
   "property": "C121",
   "status": "proved",
   "theorems": [
    "Verif.Props.C121_several",
    "Verif.Props.C121_replies"
   ],
   "note": "For every tracer (which functions it defines, which of its callbacks throw) and any number of transactions. What the tracer itself remembers from one transaction to the next is its own affair."
  },
  {
   "property": "C122",
   "status": "proved",
   "theorems": [
    "Verif.Props.C122_grows"
   ],
   "note": "For every configuration and any two moments of any legal history (several transactions included, as long as the later moment is in the same transaction as the earlier one; a further root replaces the root node, which is the subject of C120). Which frames are open is computed from the hook calls alone."
  },
  {
   "property": "C123",
   "status": "partial",
   "theorems": [
    "Verif.Props.C123_exact",
    "Verif.Props.C123_again",
    "Verif.Props.C123_true_partial",
    "Verif.Props.C123_refuted"
   ],
   "note": "Refuted as stated: an account that could not be read is left in the diff as unchanged (C123_refuted). C123_exact says for every database, state and order of iteration what is left behind; C123_true_partial says that every other entry is the one of the complete diff (the codes of created accounts being readable, see C115); C123_again holds for all pairs of databases and all states."
  },
  {
   "property": "C124",
   "status": "partial",
   "theorems": [
    "Verif.Props.C124_exact",
    "Verif.Props.C124_next",
    "Verif.Props.C124_early_partial",
    "Verif.Props.C124_refuted"
   ],
   "note": "Refuted as stated: after a failure behind the first line the next trace is written too deep (C124_refuted). C124_exact says for all traces, sinks and settings where the writer is left; C124_next, by how many levels the next trace is too deep, and that it is right exactly if the indentation was left unchanged; C124_early_partial, that this is so if flushing failed or the first line was not completed."
  },
  {
   "property": "C125",
   "status": "proved",
   "theorems": [
    "Verif.Props.C125_text_iff",
    "Verif.Props.C125_read"
   ],
   "note": "For all pairs of transactions, configurations and settings: the texts agree up to colours if and only if what is to be seen of the executions agrees. Hypothesis: the text of an address is 0x and its forty hexadecimal digits in either case (alloy). Traces with labels, decoded calls or decoded logs are outside, as these texts are arbitrary."
  },
  {
   "property": "C126",
   "status": "partial",
   "theorems": [
    "Verif.Props.C126_exact",
    "Verif.Props.C126_without_refunds_partial",
    "Verif.Props.C126_refuted"
   ],
   "note": "Refuted for internal calls during which the refunds of the frame change. Exactly: the number shown is the difference of what was spent, each less what refunds could give back at that moment; it is right if and only if this part is the same at both ends (or nothing was spent). Partial theorem: with a refund counter of zero at both ends. That the number in brackets in the text is this one is C51."
  },
  {
   "property": "C127",
   "status": "proved",
   "theorems": [
    "Verif.Props.C127_cut",
    "Verif.Props.C127_iff"
   ],
   "note": "For all options of geth_traces and all configurations that record the six CALL- and CREATE-like opcodes and leave out no frame (also with an opcode filter); what is listed otherwise is C72. Hypothesis `Attached`: a sub-frame is entered by the call instruction right before it, as in revm."
  },
  {
   "property": "C128",
   "status": "partial",
   "theorems": [
    "Verif.Props.C128_exact",
    "Verif.Props.C128_lines_partial",
    "Verif.Props.C128_refuted"
   ],
   "note": "Refuted for decoded texts that contain line breaks, which are printed as they are: two transactions, one with and one without a payment, have the same text (C128_refuted). C128_exact: the lines of the text are those of the trace, one for one, if no printed decoded text contains a line break, and more otherwise. Without decoded information it always holds (C125). Texts of addresses as in C125."
  },
  {
   "property": "C129",
   "status": "partial",
   "theorems": [
    "Verif.Props.C129_exact",
    "Verif.Props.C129_written_partial",
    "Verif.Props.C129_refuted_panic",
    "Verif.Props.C129_refuted_loop"
   ],
   "note": "Refuted: reading checks the types only, not the links between the nodes, so texts are read without an error from which the flat traces panic or are built forever. C129_exact: what can be read is exactly what has numbers of 64 bits and known opcodes, and it can be written and read again unchanged. C129_written_partial: for texts the library wrote, all results can be built. Forms of JSON that are accepted but never written are modelled as far as said in Model/Stored."
  },
  {
   "property": "C130",
   "status": "partial",
   "theorems": [
    "Verif.Props.C130_held_or_undone",
    "Verif.Props.C130_held_partial",
    "Verif.Props.C130_refuted"
   ],
   "note": "Refuted where a frame that wrote was reverted: its values stay in the maps of later logs (C130_refuted). C130_held_partial: executions in which nothing is undone, with the proviso of C18 about ambiguous accesses. C130_held_or_undone: a value that is shown and not held was the last one written and was undone since. What is shown in every execution is C18_exact."
  },
  {
   "property": "C131",
   "status": "partial",
   "theorems": [
    "Verif.Props.C131_exact",
    "Verif.Props.C131_right_partial",
    "Verif.Props.C131_arith_partial",
    "Verif.Props.C131_refuted"
   ],
   "note": "C131_exact gives the answer of the six comparing methods for every number and decimal literal. It is right for integers below 2^53, the infinities, and for larger numbers if the big integer is not rounded to them (C131_right_partial); arithmetic is right with such numbers and with texts that are read (C131_arith_partial). Missing: from 2^53 on numbers are compared by their shortest digits, so that the big integer 2^60 is not equal to 2**60, and comparisons with fractions throw (C131_refuted)."
  },
  {
   "property": "C132",
   "status": "proved",
   "theorems": [
    "Verif.Props.C132_last_asked",
    "Verif.Props.C132_recorded"
   ],
   "note": "For every chain of the seventeen methods from every configuration, and what an inspector with it records of every transaction. What leaving out calls of precompiles means for the recording is C10; what is in the storage changes is C08."
  },
  {
   "property": "C133",
   "status": "partial",
   "theorems": [
    "Verif.Props.C133_exact",
    "Verif.Props.C133_right_iff",
    "Verif.Props.C133_right_partial",
    "Verif.Props.C133_refuted"
   ],
   "note": "C133_exact: the operators compare the nearest doubles; C133_right_iff says for each operator exactly when the answer is right. It is right for all integers that are doubles, and an answer that one side is greater is always right (C133_right_partial). Missing, because false: different integers with the same nearest double are taken for equal, and == of two big integers compares objects, so that bigint(\"5\") == bigint(\"5\") is false (C133_refuted). The operators themselves are those of ECMAScript."
  },
  {
   "property": "C134",
   "status": "partial",
   "theorems": [
    "Verif.Props.C134_any",
    "Verif.Props.C134_unfused",
    "Verif.Props.C134_text",
    "Verif.Props.C134_two_partial",
    "Verif.Props.C134_refuted"
   ],
   "note": "C134_any: for every arena with undecoded steps exactly when it is printed and when the writer panics. C134_unfused: of several transactions recorded without fuse() the arena is printed exactly if none recorded more steps in its root than the last one. C134_text: what is printed then. C134_two_partial is the part that holds for two transactions. Missing, because false: a longer transaction before a shorter one makes the writer panic (C134_refuted)."
  },
  {
   "property": "C135",
   "status": "partial",
   "theorems": [
    "Verif.Props.C135_call_frames",
    "Verif.Props.C135_apart_from_selfdestructs",
    "Verif.Props.C135_selfdestructs",
    "Verif.Props.C135_logs",
    "Verif.Props.C135_when",
    "Verif.Props.C135_two_partial",
    "Verif.Props.C135_refuted",
    "Verif.Props.C135_refuted_logs",
    "Verif.Props.C135_refuted_selfdestruct"
   ],
   "note": "C135_call_frames: exactly what geth_call_traces without logs returns for any number of transactions in which no root and no first frame below it selfdestructs. C135_apart_from_selfdestructs: for any transactions the same, apart from the frames of selfdestructs. C135_selfdestructs: the frames of selfdestructs are, in some order, those of all calls below a root and that of the last root. C135_logs: as C135_call_frames with logs; each transaction shows the logs it would show had it ended as the last one did. C135_when: for two of them it is the result for the second alone exactly if the first entered no frame. C135_two_partial: in that case the struct logs are right too. Missing, because false: after a transaction with calls both show calls of the earlier one (C135_refuted), and logs of an earlier root, even a reverted one, are shown as logs of the last account (C135_refuted_logs). Not stated: below which frame the selfdestructs of roots and of first frames are shown; the formula with them fails (C135_refuted_selfdestruct)."
  },
  {
   "property": "C136",
   "status": "partial",
   "theorems": [
    "Verif.Props.C136_traces",
    "Verif.Props.C136_when",
    "Verif.Props.C136_last_partial",
    "Verif.Props.C136_refuted"
   ],
   "note": "C136_traces: exactly what into_transaction_traces returns for any number of transactions. C136_when: for two of them it is the result for the second alone exactly if the first shows no call. C136_last_partial: the same direction for any number. Missing, because false: after a transaction with calls the traces show them too and the paths are others (C136_refuted)."
  },
  {
   "property": "C137",
   "status": "partial",
   "theorems": [
    "Verif.Props.C137_alone_partial",
    "Verif.Props.C137_refuted"
   ],
   "note": "C137_alone_partial: any number of earlier transactions that entered no frame; then the vm trace, the traces of all requested types and the results with state are those of the last transaction alone. Missing, because false: after a transaction with calls the vm trace shows the instructions of an earlier callee (C137_refuted)."
  },
  {
   "property": "C138",
   "status": "partial",
   "theorems": [
    "Verif.Props.C138_state_partial",
    "Verif.Props.C138_fourbyte",
    "Verif.Props.C138_calls",
    "Verif.Props.C138_apart_from_selfdestructs",
    "Verif.Props.C138_logs",
    "Verif.Props.C138_logs_ended",
    "Verif.Props.C138_refuted"
   ],
   "note": "C138_state_partial: the entries of the prestate and noop tracers do not depend on what the mux was used for before. C138_fourbyte: the counts of the four-byte tracer are the sums over all transactions (below 2^64). C138_calls: the call tracer, without logs and if no root and no first frame below it selfdestructs, reports the root of the last transaction with the calls of all of them. C138_apart_from_selfdestructs: for any transactions the same, apart from the frames of selfdestructs. C138_logs: as C138_calls with logs, if no transaction failed. C138_logs_ended: the same for transactions that end differently, where calls and logs are those of each transaction had it ended as the last one. Missing, because false: calls and counts of earlier transactions are reported too (C138_refuted). Not stated: where the selfdestructs of roots and of first frames are shown, nested muxes (C42_nested reduces them to their parts)."
  },
  {
   "property": "C56",
   "status": "proved",
   "theorems": [
    "Verif.Props.C56_callers"
   ],
   "note": ""
  }
 ]
}