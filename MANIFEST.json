{
 "claims": [
  {
   "property": "C01",
   "status": "proved",
   "theorems": [
    "Hpl.C01_message_roundtrip",
    "Hpl.C01_message_layout"
   ],
   "note": "all messages, all byte strings; layout spec independent of encoder"
  },
  {
   "property": "C02",
   "status": "proved",
   "theorems": [
    "Hpl.C02_id_binding"
   ],
   "note": "collision disjunct names the two preimages"
  },
  {
   "property": "C03",
   "status": "proved",
   "theorems": [
    "Hpl.C03_warp_payload_roundtrip"
   ],
   "note": "32-byte recipients (other lengths: C60)"
  },
  {
   "property": "C04",
   "status": "proved",
   "theorems": [
    "Hpl.C04_message_id_metadata",
    "Hpl.C04_short_tree_padded"
   ],
   "note": ""
  },
  {
   "property": "C05",
   "status": "proved",
   "theorems": [
    "Hpl.C05_merkle_root_metadata"
   ],
   "note": ""
  },
  {
   "property": "C06",
   "status": "partial",
   "theorems": [
    "Hpl.C06_aggregate_roundtrip_partial",
    "Hpl.C06_reader_layout",
    "Hpl.C06_full_refuted",
    "Hpl.C06_wasm32_packer_panics"
   ],
   "note": "full claim is false (library packer sorts by address, reader uses stored order); partial covers packing in list order for every order, the layout the reader expects, and the library packer for ascending lists"
  },
  {
   "property": "C07",
   "status": "partial",
   "theorems": [
    "Hpl.C07_igp_metadata_roundtrip",
    "Hpl.C07_refund_address_partial",
    "Hpl.C07_zero_prefix_aborts",
    "Hpl.C07_full_refuted"
   ],
   "note": "full claim is false: 16 leading zero bytes abort the call; partial covers all other addresses"
  },
  {
   "property": "C08",
   "status": "proved",
   "theorems": [
    "Hpl.C08_bech32_identity",
    "Hpl.C08_bech32_total"
   ],
   "note": "concrete BIP-173 codec, all prefixes, canonical (lower-case Bech32) addresses"
  },
  {
   "property": "C09",
   "status": "proved",
   "theorems": [
    "Hpl.C09_root_correct",
    "Hpl.C09_root_correct_keccak"
   ],
   "note": "any hash with its zero chain; instance for keccak256 and the hard-coded table"
  },
  {
   "property": "C10",
   "status": "proved",
   "theorems": [
    "Hpl.C10_inclusion_complete"
   ],
   "note": ""
  },
  {
   "property": "C100",
   "status": "proved",
   "theorems": [
    "Hpl.C100_endless_hooks",
    "Hpl.C100_endless_modules"
   ],
   "note": "circles and other endless chains are infinite paths; gas and query depth arbitrary"
  },
  {
   "property": "C101",
   "status": "proved",
   "theorems": [
    "Hpl.C101_dispatches_seen",
    "Hpl.C101_observers_safe",
    "Hpl.C101_observers_deliver",
    "Hpl.C101_keys_deliver"
   ],
   "note": "Events as text attributes, keccak256 and recovery on secp256k1 as computed by the model. What is broken in the other alternatives is named: the signature in the metadata, the address, or the two inputs with one hash. Liveness for a multisig contract as the responsible module, and for any tree of modules (`KeyCan`)."
  },
  {
   "property": "C102",
   "status": "proved",
   "theorems": [
    "Hpl.C102_backed_or_broken",
    "Hpl.C102_transfers_arrive"
   ],
   "note": "C88 with keccak256 and secp256k1 as computed; the assumption of C88 that nobody forges becomes an alternative naming the delivery. Conditions on deployment, callers, routes and lengths of recipients as in C88 (see DESIGN section 2)."
  },
  {
   "property": "C103",
   "status": "proved",
   "theorems": [
    "Hpl.C103_hooks_are_paid",
    "Hpl.C103_called_hooks_are_paid",
    "Hpl.C103_calls_unique"
   ],
   "note": "Over HookSystem. The coins may come from an aggregate hook's balance rather than from the sender (C66). Hooks outside of the model are not covered."
  },
  {
   "property": "C104",
   "status": "proved",
   "theorems": [
    "Hpl.C104_retyped_refused",
    "Hpl.C104_prefix_refused",
    "Hpl.C104_second_text"
   ],
   "note": "Over the concrete codec Bech, which follows BIP-173 and BIP-350 because the bech32 crate's source is not in /repo."
  },
  {
   "property": "C105",
   "status": "proved",
   "theorems": [
    "Hpl.C105_locations_are_own",
    "Hpl.C105_anybody_announces",
    "Hpl.C105_shown_for_ever"
   ],
   "note": "Honest use is a set of statements signed; forging is described by the signatures found in the log."
  },
  {
   "property": "C106",
   "status": "proved",
   "theorems": [
    "Hpl.C106_hooks",
    "Hpl.C106_modules",
    "Hpl.C106_others",
    "Hpl.C106_collateral"
   ],
   "note": "Routers for new tokens are made in two steps, see C87; their first step is in C106_others."
  },
  {
   "property": "C11",
   "status": "proved",
   "theorems": [
    "Hpl.C11_inclusion_sound"
   ],
   "note": "32-byte items and leaves; collision disjunct names height and both hash inputs"
  },
  {
   "property": "C12",
   "status": "proved",
   "theorems": [
    "Hpl.C12_root_binds_history"
   ],
   "note": "collision disjunct names the inner node"
  },
  {
   "property": "C13",
   "status": "proved",
   "theorems": [
    "Hpl.C13_insert_total",
    "Hpl.C13_capacity"
   ],
   "note": ""
  },
  {
   "property": "C14",
   "status": "proved",
   "theorems": [
    "Hpl.C14_zero_hashes"
   ],
   "note": "concrete keccak-f[1600] evaluated by the kernel on all 32 constants"
  },
  {
   "property": "C15",
   "status": "proved",
   "theorems": [
    "Hpl.C15_at_most_once"
   ],
   "note": "Any history of nested transactions with reentrancy, aborts and caught failures."
  },
  {
   "property": "C16",
   "status": "proved",
   "theorems": [
    "Hpl.C16_ism_approval"
   ],
   "note": "ISM answers are an arbitrary function per call."
  },
  {
   "property": "C17",
   "status": "proved",
   "theorems": [
    "Hpl.C17_handle_fidelity"
   ],
   "note": "Any codec; recipient identified with the account of that 32-byte form."
  },
  {
   "property": "C18",
   "status": "proved",
   "theorems": [
    "Hpl.C18_delivered_is_history"
   ],
   "note": ""
  },
  {
   "property": "C19",
   "status": "proved",
   "theorems": [
    "Hpl.C19_nonces"
   ],
   "note": ""
  },
  {
   "property": "C20",
   "status": "proved",
   "theorems": [
    "Hpl.C20_dispatched_contents",
    "Hpl.C20_sender_identifies_caller",
    "Hpl.C20_latest_id"
   ],
   "note": ""
  },
  {
   "property": "C21",
   "status": "proved",
   "theorems": [
    "Hpl.C21_forwards_all_funds"
   ],
   "note": ""
  },
  {
   "property": "C22",
   "status": "proved",
   "theorems": [
    "Hpl.C22_payment_check"
   ],
   "note": "Funds without repeated denominations, as the bank guarantees."
  },
  {
   "property": "C23",
   "status": "proved",
   "theorems": [
    "Hpl.C23_quote_exact"
   ],
   "note": "Also needs a 32-byte recipient (the quote does not check it) and an unexhausted nonce."
  },
  {
   "property": "C24",
   "status": "proved",
   "theorems": [
    "Hpl.C24_owner_only_config"
   ],
   "note": ""
  },
  {
   "property": "C25",
   "status": "partial",
   "theorems": [
    "Hpl.C25_named_wins_partial",
    "Hpl.C25_process_full_refuted",
    "Hpl.C25_dispatch_full_refuted"
   ],
   "note": "The claim is false of the code when the default is unset: both calls panic. Refuted with concrete witnesses; proved between two set defaults."
  },
  {
   "property": "C26",
   "status": "proved",
   "theorems": [
    "Hpl.C26_end_to_end"
   ],
   "note": "Success direction needs a default ISM to be set, see C25."
  },
  {
   "property": "C27",
   "status": "proved",
   "theorems": [
    "Hpl.C27_ownership"
   ],
   "note": "for ownership combined with any other package, arbitrary histories"
  },
  {
   "property": "C28",
   "status": "proved",
   "theorems": [
    "Hpl.C28_pause_flag"
   ],
   "note": "arbitrary histories of ownership and pause calls"
  },
  {
   "property": "C29",
   "status": "proved",
   "theorems": [
    "Hpl.C29_router"
   ],
   "note": "a cleared route stays listed as a domain (null route), as in the code"
  },
  {
   "property": "C30",
   "status": "proved",
   "theorems": [
    "Hpl.C30_pagination",
    "Hpl.C30_routes",
    "Hpl.C30_gas_amounts"
   ],
   "note": "any ordered key type; default page size included; the listings of routes and gas amounts against what the owner wrote, after any history"
  },
  {
   "property": "C31",
   "status": "proved",
   "theorems": [
    "Hpl.C31_connection"
   ],
   "note": ""
  },
  {
   "property": "C32",
   "status": "proved",
   "theorems": [
    "Hpl.C32_migration"
   ],
   "note": "parser and version order are arbitrary (any linear order)"
  },
  {
   "property": "C33",
   "status": "proved",
   "theorems": [
    "Hpl.C33_announcements_signed"
   ],
   "note": "All histories of nested transactions; hash and key recovery are arbitrary functions."
  },
  {
   "property": "C34",
   "status": "proved",
   "theorems": [
    "Hpl.C34_no_replay"
   ],
   "note": "Blocking by a different pair yields an explicit collision of the hash."
  },
  {
   "property": "C35",
   "status": "proved",
   "theorems": [
    "Hpl.C35_digest_binding",
    "Hpl.C35_mailbox_of_padded"
   ],
   "note": "Equal digests give equal inputs or a collision of named preimages; equal padded mailbox addresses give equal addresses up to leading zero bytes."
  },
  {
   "property": "C36",
   "status": "proved",
   "theorems": [
    "Hpl.C36_quorum_sound"
   ],
   "note": ""
  },
  {
   "property": "C37",
   "status": "proved",
   "theorems": [
    "Hpl.C37_quorum_complete",
    "Hpl.C37_quorum_prefix"
   ],
   "note": "Recovered public keys are assumed not empty (the code drops their first byte)."
  },
  {
   "property": "C38",
   "status": "partial",
   "theorems": [
    "Hpl.C38_config_partial",
    "Hpl.C38_full_refuted",
    "Hpl.C38_unattainable"
   ],
   "note": "Everything holds but the consequence: repeated validators are accepted, so the threshold can be unattainable (refuted by a concrete history; from then on nothing verifies). Proved attainable without repetition."
  },
  {
   "property": "C39",
   "status": "proved",
   "theorems": [
    "Hpl.C39_digest_binding",
    "Hpl.C39_no_reuse"
   ],
   "note": "Collisions are of named preimages."
  },
  {
   "property": "C40",
   "status": "partial",
   "theorems": [
    "Hpl.C40_aggregate_sound_partial",
    "Hpl.C40_full_refuted",
    "Hpl.C40_zero_threshold"
   ],
   "note": "False for a module instantiated with threshold zero and never reconfigured (refuted, exact behaviour in C40_zero_threshold); proved otherwise."
  },
  {
   "property": "C41",
   "status": "partial",
   "theorems": [
    "Hpl.C41_aggregate_complete_partial",
    "Hpl.C41_full_refuted"
   ],
   "note": "False for threshold zero (one approving module makes the query panic); proved for thresholds of at least one."
  },
  {
   "property": "C42",
   "status": "proved",
   "theorems": [
    "Hpl.C42_routing_delegates"
   ],
   "note": ""
  },
  {
   "property": "C43",
   "status": "proved",
   "theorems": [
    "Hpl.C43_pausable_ism"
   ],
   "note": ""
  },
  {
   "property": "C44",
   "status": "proved",
   "theorems": [
    "Hpl.C44_nested_sound",
    "Hpl.C44_some_leaf",
    "Hpl.C44_depth_irrelevant",
    "Hpl.C44_delivery_backed"
   ],
   "note": "Also cyclic nestings. Aggregates are assumed instantiated with threshold at least one (see C40)."
  },
  {
   "property": "C45",
   "status": "proved",
   "theorems": [
    "Hpl.C45_only_dispatched"
   ],
   "note": "Whole mailbox plus merkle hook system, all transaction histories with nesting and rollback."
  },
  {
   "property": "C46",
   "status": "partial",
   "theorems": [
    "Hpl.C46_recorded_partial",
    "Hpl.C46_full_refuted"
   ],
   "note": "The full statement is false: anyone may call the hook again for the latest message, which adds a duplicate leaf; refuted by a concrete history. Proved for histories in which the hook is driven by the mailbox."
  },
  {
   "property": "C47",
   "status": "proved",
   "theorems": [
    "Hpl.C47_queries"
   ],
   "note": ""
  },
  {
   "property": "C48",
   "status": "partial",
   "theorems": [
    "Hpl.C48_fee_partial",
    "Hpl.C48_full_refuted"
   ],
   "note": "Acceptance is characterised exactly after all histories. That paying the quote always succeeds is false for a zero fee (refuted); proved for every non-zero fee."
  },
  {
   "property": "C49",
   "status": "proved",
   "theorems": [
    "Hpl.C49_fee_hook",
    "Hpl.C49_paymaster"
   ],
   "note": "All executions with nested calls and rollback; the account is tracked exactly."
  },
  {
   "property": "C50",
   "status": "proved",
   "theorems": [
    "Hpl.C50_pausable"
   ],
   "note": ""
  },
  {
   "property": "C51",
   "status": "proved",
   "theorems": [
    "Hpl.C51_routing",
    "Hpl.C51_fallback",
    "Hpl.C51_custom"
   ],
   "note": "The fallback variant fails as long as no fallback is set, even where a route exists; this is part of the proved statement."
  },
  {
   "property": "C52",
   "status": "partial",
   "theorems": [
    "Hpl.C52_routing_partial",
    "Hpl.C52_fallback_partial",
    "Hpl.C52_custom_partial",
    "Hpl.C52_full_refuted"
   ],
   "note": "False for all three routing hooks (refuted by reachable states): coins are never forwarded. Proved: what does hold when the quote is empty, that no call ever makes a routing hook send coins, and that a fee hook behind one rejects everything."
  },
  {
   "property": "C53",
   "status": "proved",
   "theorems": [
    "Hpl.C53_aggregate"
   ],
   "note": ""
  },
  {
   "property": "C54",
   "status": "partial",
   "theorems": [
    "Hpl.C54_full_refuted",
    "Hpl.C54_quote_partial"
   ],
   "note": "As stated it fails for exchange rate zero: the quote aborts when gas*price overflows although the product is zero (C54_full_refuted). Proved with that case split off; for non-zero rates the statement holds in full."
  },
  {
   "property": "C55",
   "status": "proved",
   "theorems": [
    "Hpl.C55_payment"
   ],
   "note": "Exact characterisation for paying and for post-dispatching, after any history."
  },
  {
   "property": "C56",
   "status": "partial",
   "theorems": [
    "Hpl.C56_full_refuted",
    "Hpl.C56_refund_zero_prefix",
    "Hpl.C56_pay_quote_partial"
   ],
   "note": "False as stated: a zero quote cannot be paid (C56_full_refuted), and a refund address beginning with 16 zero bytes aborts (C56_refund_zero_prefix). These are proved to be the only exceptions."
  },
  {
   "property": "C57",
   "status": "proved",
   "theorems": [
    "Hpl.C57_gas_settings"
   ],
   "note": "After any history."
  },
  {
   "property": "C58",
   "status": "partial",
   "theorems": [
    "Hpl.C58_full_refuted",
    "Hpl.C58_oracle_partial"
   ],
   "note": "False as stated: SetRemoteGasData writes a zero rate (C58_full_refuted). Proved otherwise: reads return the owner's last entry, only the owner writes, a zero rate comes only from the singular form."
  },
  {
   "property": "C59",
   "status": "proved",
   "theorems": [
    "Hpl.C59_native",
    "Hpl.C59_cw20"
   ],
   "note": "After any history from deployment, deliveries succeed exactly under the stated conditions with exactly the stated messages; no other call emits a mint or release."
  },
  {
   "property": "C60",
   "status": "proved",
   "theorems": [
    "Hpl.C60_native",
    "Hpl.C60_cw20",
    "Hpl.C60_long_recipient"
   ],
   "note": "Exact characterisation for 32-byte recipients, as in the property. C60_long_recipient shows that the code does not enforce that length and what a caller gains."
  },
  {
   "property": "C61",
   "status": "partial",
   "theorems": [
    "Hpl.Bridge.C61_full_refuted",
    "Hpl.Bridge.C61_backing_partial",
    "Hpl.Bridge.C61_equality_partial"
   ],
   "note": "As stated it is false: the routers do not check the length of the recipient, and a recipient of 64 bytes lets the sender choose the amount the other chain reads (C61_full_refuted). Proved: backing for recipients of at most 32 bytes, exact balance for recipients of 32 bytes, for all executions of both mailboxes and routers with arbitrary nesting and rollback; security modules assumed sound."
  },
  {
   "property": "C62",
   "status": "partial",
   "theorems": [
    "Hpl.C62_full_refuted",
    "Hpl.C62_mailbox_fixed_partial"
   ],
   "note": "The full statement C62_full is false for the code (two separate storage items). Proved instead: the mailbox named at deployment stays in force for ever; ISM and hook settings take effect."
  },
  {
   "property": "C63",
   "status": "proved",
   "theorems": [
    "Hpl.C63_guarded_sound",
    "Hpl.C63_delivery_sound",
    "Hpl.C63_end_to_end"
   ],
   "note": "Forgeries and collisions are named disjuncts about the submitted metadata, not assumptions. Signing keys are assumed to sign only checkpoints and storage announcements."
  },
  {
   "property": "C64",
   "status": "proved",
   "theorems": [
    "Hpl.Bridge.C64_validators_keep_backing"
   ],
   "note": "Recipients of 32 bytes, as in the property; for longer ones see C61."
  },
  {
   "property": "C65",
   "status": "proved",
   "theorems": [
    "Hpl.C65_quote_pays_tree"
   ],
   "note": "A chain with mailbox, hooks, oracles and all balances; messages executed depth first. In order means: fees and gas quotes not zero (C48, C56), nothing to pay below a routing hook (C52), merkle hooks belong to this mailbox and have room, refund address supported."
  },
  {
   "property": "C66",
   "status": "partial",
   "theorems": [
    "Hpl.C66_aggregate_account_partial",
    "Hpl.C66_full_refuted",
    "Hpl.C66_surplus_spent_by_others"
   ],
   "note": "False of the code: the hook pays its hooks' quotes from its own account whatever is attached. Surplus stays there and anybody calling the hook without coins spends it (refuted with a concrete run). Proved: success and exact balances for any attached coins; its balance is unchanged exactly if the attached coins are the quote."
  },
  {
   "property": "C67",
   "status": "proved",
   "theorems": [
    "Hpl.C67_network_at_most_once"
   ],
   "note": "Any collection of chains, one codec each. No collision-freeness is needed: the statement is about message bytes."
  },
  {
   "property": "C68",
   "status": "proved",
   "theorems": [
    "Hpl.C68_process_iff",
    "Hpl.C68_dispatch_iff",
    "Hpl.C68_recipient_total"
   ],
   "note": "Exact conditions; the default ISM and default hook must be set even if another is named, see C25."
  },
  {
   "property": "C69",
   "status": "proved",
   "theorems": [
    "Hpl.C69_dispatch_coins",
    "Hpl.C69_hook_call_coins"
   ],
   "note": "Any arrangement of hooks, by induction over the messages executed."
  },
  {
   "property": "C70",
   "status": "proved",
   "theorems": [
    "Hpl.C70_out_of_service"
   ],
   "note": "Any arrangement of hooks."
  },
  {
   "property": "C71",
   "status": "proved",
   "theorems": [
    "Hpl.C71_dispatch_recorded"
   ],
   "note": "Any arrangement of hooks; at least once, since a hook may be reached several ways (and C46 says anyone may repeat it)."
  },
  {
   "property": "C72",
   "status": "proved",
   "theorems": [
    "Hpl.Bridge.C72_transfer_arrives"
   ],
   "note": "Recipients of all transfers of at most 32 bytes, as in the property (the code does not check it, see C61); delivery of a message with the same hash named as the only way to block it."
  },
  {
   "property": "C73",
   "status": "proved",
   "theorems": [
    "Hpl.C73_token_factory_messages",
    "Hpl.C73_deployment_messages",
    "Hpl.C73_router_messages",
    "Hpl.C73_requests_differ",
    "Hpl.C73_reply",
    "Hpl.C73_to_uint128"
   ],
   "note": "Encoder and decoder of prost are modelled from its documented behaviour (prost itself is not in /repo); encodings are assumed shorter than 2^64 bytes; a group field in a reply is refused by the model."
  },
  {
   "property": "C74",
   "status": "partial",
   "theorems": [
    "Hpl.C74_messages",
    "Hpl.C74_queries_partial",
    "Hpl.C74_answers_partial",
    "Hpl.C74_texts_distinct",
    "Hpl.C74_verify_info_refused",
    "Hpl.C74_verify_info_answers",
    "Hpl.C74_full_refuted"
   ],
   "note": "The full claim is false: the routing module asks VerifyInfo without wrapping it, which every module refuses, and answers it with another type than declared; the pausable module panics on it. Everything else is proved: all execute messages, all other queries with their answers, and all other declared response types."
  },
  {
   "property": "C75",
   "status": "proved",
   "theorems": [
    "Hpl.C75_owners_in_control"
   ],
   "note": "All fifteen contracts with an owner; Spec/Governance.lean lists the settings messages and when they are acceptable."
  },
  {
   "property": "C76",
   "status": "partial",
   "theorems": [
    "Hpl.C76_relayable_partial",
    "Hpl.C76_blocked",
    "Hpl.C76_deliverable",
    "Hpl.C76_full_refuted"
   ],
   "note": "The full claim (threshold many approvable modules make an aggregate approvable) is false: Hpl.C76_full is refuted by a paused module before an approving one. Proved: it holds if the modules asked before the last approving one can answer, for any nesting; and a module that never answers blocks everything else."
  },
  {
   "property": "C77",
   "status": "proved",
   "theorems": [
    "Hpl.C77_custom_listing"
   ],
   "note": "Model of list_custom_hooks over the composite key; uses C30 for paging and C51 for the routing of messages."
  },
  {
   "property": "C78",
   "status": "proved",
   "theorems": [
    "Hpl.C78_storage"
   ],
   "note": "The keys of items and maps and the bounds of ranges of cw-storage-plus are transcribed and part of the trusted base; the names are those of the repository."
  },
  {
   "property": "C79",
   "status": "proved",
   "theorems": [
    "Hpl.C79_mailbox_events",
    "Hpl.C79_merkle_events",
    "Hpl.C79_announcement_events"
   ],
   "note": "Histories of transactions with nested calls and rollback; events as texts."
  },
  {
   "property": "C80",
   "status": "proved",
   "theorems": [
    "Hpl.C80_gas_events",
    "Hpl.C80_gas_settings_events",
    "Hpl.C80_native_events",
    "Hpl.C80_cw20_events"
   ],
   "note": "Per call in every state, settings over all histories. Observed: the event of the native router does not name the destination, and the events about gas per domain do not name the amounts."
  },
  {
   "property": "C81",
   "status": "proved",
   "theorems": [
    "Hpl.TokenNet.C81_network_backing",
    "Hpl.TokenNet.C81_network_exact"
   ],
   "note": "Recipients of at most 32 bytes, as in the property (the code does not check it, see C61). Owners may change routes within the network at any time."
  },
  {
   "property": "C82",
   "status": "proved",
   "theorems": [
    "Hpl.TokenNet.C82_network_transfer_arrives",
    "Hpl.TokenNet.C82_empty_pool"
   ],
   "note": "C82_empty_pool: with several collateral routers an announced and approved transfer can be undeliverable."
  },
  {
   "property": "C83",
   "status": "proved",
   "theorems": [
    "Hpl.TokenNet.C83_validators_keep_network_backed"
   ],
   "note": "Recipients of at most 32 bytes, as in C81."
  },
  {
   "property": "C84",
   "status": "proved",
   "theorems": [
    "Hpl.TokenWorld.C84_holders_backed",
    "Hpl.TokenWorld.C84_exact"
   ],
   "note": "Recipients of at most 32 bytes (C61). Bank, token factory and cw20-base are modelled after their documentation."
  },
  {
   "property": "C85",
   "status": "proved",
   "theorems": [
    "Hpl.TokenWorld.C85_tokens_arrive",
    "Hpl.TokenWorld.C85_zero_never_arrives"
   ],
   "note": "Positive amounts, as in the property; C85_zero_never_arrives shows why."
  },
  {
   "property": "C86",
   "status": "proved",
   "theorems": [
    "Hpl.TokenWorld.C86_only_the_caller_pays",
    "Hpl.TokenWorld.C86_idle_accounts_lose_nothing"
   ],
   "note": "No assumption about owners, modules or remote routers."
  },
  {
   "property": "C87",
   "status": "partial",
   "theorems": [
    "Hpl.Deploy.C87_full_refuted",
    "Hpl.Deploy.C87_deployment_in_order",
    "Hpl.Deploy.C87_initial_supply",
    "Hpl.Deploy.C87_backed_from_deployment_partial",
    "Hpl.Deploy.C87_cw20_reply"
   ],
   "note": "The full claim is false: the cw20 router keeps initial_balances of the token's instantiation message, so tokens without backing can exist from the start and be exchanged for collateral of others. Proved without initial balances; native routers need no condition."
  },
  {
   "property": "C88",
   "status": "proved",
   "theorems": [
    "Hpl.Deploy.C88_validators_back_holders",
    "Hpl.Deploy.C88_attested_transfers_arrive"
   ],
   "note": "Deployment (C87), tokens (C84, C85), security modules (C82) and relayability (C76) together. Honesty of validators, unforgeability and absence of hash collisions among the occurring messages are hypotheses about the execution, met in the examples of namespace Guard."
  },
  {
   "property": "C89",
   "status": "proved",
   "theorems": [
    "Hpl.TokenWorld.C89_deliveries_in_any_order",
    "Hpl.TokenWorld.C89_no_delivery_needs_another"
   ],
   "note": "Swapping two neighbouring deliveries, then induction over permutations. Excluded are deliveries with coins for the mailbox, and payments to the router itself, which could fund a later payment; an example shows that these must be excluded. The answer of the security module is part of the delivery, recipients other than routers have no state."
  },
  {
   "property": "C90",
   "status": "partial",
   "theorems": [
    "Hpl.C90_module_owners_partial",
    "Hpl.C90_hook_owners_partial",
    "Hpl.C90_paused_partial",
    "Hpl.C90_routes_partial",
    "Hpl.C90_connections_partial",
    "Hpl.C90_enrolment_partial",
    "Hpl.C90_modules_partial",
    "Hpl.C90_lists_partial",
    "Hpl.C90_gas_domains_partial",
    "Hpl.C90_fee_and_fallback_partial",
    "Hpl.C90_custom_partial",
    "Hpl.C90_passed_on_partial",
    "Hpl.C90_post_dispatch_partial",
    "Hpl.C90_untold",
    "Hpl.C90_full_refuted"
   ],
   "note": "The full claim (Hpl.C90_full: the whole state of each contract is determined by its events) is false of the code: C90_full_refuted; C90_untold gives the four settings that no event tells. Everything else in the statement is proved. Missing: nothing that is true."
  },
  {
   "property": "C91",
   "status": "proved",
   "theorems": [
    "Hpl.C91_settings_stay",
    "Hpl.C91_quotes_stay",
    "Hpl.C91_idle_account",
    "Hpl.C91_dispatch_stays_possible",
    "Hpl.C91_process_stays_possible"
   ],
   "note": "For all worlds and all runs in which only accounts that own nothing act (relation Runs: any list of calls, contracts outside of the model going on with anything when called). Nonces below 2^32 and room in the trees are hypotheses about the state in which the dispatch is made: people can use both up. Supplies of coins outside of the model are not created in a run."
  },
  {
   "property": "C92",
   "status": "proved",
   "theorems": [
    "Hpl.C92_mailbox_why",
    "Hpl.C92_mailbox_ready",
    "Hpl.C92_mailbox_stays_complete",
    "Hpl.C92_mailbox_queries",
    "Hpl.C92_merkle",
    "Hpl.C92_plain_hooks",
    "Hpl.C92_aggregate_hook",
    "Hpl.C92_routing_hooks",
    "Hpl.C92_paymaster",
    "Hpl.C92_gas_quotes",
    "Hpl.C92_multisig",
    "Hpl.C92_aggregate_ism",
    "Hpl.C92_other_isms",
    "Hpl.C92_announce",
    "Hpl.C92_native_router",
    "Hpl.C92_cw20_router"
   ],
   "note": "Exact (if and only if) for everything except the mailbox before its settings are made, the multisig module (a bad signature behind enough good ones is not looked at) and the aggregate module with threshold zero (C40, C41). Answers of other contracts are assumed not to be panics: the host turns a panic of a queried contract into an error. Hash results of 32 bytes and non-empty recovered keys are assumed for signatures."
  },
  {
   "property": "C93",
   "status": "proved",
   "theorems": [
    "Hpl.C93_duties",
    "Hpl.C93_refused",
    "Hpl.C93_heard",
    "Hpl.C93_own_name"
   ],
   "note": "for all contracts, states and calls; texts are those of the JSON model of C74; the full Cw20ExecuteMsg is taken from the dependency with Binary content as text"
  },
  {
   "property": "C94",
   "status": "partial",
   "theorems": [
    "Hpl.C94_texts_partial",
    "Hpl.C94_migrates_partial",
    "Hpl.C94_never_back_partial",
    "Hpl.C94_releases_partial",
    "Hpl.C94_candidate_release_partial",
    "Hpl.C94_dotted_candidates_partial",
    "Hpl.C94_candidates_partial",
    "Hpl.C94_full_refuted"
   ],
   "note": "Everything holds but the last sentence, which is false: candidates rcN are compared as texts, so rc9 cannot be followed by rc10 (C94_full_refuted). It holds for numbers with equally many digits, and for all numbers written after a dot (rc.N)."
  },
  {
   "property": "C95",
   "status": "partial",
   "theorems": [
    "Hpl.C95_hook_owners_partial",
    "Hpl.C95_module_owners_partial",
    "Hpl.C95_mailbox_partial",
    "Hpl.C95_paymaster_partial",
    "Hpl.C95_fee_and_lists_partial",
    "Hpl.C95_mailbox_of_partial",
    "Hpl.C95_routers_partial",
    "Hpl.C95_tells_partial",
    "Hpl.C95_untold",
    "Hpl.C95_full_refuted"
   ],
   "note": "Everything holds but that the events tell all of the making: they do not for mailbox (domain, prefix), multisig module (owner, hence also not at later times), pausable hook and module (paused), routing module (modules), paymaster (gas token, prefix) and routers (mailbox, prefix): C95_untold. For the nine other contracts they do (C95_tells_partial, addresses without commas)."
  },
  {
   "property": "C96",
   "status": "proved",
   "theorems": [
    "Hpl.C96_texts",
    "Hpl.C96_written",
    "Hpl.C96_token"
   ],
   "note": "for all messages whose numbers fit their types; texts are those of the JSON model of C74; embedded logos of cw20 tokens are left out"
  },
  {
   "property": "C97",
   "status": "proved",
   "theorems": [
    "Hpl.C97_recover_iff",
    "Hpl.C97_keys",
    "Hpl.C97_twin",
    "Hpl.C97_generator"
   ],
   "note": "The implementation is outside of the repository (cosmwasm-crypto, k256); the model transcribes it with affine coordinates."
  },
  {
   "property": "C98",
   "status": "proved",
   "theorems": [
    "Hpl.C98_signer",
    "Hpl.C98_quorum_sound",
    "Hpl.C98_quorum_complete",
    "Hpl.C98_announce"
   ],
   "note": "That nobody without a secret key can solve the equations is the usual assumption on ECDSA and not claimed."
  },
  {
   "property": "C99",
   "status": "proved",
   "theorems": [
    "Hpl.C99_end_to_end",
    "Hpl.C99_attested_delivered",
    "Hpl.C99_keys_deliver"
   ],
   "note": "Instances of C63 and C76; that forging is infeasible is not claimed."
  }
 ]
}
