{"id": "C01", "title": "Hyperlane message wire format round-trips", "statement": "Serialising a message whose sender and recipient are 32 bytes and parsing the bytes back yields the same message; conversely every byte string of at least 77 bytes parses to a message that serialises back to exactly those bytes, and every shorter byte string aborts the call.", "quantifier": "all versions, nonces, domains, 32-byte senders/recipients, bodies of any length; all byte strings", "why_tests_cant": "the input space (2^8*2^32*... and unbounded bodies) cannot be enumerated; tests use a handful of fixed messages", "anchors": ["packages/interface/src/types/message.rs: Message, From<Message> for HexBinary, From<HexBinary> for Message"]}
{"id": "C02", "title": "A message id commits to every field of the message", "statement": "If two well-formed messages have the same id then they are the same message, or the two serialised messages are an explicit keccak256 collision. In particular no reordering of bytes between sender, recipient and body keeps the id.", "quantifier": "all pairs of messages with 32-byte sender and recipient, any hash function", "why_tests_cant": "quantifies over pairs of unbounded inputs and over the hash function", "anchors": ["packages/interface/src/types/message.rs: Message::id", "packages/interface/src/types/crypto.rs: keccak256_hash"]}
{"id": "C03", "title": "Warp transfer payload round-trips", "statement": "The payload that a token transfer puts in the message body, when parsed by the receiving token router, yields the same recipient, amount and metadata.", "quantifier": "all 32-byte recipients, all 256-bit amounts, all metadata; and all byte strings of length >= 64 in the other direction", "why_tests_cant": "2^512 recipients/amounts and unbounded metadata", "anchors": ["packages/interface/src/warp/mod.rs: Message, From<Message> for HexBinary, From<HexBinary> for Message"]}
{"id": "C04", "title": "Multisig metadata round-trips and yields exactly the whole signatures", "statement": "Encoding message-id multisig metadata (32-byte tree address and root, 4-byte index, 65-byte signatures) and decoding it gives the same value; decoding arbitrary bytes of length >= 68 never yields a signature that is not 65 bytes long, drops only a trailing partial chunk, and shorter input aborts.", "quantifier": "all metadata values and all byte strings", "why_tests_cant": "unbounded signature lists and byte strings", "anchors": ["packages/interface/src/types/metadata.rs: MessageIdMultisigIsmMetadata"]}
{"id": "C05", "title": "Merkle-root multisig metadata round-trips and signatures are addressable", "statement": "Encoding merkle-root multisig metadata and decoding gives the same value, and when the signature blob length is a multiple of 65 the i-th signature lookup returns the i-th 65-byte chunk for every i below the reported count while any index at or beyond the count aborts.", "quantifier": "all metadata values, all signature counts and indices", "why_tests_cant": "unbounded lists of signatures; index boundary holds for every count", "anchors": ["packages/interface/src/types/metadata.rs: MerkleRootMultisigIsmMetadata::{signatures_len,signature_at}"]}
{"id": "C06", "title": "Aggregate ISM metadata round-trips", "statement": "Packing one metadata blob per ISM and unpacking the bytes against the list of those ISMs gives every ISM exactly the blob packed for it.", "quantifier": "all finite maps from ISM address to blob with total size below 2^32, all orders in which the ISM list is stored", "why_tests_cant": "unbounded maps and blob sizes; depends on the relative order of the stored list and the packed map, which tests fix", "anchors": ["packages/interface/src/types/metadata.rs: AggregateMetadata::{new,from_hex}, From<AggregateMetadata> for HexBinary"]}
{"id": "C07", "title": "Gas metadata round-trips and the refund address is what the user wrote", "statement": "IGP metadata encodes/decodes to the same gas limit and refund address; a 20-byte refund address, or the same address left padded to 32 bytes, is refunded to that account, and any length other than 20 or 32 falls back to the message sender.", "quantifier": "all 256-bit gas limits, all refund byte strings, all sender addresses", "why_tests_cant": "the faulty inputs are a 2^-32 fraction of addresses, invisible to random or example tests", "anchors": ["packages/interface/src/types/metadata.rs: IGPMetadata::get_refund_address"]}
{"id": "C08", "title": "Account address to bytes32 and back is the identity", "statement": "Turning a bech32 account or contract address into its 32-byte form and formatting it again with the same prefix yields the original address, for 20-byte accounts and for 32-byte contract addresses; two different addresses with the same prefix never map to the same 32 bytes.", "quantifier": "all prefixes, all 20-byte addresses, all 32-byte addresses that do not start with 12 zero bytes", "why_tests_cant": "2^256 addresses; checksum correctness is an algebraic fact", "anchors": ["packages/interface/src/types/bech32.rs: bech32_to_h256, bech32_decode, bech32_encode"]}
{"id": "C09", "title": "Incremental merkle root equals the root of the full depth-32 tree", "statement": "After inserting any sequence of leaves, the reported root is the root of the complete binary tree of depth 32 whose first leaves are the inserted ones in order and whose remaining leaves are zero.", "quantifier": "all leaf sequences of length up to 2^32-1, any hash function", "why_tests_cant": "2^32 tree sizes with arbitrary leaves; tests check a few vectors", "anchors": ["packages/interface/src/types/merkle.rs: MerkleTree::{insert,root,root_with_ctx}"]}
{"id": "C10", "title": "Every inserted leaf has a valid inclusion proof", "statement": "For every leaf in the tree the sibling path at its index makes the published proof-check function return the published root.", "quantifier": "all leaf sequences, all indices, any hash function", "why_tests_cant": "all tree sizes and indices", "anchors": ["packages/interface/src/types/merkle.rs: MerkleTree::branch_root"]}
{"id": "C11", "title": "Inclusion proofs are sound", "statement": "If a proof for an item at an index below 2^32 evaluates to the published root then the item is the leaf inserted at that index (the zero leaf past the end), unless the proof and the tree exhibit an explicit hash collision.", "quantifier": "all items, all proofs, all indices, all trees, any hash function with 32-byte output", "why_tests_cant": "quantifies over all forged proofs", "anchors": ["packages/interface/src/types/merkle.rs: MerkleTree::branch_root, root"]}
{"id": "C12", "title": "Checkpoint binds the whole message history", "statement": "If two trees report the same root then after padding with zero leaves they contain the same leaves in the same order, or an explicit hash collision can be read off; with equal counts the leaf sequences are equal.", "quantifier": "all pairs of leaf sequences, any hash function with 32-byte output", "why_tests_cant": "quantifies over pairs of unbounded histories", "anchors": ["packages/interface/src/types/merkle.rs: MerkleTree::root", "contracts/hooks/merkle/src/lib.rs: get_tree_checkpoint"]}
{"id": "C13", "title": "Merkle tree insertion never hits its panic and is refused exactly when full", "statement": "Insertion succeeds for every tree with fewer than 2^32-1 leaves, raises the count by exactly one, and fails with 'tree is full' afterwards; the 'unreachable' panic is unreachable.", "quantifier": "all reachable trees, all leaves", "why_tests_cant": "reaching the boundary takes 2^32-1 insertions", "anchors": ["packages/interface/src/types/merkle.rs: MerkleTree::insert, MAX_LEAVES, TREE_DEPTH"]}
{"id": "C14", "title": "The published empty-subtree constants are the keccak256 chain", "statement": "Each of the 32 hard-coded zero hashes is keccak256 of its predecessor concatenated with itself, starting from 32 zero bytes.", "quantifier": "all 32 constants (complete enumeration)", "why_tests_cant": "tests only compare a root for a few inserted leaves; a wrong high-level constant shows up only with certain counts", "anchors": ["packages/interface/src/types/merkle.rs: ZERO_HASHES"]}
{"id": "C15", "title": "Each message is handed to its recipient at most once", "statement": "Across any history of transactions, including failed ones, nested calls made by hostile recipients, hooks or ISMs back into the mailbox, and caught sub-call failures, the committed handle calls never contain two with the same message id.", "quantifier": "all histories, all call trees, all answers of external contracts, all callers", "why_tests_cant": "reentrancy, rollback and history space is infinite", "anchors": ["contracts/core/mailbox/src/execute.rs: process", "contracts/core/mailbox/src/state.rs: DELIVERIES"]}
{"id": "C16", "title": "Nothing is delivered without the responsible ISM approving it", "statement": "Whenever processing a message succeeds, the message has version 3, is addressed to the local domain, was not delivered before, and the ISM chosen by the recipient (or the default ISM if the recipient names none) answered 'verified' for exactly the submitted metadata and exactly the submitted message bytes.", "quantifier": "all states, callers, metadata, message bytes and external answers", "why_tests_cant": "decision logic over arbitrary bytes and arbitrary external answers", "anchors": ["contracts/core/mailbox/src/execute.rs: process", "packages/interface/src/ism/mod.rs: recipient, verify"]}
{"id": "C17", "title": "A processed message reaches the right contract unmodified", "statement": "When processing succeeds exactly one contract call is emitted: to the account the 32-byte recipient denotes, without funds, carrying exactly the origin domain, the sender and the body encoded in the message bytes.", "quantifier": "all message bytes and states", "why_tests_cant": "all byte strings", "anchors": ["contracts/core/mailbox/src/execute.rs: process", "packages/interface/src/core/mod.rs: HandleMsg"]}
{"id": "C18", "title": "The delivered query is the history", "statement": "The delivered query answers true for an id exactly when some earlier committed call successfully processed a message with that id; once true it stays true and the recorded processor and block height never change.", "quantifier": "all histories and ids", "why_tests_cant": "invariant over unbounded histories", "anchors": ["contracts/core/mailbox/src/query.rs: get_delivered", "contracts/core/mailbox/src/execute.rs: process"]}
{"id": "C19", "title": "Nonces are the sequence 0,1,2,... and dispatched messages are distinct", "statement": "The k-th successful dispatch carries nonce k, the nonce query always equals the number of successful dispatches, and two different dispatches never produce the same message bytes (hence never the same id except by a keccak collision).", "quantifier": "all histories", "why_tests_cant": "uniqueness over unbounded histories", "anchors": ["contracts/core/mailbox/src/execute.rs: dispatch", "contracts/core/mailbox/src/query.rs: get_nonce"]}
{"id": "C20", "title": "A dispatched message says exactly what the caller asked", "statement": "On success the announced message has version 3, the mailbox's domain as origin, the caller's own address as 32-byte sender, and the destination, recipient and body the caller gave; the returned id and the latest-dispatched-id query are the id of those bytes; a recipient that is not 32 bytes is rejected. No caller can make the mailbox announce somebody else as sender.", "quantifier": "all callers, requests and states", "why_tests_cant": "all inputs", "anchors": ["contracts/core/mailbox/src/execute.rs: dispatch", "packages/interface/src/core/mailbox.rs: DispatchMsg::to_msg"]}
{"id": "C21", "title": "Dispatch forwards every coin it receives", "statement": "On success the required hook is sent exactly the fee it quoted, the selected hook is sent everything else, and per denomination the two amounts add up to the funds attached: the mailbox keeps nothing and creates nothing.", "quantifier": "all funds, fee quotes, denominations and states", "why_tests_cant": "multi-denomination arithmetic over unbounded amounts", "anchors": ["contracts/core/mailbox/src/execute.rs: dispatch"]}
{"id": "C22", "title": "Underpaying the required hook is always rejected and overpaying never is", "statement": "If funds are well formed, dispatch passes the payment check exactly when for every denomination the attached amount covers the sum quoted by the required hook.", "quantifier": "all funds and quotes, including repeated and zero coins in the quote", "why_tests_cant": "multi-denomination arithmetic", "anchors": ["contracts/core/mailbox/src/execute.rs: dispatch"]}
{"id": "C23", "title": "The dispatch quote is sufficient and exact", "statement": "If the quote query returns fees F for a caller and request, then the same request with funds F passes the payment check and leaves the selected hook exactly the fee it quoted, per denomination.", "quantifier": "all states, requests, quotes of the two hooks", "why_tests_cant": "relates a query and an execution for all external answers", "anchors": ["contracts/core/mailbox/src/query.rs: quote_dispatch", "contracts/core/mailbox/src/execute.rs: dispatch"]}
{"id": "C24", "title": "Only the owner changes mailbox configuration", "statement": "Default ISM, default hook and required hook change only through the matching call by the current owner with a valid address and each call changes only its own setting; the local domain and address prefix never change after instantiation.", "quantifier": "all histories and callers", "why_tests_cant": "invariant over histories", "anchors": ["contracts/core/mailbox/src/execute.rs: set_default_ism, set_default_hook, set_required_hook", "contracts/core/mailbox/src/contract.rs: instantiate"]}
{"id": "C25", "title": "A recipient-chosen ISM (or caller-chosen hook) works without a default", "statement": "Processing depends on the default ISM only when the recipient names none, and dispatch depends on the default hook only when the caller names none.", "quantifier": "all states, including freshly instantiated ones without defaults", "why_tests_cant": "a hidden eager evaluation appears only in unconfigured states", "anchors": ["contracts/core/mailbox/src/execute.rs: process, dispatch", "contracts/core/mailbox/src/state.rs: Config::get_default_ism, get_default_hook"]}
{"id": "C26", "title": "End to end: what chain A dispatched is what the recipient on chain B sees", "statement": "If mailbox A dispatches a message for domain B and mailbox B processes the announced bytes successfully, the recipient contract on B is called with A's domain, the dispatching account's 32-byte address and the original body; if the id was fresh and the ISM approves, processing succeeds.", "quantifier": "all pairs of mailbox states, callers, bodies", "why_tests_cant": "composition of two contracts over all inputs", "anchors": ["contracts/core/mailbox/src/execute.rs: dispatch, process", "packages/interface/src/types/message.rs"]}
{"id": "C27", "title": "Ownership moves only by nominate-then-accept", "statement": "After instantiation there is always exactly one owner; it changes only when the account nominated by the current owner accepts, with no revocation in between; only the owner can nominate or revoke and a nomination cannot overwrite a pending one.", "quantifier": "all histories of ownership calls by arbitrary callers", "why_tests_cant": "history property", "anchors": ["packages/ownable/src/lib.rs: handle, init_ownership_transfer, revoke_ownership_transfer, claim_ownership"]}
{"id": "C28", "title": "Pause state is owner controlled and alternates", "statement": "The pause flag changes only by the owner's pause/release; pausing when paused or releasing when released fails; the flag after any history equals the last successful action.", "quantifier": "all histories", "why_tests_cant": "history property", "anchors": ["packages/pausable/src/lib.rs: handle, pause, release"]}
{"id": "C29", "title": "Route table semantics: last write wins, domains listed once in order", "statement": "After any history of route updates the route of a domain is the one in the last owner update mentioning it (absent if never mentioned or cleared), the domain list is strictly increasing and contains exactly the mentioned domains, and non-owners never change it.", "quantifier": "all histories of single and batch updates", "why_tests_cant": "history property over unbounded tables", "anchors": ["packages/router/src/lib.rs: handle, set_route, set_routes, get_route, get_domains"]}
{"id": "C30", "title": "Pagination enumerates every entry exactly once", "statement": "Following a listing page by page, passing the last key of each page as the next offset, visits every stored entry exactly once in ascending (or descending) key order and terminates, for any page size between 1 and 30; larger sizes are rejected.", "quantifier": "all tables, page sizes and both orders", "why_tests_cant": "unbounded tables; off-by-one at page boundaries", "anchors": ["packages/interface/src/lib.rs: range_option, get_and_check_limit", "packages/router/src/lib.rs: get_routes", "contracts/igps/core/src/query.rs: list_gas_for_domains", "contracts/hooks/routing-custom/src/lib.rs: list_custom_hooks"]}
{"id": "C31", "title": "Connection settings are owner-only and independent", "statement": "Mailbox, ISM and hook connection settings change only by the owner's matching call with a valid address; each call leaves the other two untouched.", "quantifier": "all histories", "why_tests_cant": "history property", "anchors": ["packages/connection/src/lib.rs: handle, get_mailbox, get_ism, get_hook"]}
{"id": "C32", "title": "Migration only moves versions strictly forward and never renames the contract", "statement": "Over any sequence of migrations the stored contract name is constant and each successful migration strictly increases the version in semantic-version order, so no migration can be repeated or undone.", "quantifier": "all sequences of migrations, all versions", "why_tests_cant": "order-theoretic property over histories", "anchors": ["packages/utils/src/lib.rs: migrate"]}
{"id": "C33", "title": "Announced storage locations are signed by the validator", "statement": "Every storage location listed for a validator was announced with a signature whose recovered signer is that 20-byte validator over the digest of this chain's domain, this mailbox and that location; the list shows exactly the successful announcements in order and the validator list is exactly the validators with at least one.", "quantifier": "all histories of announcements, all recovery functions", "why_tests_cant": "history property, arbitrary cryptography", "anchors": ["contracts/core/va/src/contract.rs: announce, get_announce, get_validators"]}
{"id": "C34", "title": "An announcement cannot be replayed", "statement": "The same validator and location can be announced successfully at most once in any history, so no list contains a location twice; distinct pairs never block each other except by a keccak collision.", "quantifier": "all histories", "why_tests_cant": "history property", "anchors": ["contracts/core/va/src/contract.rs: announce, replay_hash"]}
{"id": "C35", "title": "Announcement digest binds chain, mailbox and location", "statement": "Two announcement digests agree only if local domain, mailbox address (padded) and storage location agree, or an explicit keccak collision exists among the hashed preimages.", "quantifier": "all domains, mailboxes, locations", "why_tests_cant": "pairs of unbounded strings", "anchors": ["contracts/core/va/src/contract.rs: domain_hash, announcement_hash", "packages/interface/src/types/crypto.rs: eth_hash"]}
{"id": "C36", "title": "Multisig ISM approves only with a quorum of distinct enrolled validators", "statement": "If verification answers true there are at least threshold pairwise different validators, all enrolled for the message's origin domain, each of which is the recovered signer of one of the supplied signatures over the checkpoint digest for this message; the threshold is at least one.", "quantifier": "all reachable configurations, metadata, messages and recovery functions", "why_tests_cant": "combinatorial over unbounded signature lists with duplicates", "anchors": ["contracts/isms/multisig/src/query.rs: verify_message", "contracts/isms/multisig/src/contract.rs: SetValidators"]}
{"id": "C37", "title": "Multisig ISM approves every valid quorum", "statement": "If every supplied signature is recoverable and the distinct enrolled signers number at least the threshold, verification answers true whatever the order of signatures and whatever extra signatures by outsiders or repeats are present; with fewer it answers false.", "quantifier": "all signature lists and orders", "why_tests_cant": "all permutations and duplicates", "anchors": ["contracts/isms/multisig/src/query.rs: verify_message"]}
{"id": "C38", "title": "Multisig configuration stays well formed and owner controlled", "statement": "At all times every enrolled domain has a threshold between one and the number of listed validators, all validators are 20 bytes, threshold and validators are set and removed together, and only the owner changes them; consequently a quorum is always attainable.", "quantifier": "all histories", "why_tests_cant": "history invariant", "anchors": ["contracts/isms/multisig/src/contract.rs: execute SetValidators, UnsetDomain"]}
{"id": "C39", "title": "Checkpoint digest binds origin, tree, root, index and message", "statement": "Two checkpoint digests are equal only if origin domain, merkle tree address, root, index and message id are all equal, or an explicit keccak collision exists among the hashed preimages; so a signature for one message or chain cannot be reused for another.", "quantifier": "all pairs of inputs", "why_tests_cant": "pairs of 2^800 inputs", "anchors": ["contracts/isms/multisig/src/lib.rs: domain_hash, multisig_hash", "packages/interface/src/types/crypto.rs: eth_hash"]}
{"id": "C40", "title": "Aggregate ISM approves only with threshold many sub-ISM approvals", "statement": "If verification answers true then at least threshold (and at least one) different configured sub-ISMs answered true for this message with the metadata slice assigned to them.", "quantifier": "all configurations, metadata, messages, sub-ISM answers", "why_tests_cant": "depends on unvalidated configuration and arbitrary sub-answers", "anchors": ["contracts/isms/aggregate/src/lib.rs: verify, instantiate, SetIsms"]}
{"id": "C41", "title": "Aggregate ISM approves every valid quorum", "statement": "If all sub-ISMs answer without error and at least threshold distinct ones approve, verification answers true; with fewer it answers false.", "quantifier": "all configurations and answers", "why_tests_cant": "all subsets", "anchors": ["contracts/isms/aggregate/src/lib.rs: verify"]}
{"id": "C42", "title": "Routing ISM delegates to exactly the module set for the origin", "statement": "Verification of a message returns exactly the answer of the module the owner last set for the message's origin domain, for the same metadata and message bytes, and fails when none is set; the route query names that same module.", "quantifier": "all histories and messages", "why_tests_cant": "history property", "anchors": ["contracts/isms/routing/src/contract.rs: execute, query"]}
{"id": "C43", "title": "Pausable ISM blocks everything while paused and nothing otherwise", "statement": "While paused every verification fails; while not paused every verification succeeds; the switch is controlled only by the owner.", "quantifier": "all histories and messages", "why_tests_cant": "history property", "anchors": ["contracts/isms/pausable/src/lib.rs: query Verify"]}
{"id": "C44", "title": "Nested ISMs: approval of a tree of modules implies approval of enough leaves", "statement": "For any finite nesting of aggregate and routing modules over leaf modules, a positive answer implies recursively that enough leaf modules approved the message; with thresholds of at least one every positive answer is backed by at least one approving leaf.", "quantifier": "all finite module trees", "why_tests_cant": "structural induction over arbitrary compositions", "anchors": ["contracts/isms/aggregate/src/lib.rs: verify", "contracts/isms/routing/src/contract.rs: query Verify", "contracts/isms/multisig/src/query.rs: verify_message"]}
{"id": "C45", "title": "The merkle hook only records dispatched messages", "statement": "In any interleaving of mailbox and hook calls, every leaf of the merkle hook's tree is the id of a message the mailbox really dispatched, leaves appear in dispatch order, and calls for anything but the most recently dispatched message change nothing.", "quantifier": "all interleavings of dispatches and direct hook calls by anyone", "why_tests_cant": "interleavings of two contracts", "anchors": ["contracts/hooks/merkle/src/lib.rs: execute PostDispatch", "contracts/core/mailbox/src/execute.rs: dispatch"]}
{"id": "C46", "title": "The merkle hook records each dispatched message exactly once", "statement": "In any history in which every dispatch calls the merkle hook, each dispatched message id appears in the tree exactly once.", "quantifier": "all interleavings of dispatches and direct hook calls by anyone", "why_tests_cant": "requires adversarial scheduling of a public entry point", "anchors": ["contracts/hooks/merkle/src/lib.rs: execute PostDispatch"]}
{"id": "C47", "title": "Merkle hook queries agree with the recorded sequence", "statement": "Count, root, branch and checkpoint queries all describe the same tree of recorded ids: root is the specified root, count the number of recorded ids and the checkpoint index is count minus one (0 when empty), without wrap-around.", "quantifier": "all histories", "why_tests_cant": "history property up to 2^32-1 leaves", "anchors": ["contracts/hooks/merkle/src/lib.rs: get_tree_count, get_tree_root, get_tree_checkpoint"]}
{"id": "C48", "title": "Fee hook accepts exactly sufficient single-denomination payments", "statement": "A post-dispatch call succeeds exactly when the only coin attached is the fee denomination, non-zero, and at least the configured amount; the quote equals the configured fee; paying the quote succeeds.", "quantifier": "all fees, funds", "why_tests_cant": "all amounts; zero-fee corner", "anchors": ["contracts/hooks/fee/src/lib.rs: execute PostDispatch, quote_dispatch"]}
{"id": "C49", "title": "Fee hook and gas paymaster balances leave only to the entitled account", "statement": "Collected fee-hook coins are sent only on the owner's claim and only in full to the owner or the recipient they name; collected gas payments are sent only to the beneficiary on the beneficiary's claim; refunds go only out of the surplus of the very payment being made.", "quantifier": "all histories with balances", "why_tests_cant": "history property with balances", "anchors": ["contracts/hooks/fee/src/lib.rs: Claim", "contracts/igps/core/src/execute.rs: claim, pay_for_gas"]}
{"id": "C50", "title": "Pausable hook blocks dispatch while paused", "statement": "Post-dispatch on the pausable hook fails while paused and otherwise succeeds without side effects and without asking for a fee.", "quantifier": "all histories", "why_tests_cant": "history property", "anchors": ["contracts/hooks/pausable/src/lib.rs: execute PostDispatch"]}
{"id": "C51", "title": "Routing hooks pick the configured hook for the destination", "statement": "The routing hook forwards to the hook set for the message's destination domain and fails if none; the fallback variant uses the fallback hook exactly when none is set; the custom variant prefers the hook registered for that destination and recipient. Quote and post-dispatch always consult the same hook with the same metadata and message.", "quantifier": "all histories of route, fallback and custom registrations, all messages", "why_tests_cant": "history property over three configuration tables", "anchors": ["contracts/hooks/routing/src/lib.rs: route", "contracts/hooks/routing-fallback/src/lib.rs: route", "contracts/hooks/routing-custom/src/lib.rs: route, register, clear"]}
{"id": "C52", "title": "Routing hooks pay the hook they route to", "statement": "The coins a caller attaches to a routing hook's post-dispatch, having been quoted the routed hook's fee, are forwarded to the routed hook.", "quantifier": "all routing hooks, messages and funds", "why_tests_cant": "requires relating quote, funds in and funds out for every message", "anchors": ["contracts/hooks/routing/src/lib.rs: post_dispatch", "contracts/hooks/routing-fallback/src/lib.rs: post_dispatch", "contracts/hooks/routing-custom/src/lib.rs: post_dispatch"]}
{"id": "C53", "title": "Aggregate hook quotes and pays the sum of its hooks", "statement": "The aggregate quote is, per denomination, the sum of the quotes of its hooks; post-dispatch calls every configured hook once in order with the same metadata and message and exactly its own quote, so total outflow equals the aggregate quote.", "quantifier": "all hook lists and quotes", "why_tests_cant": "unbounded lists and multi-denomination sums", "anchors": ["contracts/hooks/aggregate/src/lib.rs: execute PostDispatch, quote_dispatch"]}
{"id": "C54", "title": "Gas quotes follow the oracle formula without overflow surprises", "statement": "The quote for g gas to a domain is floor(g*price*rate/10^10) of the oracle configured for that domain; it is monotone in g; whenever the exact product fits 256 bits the quote is exact, otherwise the call aborts rather than wrapping.", "quantifier": "all gas amounts, prices, rates", "why_tests_cant": "256-bit arithmetic", "anchors": ["contracts/igps/core/src/query.rs: quote_gas_price"]}
{"id": "C55", "title": "Gas payment keeps exactly the quote and refunds the rest", "statement": "A gas payment succeeds only if exactly one coin, of the gas token, of at least the quoted amount is attached; the contract keeps exactly the quote and sends exactly the surplus to the refund address (nothing when zero); so received = kept + refunded always.", "quantifier": "all payments, quotes, refund addresses", "why_tests_cant": "256/128-bit arithmetic over all amounts", "anchors": ["contracts/igps/core/src/execute.rs: pay_for_gas"]}
{"id": "C56", "title": "Paying the gas quote is enough to dispatch", "statement": "If the gas paymaster quotes fees for a message and metadata then post-dispatch of the same with exactly those fees succeeds and refunds nothing.", "quantifier": "all messages, metadata, oracle data", "why_tests_cant": "relates a query and an execution for all inputs, including zero-fee corners", "anchors": ["contracts/igps/core/src/query.rs: quote_dispatch", "contracts/igps/core/src/execute.rs: post_dispatch"]}
{"id": "C57", "title": "Gas configuration: per-domain value overrides the default", "statement": "After any history the gas used for a domain without metadata is the last value the owner set for it, or the default if never set or unset since; only the owner changes gas settings and beneficiary.", "quantifier": "all histories", "why_tests_cant": "history property", "anchors": ["contracts/igps/core/src/lib.rs: get_default_gas", "contracts/igps/core/src/execute.rs: set_default_gas, set_gas_for_domain, unset_gas_for_domain, set_beneficiary"]}
{"id": "C58", "title": "The oracle never stores a zero exchange rate", "statement": "Gas data is changed only by the oracle owner, reads return the last written entry, and no entry ever has a zero exchange rate.", "quantifier": "all histories", "why_tests_cant": "history property across two setters", "anchors": ["contracts/igps/oracle/src/contract.rs: execute SetRemoteGasDataConfigs, SetRemoteGasData", "contracts/igps/oracle/src/state.rs: insert_gas_data"]}
{"id": "C59", "title": "Tokens are released only for messages from the enrolled remote router via the mailbox", "statement": "A token router mints or releases tokens only when called by its mailbox with a message whose sender is the router currently enrolled for the origin domain, and then exactly the amount and to exactly the account in the message body.", "quantifier": "all histories, callers and messages, native and cw20, bridged and collateral", "why_tests_cant": "all inputs and histories", "anchors": ["contracts/warp/native/src/contract.rs: mailbox_handle", "contracts/warp/cw20/src/contract.rs: mailbox_handle"]}
{"id": "C60", "title": "A remote transfer takes exactly what it announces", "statement": "A successful remote transfer burns or locks exactly the transferred amount from the sender, announces a message to the enrolled router of the destination whose body decodes to the requested recipient and amount, and passes on all remaining funds.", "quantifier": "all callers, amounts, funds, 32-byte recipients", "why_tests_cant": "all inputs", "anchors": ["contracts/warp/native/src/contract.rs: transfer_remote", "contracts/warp/cw20/src/contract.rs: transfer_remote"]}
{"id": "C61", "title": "Bridged tokens are always fully backed", "statement": "For a collateral router on one chain and a bridged router on another that enroll each other, in every execution (any interleaving of transfers, deliveries, unrelated sends) the collateral held is at least the bridged supply plus everything in flight; equality holds absent donations. No execution mints or releases more than was locked or burned.", "quantifier": "all executions of the two-chain system, all users and amounts", "why_tests_cant": "global invariant over interleavings of four contracts", "anchors": ["contracts/warp/native/src/contract.rs: mailbox_handle, transfer_remote", "contracts/warp/cw20/src/contract.rs", "contracts/core/mailbox/src/execute.rs: dispatch, process"]}
{"id": "C62", "title": "Changing the connection mailbox of a token router redirects its trust", "statement": "After the owner sets a new mailbox through the connection settings, the router accepts deliveries from and dispatches through the new mailbox and no longer the old one.", "quantifier": "all histories", "why_tests_cant": "needs reasoning about aliasing of two storage items across all histories", "anchors": ["contracts/warp/native/src/lib.rs: MAILBOX", "packages/connection/src/lib.rs: MAILBOX", "contracts/warp/native/src/contract.rs"]}
{"id": "C63", "title": "Fewer dishonest validators than the threshold cannot get a false message delivered", "statement": "Suppose every security module responsible for a message is guarded for its origin: a multisig module of whose enrolled validators fewer than the threshold are dishonest, a routing module that routes the origin to a guarded module, or an aggregate any threshold many members of which include a guarded one. If honest validators attest only messages the origin's mailbox announced, then whatever the destination mailbox delivers was dispatched on the origin chain by the account named as sender, for this destination, and the recipient is called with exactly the requested body; otherwise a signature was forged or a concrete hash collision is exhibited.", "quantifier": "all nestings of modules in reachable states, all metadata and messages, all histories of the origin mailbox, all states of the destination mailbox, any set of dishonest validators below the thresholds", "why_tests_cant": "It is a claim about every adversarial metadata, every nesting and every set of colluding validators, and composes five contracts on two chains.", "anchors": ["contracts/core/mailbox/src/execute.rs: process, dispatch", "contracts/isms/multisig/src/query.rs: verify_message", "contracts/isms/aggregate/src/lib.rs: verify", "contracts/isms/routing/src/contract.rs: query", "packages/interface/src/types/message.rs"]}
{"id": "C64", "title": "Honest validators keep bridged tokens backed", "statement": "Two chains with linked token routers, the modules responsible for the routers being guarded on both sides, honest validators attesting only announced messages, and transfers naming 32-byte recipients: at every moment the collateral held by the collateral router covers the bridged supply plus all transfers in flight, never more is minted than was locked, never more released than burned.", "quantifier": "all executions of both chains with nested calls, reentrancy and rollback; all users, relayers and dishonest validators below the thresholds; reconfigurable modules", "why_tests_cant": "A global invariant over unbounded interleavings on two chains with adversarial relayers and validators.", "anchors": ["contracts/warp/native/src/contract.rs", "contracts/warp/cw20/src/contract.rs", "contracts/core/mailbox/src/execute.rs", "contracts/isms/multisig/src/query.rs"]}
{"id": "C65", "title": "Paying the mailbox's quote pays the whole tree of hooks", "statement": "For a mailbox whose required hook and chosen hook head arbitrarily nested hooks (aggregates, routing, fees, gas payment, merkle, pausable) that are in order, the mailbox's quote is exactly the sum of the fees of all hooks visited; dispatching with exactly this quote succeeds with all follow-up messages, every hook visited keeps exactly its fee, the sender pays exactly the quote and no other account keeps or loses anything; every merkle hook inserts the message once per visit.", "quantifier": "all trees of hooks of any depth and width, all requests, metadata, balances", "why_tests_cant": "Trees are unbounded and the claim composes nine contracts with the bank.", "anchors": ["contracts/core/mailbox/src/execute.rs: dispatch", "contracts/core/mailbox/src/query.rs: quote_dispatch", "contracts/hooks/aggregate/src/lib.rs", "contracts/hooks/fee/src/lib.rs", "contracts/igps/core/src/execute.rs: post_dispatch", "contracts/hooks/routing*/src/lib.rs", "contracts/hooks/merkle/src/lib.rs"]}
{"id": "C66", "title": "An aggregate hook passes on exactly what it is paid", "statement": "After any call of an aggregate hook's post-dispatch, with whatever coins attached, the hook's own balance is what it was before: it neither keeps coins of the caller nor spends coins it held before.", "quantifier": "all hooks below it, all callers, all attached coins", "why_tests_cant": "All attached amounts and all trees below.", "anchors": ["contracts/hooks/aggregate/src/lib.rs: execute, quote_dispatch"]}
{"id": "C67", "title": "In a network of chains every message is delivered at most once and only where it is addressed", "statement": "Take any number of chains whose mailboxes have different local domains. Over any history of transactions on all of them, every committed handler call stems from a submitted message addressed to the domain of the chain it happens on, no message is handed over twice anywhere in the network, and no two dispatches in the network announce the same message.", "quantifier": "all collections of chains with different domains, all starting states, all histories with nesting, reentrancy and rollback", "why_tests_cant": "Number of chains, histories and states are unbounded.", "anchors": ["contracts/core/mailbox/src/execute.rs: process, dispatch"]}
{"id": "C68", "title": "Dispatching and processing succeed exactly under the documented conditions", "statement": "A message can be processed exactly if it is a well-formed version 3 message for the local domain, not delivered before, its recipient can be written as an address, a default ISM is set and the responsible ISM approves; who submits it and with which coins makes no difference. A dispatch succeeds exactly if recipient length, caller address, both configured hooks, the named hook, the required hook's quote, the attached coins and the nonce are in order.", "quantifier": "all states, callers, messages, metadata, attached coins and answers of other contracts", "why_tests_cant": "Necessary and sufficient conditions over all inputs; a test shows neither that nothing else is required nor that nothing is missing.", "anchors": ["contracts/core/mailbox/src/execute.rs: process, dispatch"]}
{"id": "C69", "title": "Dispatching takes coins from the sender only, and no more than it attached", "statement": "Whatever hooks there are, however they are connected and whoever they belong to: a successful dispatch, with everything that follows from it, neither creates nor destroys coins of any denomination, the sender loses at most the coins it attached, and no other account loses any coin, unless it is the account of an aggregate hook. The same holds for a direct call of any hook by anybody.", "quantifier": "all arrangements of hooks including shared and cyclic ones, all states and balances, all senders, funds, messages and metadata", "why_tests_cant": "Arrangements of hooks, balances and chains of messages are unbounded.", "anchors": ["contracts/core/mailbox/src/execute.rs: dispatch", "contracts/hooks/*/src/lib.rs: post_dispatch", "contracts/igps/core/src/execute.rs: post_dispatch, pay_for_gas"]}
{"id": "C70", "title": "No dispatch gets past a hook that is out of service", "statement": "If a paused pausable hook, a merkle hook of another mailbox, a fallback routing hook without a fallback, a contract that is no hook or an address without a contract is reached from the required hook or from the hook chosen, through any number of aggregate and routing hooks, then the dispatch fails, whoever sends it and with whatever coins.", "quantifier": "all arrangements of hooks, all states, senders, funds and requests", "why_tests_cant": "The hook can be nested arbitrarily deep below aggregate and routing hooks.", "anchors": ["contracts/hooks/pausable/src/lib.rs: execute", "contracts/hooks/aggregate/src/lib.rs: execute", "contracts/hooks/routing*/src/lib.rs: post_dispatch"]}
{"id": "C71", "title": "A dispatch is recorded by exactly the merkle hooks it reaches", "statement": "After a successful dispatch every merkle hook reached from the required hook or from the hook chosen has the message's id inserted at least once and nothing else; every merkle hook not reached and every other hook is unchanged. In particular, a mailbox whose required hook reaches its merkle hook never dispatches a message that is not recorded.", "quantifier": "all arrangements of hooks, all states, senders, funds and requests", "why_tests_cant": "All arrangements and nestings of hooks.", "anchors": ["contracts/core/mailbox/src/execute.rs: dispatch", "contracts/hooks/merkle/src/lib.rs: execute", "contracts/hooks/aggregate/src/lib.rs: execute", "contracts/hooks/routing*/src/lib.rs: post_dispatch"]}
{"id": "C72", "title": "Transfers that were paid for can be delivered", "statement": "In a system of two chains with mailboxes and linked token routers (collateral on one side, bridged on the other), whose security modules are sound and whose transfers name recipients of at most 32 bytes: a transfer of an amount to a 32-byte account announces one message; at any later time, as long as this message was not delivered, anybody can deliver it if the responsible module approves it, and then the remote router pays exactly this amount to this account. The collateral never runs out before.", "quantifier": "all executions of both chains (any calls by anybody in any order, nesting and rollback), all transfers in them, all later deliveries, native and cw20 routers in all combinations, all hash functions and address encodings", "why_tests_cant": "That a payout can never be blocked by what happened in between, including all other transfers, is a statement about all executions.", "anchors": ["contracts/warp/native/src/contract.rs: transfer_remote, mailbox_handle", "contracts/warp/cw20/src/contract.rs: transfer_remote, mailbox_handle", "contracts/core/mailbox/src/execute.rs: dispatch, process"]}
{"id": "C73", "title": "Messages to the token factory say what the router means, and its reply is read as it is", "statement": "Read by the rules of protobuf, the bytes of the mint and burn messages of the native router contain exactly the router as sender, its token and the amount (in decimal), those of the creation of the token its name, those of its metadata the metadata given, and nothing else; different requests have different bytes. After deployment a router sends only: a mint message for a delivery, of the amount delivered, and a burn message for a transfer, of the amount transferred, both only in bridged mode. The reply to the creation is accepted exactly if it is a protobuf message with a string in field 1, and this string becomes the token. Converting a 256-bit amount through its decimal text to 128 bits succeeds exactly for amounts that fit and does not change them.", "quantifier": "all senders, denominations, amounts, metadata, reply bytes, states and calls", "why_tests_cant": "The message space is infinite: all strings, amounts and nestings of lengths (varints of every size), and all byte strings as replies, including malformed ones, repeated and unknown fields.", "anchors": ["contracts/warp/native/src/proto.rs", "contracts/warp/native/src/contract.rs: instantiate, reply, mailbox_handle, transfer_remote", "contracts/warp/native/src/conv.rs: to_uint128"]}
{"id": "C74", "title": "Contracts understand each other's messages, queries and answers", "statement": "Every execute message that a contract sends (post dispatch, handle, dispatch, and mint, burn, transfer, transfer-from of a token contract) is written as the JSON text of the interface, and every contract it may be addressed to reads the text as the same message. Every query one contract makes of another (quote, security module of the recipient, verify, verify info, latest id, local domain, exchange rate) is read by all contracts that may be asked as the same query, they answer it, and the asking contract reads the answer as the same value. Every query in the interface of every contract is answered with a text that can be read with the response type declared for it. Different messages have different texts.", "quantifier": "all messages, queries and answers with any contents; all contracts of the repository as receivers", "why_tests_cant": "Contents are unbounded (bytes, names, amounts, lists of coins), texts with escapes included, and every sender/receiver pair has its own types: the message is written with one type and read with another.", "anchors": ["packages/interface/src: all execute, query and response types", "packages/interface/src/hook/mod.rs: post_dispatch, quote_dispatch", "packages/interface/src/ism/mod.rs: recipient, verify", "contracts/isms/routing/src/contract.rs: query", "contracts/isms/pausable/src/lib.rs: query", "contracts/*/*/src: query"]}
{"id": "C75", "title": "Owners stay in control of every contract", "statement": "For each of the fifteen contracts with an owner, after deployment and any history of calls by anybody: there is exactly one owner; a message that changes settings is accepted if and only if the owner sends it and its content is acceptable (the conditions listed per contract: valid addresses, thresholds in range, pausing only when not paused and so on) - in particular no state the contract can get into locks the owner out of a setting; ownership changes only by messages of the owner or of the nominee about ownership; and the owner can always hand over to anyone: withdraw a nomination, nominate, let the nominee accept, whatever others do in between.", "quantifier": "all histories of calls by any senders, with any answers of other contracts; all settings messages; all successors; all calls by others between the three steps of handing over", "why_tests_cant": "Lock-outs and takeovers depend on long interleavings of nominations, claims, settings and use by several parties; tests run single steps from fresh contracts.", "anchors": ["packages/ownable/src/lib.rs: handle", "packages/pausable/src/lib.rs: handle", "packages/router/src/lib.rs: handle", "packages/connection/src/lib.rs: handle", "contracts/core/mailbox/src/contract.rs: execute", "contracts/hooks/*/src: execute", "contracts/igps/*/src/contract.rs: execute", "contracts/isms/*/src: execute", "contracts/warp/*/src/contract.rs: execute"]}
{"id": "C76", "title": "Relayers can get attested messages approved", "statement": "If a security module's needs can be met, metadata that meet them exist: a multisig approves if the relayer has signatures over one root by as many different validators as VerifyInfo asks for, out of those it names; a routing module if the module named by Route does; an aggregate if as many listed modules as its threshold do - with metadata whose length is given by the signatures and eight bytes per listed module, for any nesting of modules. A message for this chain that is not delivered and whose responsible module can be brought to approve is then delivered by a call of Process. (For aggregates this is false in general: a listed module that never answers, e.g. because it is paused, blocks all approvals except those by threshold many modules with smaller addresses.)", "quantifier": "all worlds of modules with any nesting, all messages, validator sets, thresholds, quorums and signatures, all sizes up to 2^32 bytes", "why_tests_cant": "Existence of metadata for every nesting and quorum is a claim about an unbounded family of trees of modules; tests try single trees with all modules answering.", "anchors": ["contracts/isms/multisig/src/query.rs: verify_message, get_verify_info", "contracts/isms/aggregate/src/lib.rs: verify", "contracts/isms/routing/src/contract.rs: query", "contracts/isms/pausable/src/lib.rs: query", "packages/interface/src/types/metadata.rs: AggregateMetadata, MessageIdMultisigIsmMetadata", "contracts/core/mailbox/src/execute.rs: process"]}
{"id": "C77", "title": "The listing of custom hooks is complete and in force", "statement": "After any history of a custom routing hook, reading the listing of a destination page by page (passing on the last recipient as written) terminates and yields exactly the owner's registrations for that destination that have not been cleared or replaced since, each once, ordered by recipient; the query for one recipient gives the same answer; and every message to a listed recipient is passed to the hook listed. Page sizes above 30 are refused.", "quantifier": "all histories of calls by anybody, all destinations, recipients, page sizes, orders and messages", "why_tests_cant": "Registrations come in any order, in any letter case, with replacements and clearings by the owner and rejected ones by others; completeness of paging is a claim about all tables and offsets.", "anchors": ["contracts/hooks/routing-custom/src/lib.rs: list_custom_hooks, get_custom_hook, register, clear, route", "packages/interface/src/lib.rs: range_option"]}
{"id": "C78", "title": "Storage places never overlap and listings read back exactly what was saved", "statement": "In every contract, different items and different map entries are kept under different raw storage keys. After any history of saves and removals of declared items and map entries, reading a place gives what was last saved there, and listing a map (pages in either direction with any start and limit, and all entries) gives exactly the saved entries of that map, or of that prefix of it, in order of the keys: no item, entry of another map or entry under another prefix ever shows up, and none is left out.", "quantifier": "all contracts, all histories of saves and removals, all keys (including the last domain, where the upper bound of the range carries), starts, limits and orders", "why_tests_cant": "Overlaps of keys and off-by-one bounds show for particular keys only, e.g. byte strings that continue each other or prefixes of all-ones; the claim is over all byte strings.", "anchors": ["packages/ownable/src/lib.rs: 11-15", "packages/router/src/lib.rs: 18, 28-33, 143-184", "packages/connection/src/lib.rs: 10-17", "packages/pausable/src/lib.rs: 11-12", "packages/interface/src/lib.rs: range_option", "contracts/*/*/src/{lib,state}.rs: Item and Map constants"]}
{"id": "C79", "title": "Events of mailbox, merkle hook and validator announce tell what the contracts answer", "statement": "After any history of transactions a reader of events alone knows the answers of the contracts. Mailbox: the mailbox_dispatch events are the dispatched messages in order of their nonces, each in wire format with agreeing attributes and with its id in the mailbox_dispatch_id event at the same position; their number is the nonce and the last id is the latest id. A message is delivered exactly if a mailbox_process_id event has its id, and no id appears twice; the mailbox_process event at the same position shows origin, sender and recipient of a message with this id. Default ISM, hooks, owner and pending owner are what the last event about them says. Merkle hook: the post_dispatch events are numbered from 0 and their ids are the leaves of the tree whose count and root the hook answers. Validator announce: the locations answered for a validator are those of its announcement events, in order, and the validators listed are those with an event.", "quantifier": "all histories of transactions with nested calls, reentrance and rollback; all callers, messages, codecs, hash functions and answers of other contracts", "why_tests_cant": "Relayers and validators follow events only. That events and state agree after every history, including rolled back and reentrant calls, is a claim about all sequences of calls; tests compare single events.", "anchors": ["contracts/core/mailbox/src/event.rs: 8-47", "contracts/core/mailbox/src/execute.rs: 26-226", "contracts/hooks/merkle/src/lib.rs: 52-55, 78-121", "contracts/core/va/src/contract.rs: 153-216", "packages/ownable/src/lib.rs: 21-118"]}
{"id": "C80", "title": "Events of the paymaster and of token routers tell what money moves", "statement": "A gas payment emits one igp-core-pay-for-gas event naming payer, destination, message and gas amount; the payment shown is the coin attached, the amount required is the quote, and the amount refunded is what is sent back, the two making up the payment. Post-dispatching emits this for the message posted, and then an event with metadata and message. A claim emits one event with exactly what is sent to whom. A transfer emits one transfer-remote event whose amount is what is taken from the caller and whose recipient and amount are in the dispatched payload; a delivery emits one handle event whose account, token and amount are those of the release. No other calls emit such events. Default gas, beneficiary and ownership of the paymaster are what the last event about them says.", "quantifier": "all states, callers, coins, metadata, messages, oracles and codecs; settings: all histories of transactions", "why_tests_cant": "Explorers and relayers decide by these numbers whether a delivery is paid for; agreement of the texts with the money moved must hold for every amount, quote and metadata.", "anchors": ["contracts/igps/core/src/event.rs: 3-77", "contracts/igps/core/src/execute.rs: 22-183", "contracts/warp/native/src/contract.rs: 146-268", "contracts/warp/cw20/src/contract.rs: 142-255"]}
{"id": "C81", "title": "Networks of token routers stay backed", "statement": "Take any number of chains, each with a mailbox and a token router (native or cw20, collateral or bridged) whose enrolled remote routers are routers of the network; owners may enrol and remove routers of the network at any time. If at the start all bridged supplies together are at most the collateral of all chains, then after any history of transactions in which transfers name recipients of at most 32 bytes and deliveries between routers are of announced messages, the collateral of all chains covers all bridged supplies and all transfers in transit, and minted plus released is at most locked plus burned. With recipients of exactly 32 bytes the books balance exactly: the surplus of the collateral is what was given to routers, what others burned and what there was more at the start.", "quantifier": "all numbers of chains, modes, routers, tokens, enrolments (changing over time), hash functions, lawful codecs, histories of transactions with nested calls and rollback, all users, hooks, relayers", "why_tests_cant": "Tokens travel between any pairs of chains in any order, with routes changing meanwhile; the claim sums over all chains and all messages in transit after every history. Tests move a token once between two chains.", "anchors": ["contracts/warp/native/src/contract.rs: 89-268", "contracts/warp/cw20/src/contract.rs: 85-255", "contracts/core/mailbox/src/execute.rs: dispatch, process", "packages/router/src/lib.rs: 49-105"]}
{"id": "C82", "title": "Transfers in networks of token routers can always be delivered", "statement": "In such a network (recipients of at most 32 bytes, backed at the start), every transfer of an amount to an account of 32 bytes announces one message for a chain of the network. As long as it was not delivered there, anybody can deliver it if the module responsible for the destination router approves it, this router knows the sending router, and it creates tokens or is the only one in the network holding collateral; the delivery succeeds and pays exactly the amount to the account, whatever happened in between, unless another message with the same hash was delivered before. With several collateral routers this fails: the destination may hold too little although the network is backed.", "quantifier": "all networks, histories of transactions with nested calls and rollback, transfers, relayers, metadata", "why_tests_cant": "That nothing done in between (transfers between other chains, gifts, burns, changed routes, rollbacks) can make a paid transfer undeliverable is a claim over all histories.", "anchors": ["contracts/warp/native/src/contract.rs: 146-268", "contracts/warp/cw20/src/contract.rs: 142-255", "contracts/core/mailbox/src/execute.rs: process"]}
{"id": "C83", "title": "Honest validators keep networks of token routers backed", "statement": "The backing of C81 holds if, instead of assuming that deliveries are of announced messages, at each delivery to a router in the name of a router of the network the security module then responsible for it (multisig, routing or aggregate modules in any nesting) is guarded for the origin, that is, cannot approve with dishonest validators alone, honest validators attest only messages announced on the chain they name, and nobody forges their signatures or breaks the hash.", "quantifier": "all networks, module configurations (changing over time), sets of validators, signatures, metadata, histories of transactions with nested calls and rollback", "why_tests_cant": "It combines signature thresholds, module trees, replay protection and accounting of all chains over all histories; a test checks one configuration and one path.", "anchors": ["contracts/isms/multisig/src/query.rs: verify", "contracts/isms/routing/src/contract.rs: query", "contracts/isms/aggregate/src/lib.rs: verify", "contracts/core/mailbox/src/execute.rs: process", "contracts/warp/native/src/contract.rs: 146-268", "contracts/warp/cw20/src/contract.rs: 142-255"]}
{"id": "C84", "title": "Holders of bridged tokens are backed, with the tokens themselves modelled", "statement": "Take any number of chains, each with a mailbox, a token router (native or cw20, collateral or bridged), the bank with its token factory and a cw20 token with all balances, allowances and supplies, where anybody may send, burn, mint, force-transfer, allow and spend as far as bank, token factory and cw20 token permit. Bridged tokens are administered by their router, native collateral has no administrator, the router has allowed nobody to spend its cw20 tokens, balances amount to supplies, and bridged supplies are backed at the start. Under the assumptions of C81, after every execution all this is still so: whatever any accounts hold of bridged tokens together with everything in transit is at most what the collateral routers hold, and if all recipients have 32 bytes the books balance exactly up to gifts and tokens burned by holders.", "quantifier": "all numbers of chains, modes, owners, accounts, histories of transactions with nested calls and rollback, operations on tokens", "why_tests_cant": "It quantifies over everything anybody can do with the tokens of all chains, in any order with the router calls.", "anchors": ["contracts/warp/native/src/contract.rs: 146-268", "contracts/warp/cw20/src/contract.rs: 142-255", "contracts/core/mailbox/src/execute.rs: process, dispatch"]}
{"id": "C85", "title": "Transferred tokens arrive on the account", "statement": "In such a network a transfer of a positive amount to an account of 32 bytes announces one message. As long as it was not delivered, anybody can deliver it under the conditions of C82 (and, where a cw20 token is to be created, if the collateral is below 2^128): bank, token factory and cw20 token let the router pay, the account then holds exactly the amount more, and every other account except the router what it held before. For amount zero this fails: routers accept such transfers, but their messages can never be delivered to a native router.", "quantifier": "all networks, histories of transactions with nested calls and rollback, operations on tokens, transfers, relayers, metadata", "why_tests_cant": "That no operation of anybody on tokens, routes or other transfers can block a delivery is a claim over all histories.", "anchors": ["contracts/warp/native/src/contract.rs: 146-268", "contracts/warp/cw20/src/contract.rs: 142-255", "contracts/core/mailbox/src/execute.rs: process"]}
{"id": "C86", "title": "Token routers take tokens only from their callers", "statement": "A call of a token router with any message takes tokens only from the caller, and at most what the caller attached or, for cw20 tokens, named as the amount of a transfer; an allowance given to the router is of no use to others. Hence in every execution an account other than router and mailbox of a chain that does not act there, and has allowed nobody but the router to spend its cw20 tokens, ends with at least the tokens it started with, whatever owners, relayers, security modules, remote routers and other holders do.", "quantifier": "all states, messages, callers; all histories of transactions with nested calls and rollback, operations on tokens, dishonest owners and remote routers", "why_tests_cant": "The claim is about all adversaries: no sequence of calls by others may take tokens from an account that allowed the router to spend them.", "anchors": ["contracts/warp/cw20/src/contract.rs: 185-255", "contracts/warp/native/src/contract.rs: 198-268", "contracts/warp/cw20/src/contract.rs: 142-182"]}
{"id": "C87", "title": "Deployed token routers are backed from the start", "statement": "However a token router is deployed, it ends up with the given mailbox, mode and owner, without routes, and with a token: the given one, or a new one that the router alone can create (the denomination factory/<router>/<name>, of which there is nothing, or a cw20 token with the router as minter without cap). Hence in every network of freshly deployed routers bridged tokens are backed after every execution, under the assumptions of C81.", "quantifier": "all deployment messages, answers of the chain, numbers of chains, histories", "why_tests_cant": "It links what instantiation writes and what the chain answers to an invariant over all later executions of all chains.", "anchors": ["contracts/warp/native/src/contract.rs: 30-86, 122-144", "contracts/warp/cw20/src/contract.rs: 29-82, 118-140", "contracts/warp/native/src/proto.rs"]}
{"id": "C88", "title": "Honest validators keep holders of deployed networks backed, and attested transfers arrive", "statement": "Take any number of freshly deployed token routers whose tokens anybody may use freely. If at every delivery the security module responsible for the router demands enough signatures of honest validators for the origin, who attest only messages their mailbox announced, then after every execution all holders of bridged tokens together with all transfers in transit own at most what is locked. And every transfer of a positive amount announces one message which, once enough validators signed it (through any nesting of modules), anybody can deliver; exactly the addressed account then has exactly the amount more.", "quantifier": "all numbers of chains, deployments, histories of users, owners and validators, nestings of security modules, relayers", "why_tests_cant": "It joins deployment, security modules, mailboxes, routers and tokens of all chains over unbounded executions with adversarial signatures and metadata.", "anchors": ["contracts/core/mailbox/src/execute.rs: 156-226", "contracts/isms/multisig/src/query.rs", "contracts/isms/aggregate/src/lib.rs", "contracts/warp/native/src/contract.rs", "contracts/warp/cw20/src/contract.rs"]}
{"id": "C89", "title": "Deliveries can be made in any order", "statement": "Take deliveries of messages to mailboxes of any chains, by anybody, which succeed one after the other, come without coins for the mailbox and do not pay a router itself. Then in every order they all succeed with the same answers, and in the end every mailbox, router, bank and token is in the same state. And each part of them succeeds without the rest, in any order. So no relayer can gain or spoil anything by reordering or withholding deliveries. (The answers of security modules are part of the delivery; recipients other than routers have no state here.)", "quantifier": "all numbers of chains and routers, all states of them, all lists of successful deliveries, all permutations and parts", "why_tests_cant": "A list of n deliveries has n! orders, over unbounded states of ledgers whose balances could run short in some of them.", "anchors": ["contracts/core/mailbox/src/execute.rs: 156-226", "contracts/warp/native/src/contract.rs: 146-195", "contracts/warp/cw20/src/contract.rs: 142-182"]}
{"id": "C90", "title": "Events of security modules, hooks, gas oracle and token routers tell their settings", "statement": "Whoever has seen the events of a contract since it was made, and knows what it was made with, knows all of its settings. Owner and claimant of every contract; whether it is paused; the route of every domain (routing hooks, paymaster, token routers); mailbox, module and hook a token router is connected to; the module of every domain of the routing module; modules and hooks of the aggregate ones; fee and fallback hook: each is what the last event about it says. So are, for every domain, whether it has validators, how many and with which threshold; whether it has gas data; and for every recipient whether it has a custom hook. A message passed on by a routing hook is told with its id, destination and the hook it goes to; the fee hook tells the coin it got, the aggregate hook the id. In full this fails: who the validators are, the threshold of the aggregate module, the gas data and the custom hook itself are not told.", "quantifier": "all histories of transactions with nested and failing calls, all callers, domains, recipients, addresses, fees and messages", "why_tests_cant": "That a setting equals what the last event says is an invariant over all histories; the texts (JSON lists, numbers, hexadecimal in either case) must be read back without confusion for all domains and names.", "anchors": ["packages/ownable/src/lib.rs: 24-110", "packages/pausable/src/lib.rs: 18-65", "packages/router/src/lib.rs: 28-116", "packages/connection/src/lib.rs: 10-75", "contracts/isms/multisig/src/contract.rs: 51-101", "contracts/isms/routing/src/contract.rs: 46-99", "contracts/isms/aggregate/src/lib.rs: 68-103", "contracts/isms/pausable/src/lib.rs: 60-70", "contracts/igps/oracle/src/contract.rs: 36-83", "contracts/hooks/{fee,pausable,aggregate,routing,routing-fallback,routing-custom}/src/lib.rs: execute"]}
{"id": "C91", "title": "Nobody but owners can stop dispatching or make it dearer", "statement": "Take a mailbox with any arrangement of hooks and gas oracles, and let people who own none of these contracts do whatever they like: dispatch, call hooks directly with any message, pay for gas, claim, have messages processed, send coins around, also from contracts of their own that are called in the middle of a dispatch. Then all settings and owners stay the same, every dispatch is quoted the same fees as before, accounts that do nothing lose nothing, and a request whose hooks are in order can still be dispatched for the fees quoted before, with the same effects, as long as nonces and room in the merkle trees last. A message the mailbox would have processed it still processes, unless it has been processed in the meantime.", "quantifier": "all arrangements of hooks, histories of calls by any number of accounts and contracts with reentrancy, requests and balances", "why_tests_cant": "Non-interference is about every sequence of calls by anybody, including contracts that reenter in the middle of a dispatch, and about arbitrary trees of hooks; a test fixes one adversary and one tree.", "anchors": ["contracts/core/mailbox/src/execute.rs: 26-226", "contracts/core/mailbox/src/query.rs: 88-132", "contracts/hooks/{merkle,fee,pausable,aggregate,routing,routing-fallback,routing-custom}/src/lib.rs: execute", "contracts/igps/core/src/execute.rs: 22-183", "contracts/igps/oracle/src/contract.rs: 36-83", "packages/ownable/src/lib.rs: 31-118"]}
{"id": "C92", "title": "Contracts panic only in known situations", "statement": "A call or query ends in a Rust panic only in the following situations. Mailbox: processing fewer than 77 bytes or without default ISM; dispatching for an account whose address has more than 32 bytes, without default or required hook, or after 2^32 - 1 dispatches; queries for missing settings. A mailbox with its settings made keeps them, and then panics exactly on short messages as long as nonces last. Merkle, aggregate and routing hooks: messages of fewer than 77 bytes; fee and pausable hooks and the gas oracle: never. Paymaster: short messages, gas calculations leaving 256 bits, and refund addresses it cannot turn into an account, in particular those starting with 16 zero bytes. Multisig module: metadata under 68 bytes, short messages, and signatures with a last byte below 27. Aggregate module with a threshold: metadata without a part for one of its modules. Routing module: short messages; pausable module: never. Validator announce: a mailbox address of more than 32 bytes, or a signature that is too short or has its 65th byte below 27. Token routers: messages from domains without route, payloads under 64 bytes from the remote router, transfers to domains without route, and for native tokens transfers without any coin of the denomination.", "quantifier": "all states (for merkle hook and multisig module: all histories), all calls, messages, metadata, coins and answers of other contracts", "why_tests_cant": "Absence of panics is about every input of every entry point; tests only try some malformed inputs and none of the suite asserts that other inputs cannot panic.", "anchors": ["packages/interface/src/types/message.rs: 47-59", "packages/interface/src/types/metadata.rs: 37-63, 101-122, 156-179, 238-265", "packages/interface/src/types/bech32.rs: 4-45", "contracts/core/mailbox/src/{execute,query,state}.rs", "contracts/core/va/src/contract.rs: 131-216", "contracts/hooks/*/src/lib.rs", "contracts/igps/core/src/{execute,query}.rs", "contracts/isms/{multisig,aggregate,routing,pausable}/src", "contracts/warp/{native,cw20}/src/contract.rs: 146-268"]}
{"id": "C93", "title": "Contracts are nobody's mouthpiece", "statement": "Whatever anyone asks of a contract of the repository, in whatever state it is, it sends only the messages it is there to send: the mailbox PostDispatch and Handle (the latter without coins), the aggregate and routing hooks PostDispatch, the fee hook and the paymaster coins, the token routers Dispatch and the mints, burns and payments of their tokens, in their own name; all other contracts nothing. And such a message, whichever contract of the repository (or cw20 token) sits at the address it goes to, is either refused because its text is none of that contract's messages, or is heard as the very same message in that role: PostDispatch by a hook, Handle by a router, Dispatch by a mailbox, token messages by a token. So by naming addresses (of hooks, recipients, routes, refunds) nobody can make a contract use its rights as owner, beneficiary, minter or holder at another one.", "quantifier": "all contracts of the repository as speakers and hearers, all states, callers, messages, funds and answers of the world", "why_tests_cant": "Anyone can name any address as hook or recipient; that no text a contract can be made to send is understood elsewhere as an owner's message is about all pairs of contracts and all (unbounded) texts.", "anchors": ["contracts/core/mailbox/src/execute.rs: 88-226", "contracts/hooks/*/src/lib.rs: execute", "contracts/igps/core/src/execute.rs: 90-183", "contracts/warp/native/src/contract.rs: 146-268", "contracts/warp/cw20/src/contract.rs: 142-255", "packages/interface/src: ExecuteMsg of all contracts"]}
{"id": "C94", "title": "Migrations follow semantic versions", "statement": "The versions that a migration reads are exactly the well-formed semantic versions (semver.org, items 2, 9 and 10, numbers of 64 bits), and a migration of a contract succeeds exactly if its name stays the same and the new version comes after the stored one: by precedence (item 11), or with the same precedence by the build. In particular releases follow their numbers, a candidate is followed by its release and never the other way, a version once replaced is never in force again, and between release candidates, named rcN as the project names them, a migration succeeds exactly if their numbers grow.", "quantifier": "all texts of versions, all contract names, all sequences of attempted migrations, all numbers of versions and candidates", "why_tests_cant": "The project's test tries one candidate and its release; parsing and comparison are about all (unbounded) texts, and the failing case is only reached after nine candidates.", "anchors": ["packages/utils/src/lib.rs: 20-45", "contracts/*/src: migrate", "script/shared/constants.ts: 31"]}
{"id": "C95", "title": "Whoever sees the events of a contract from its making on knows its settings", "statement": "The events of making a contract tell how it was made, so that two contracts made with the same events are made the same; and together with the later events they tell at every time: who owns the contract and who may claim it (all contracts with an owner), the fee of a fee hook, the hooks of an aggregate hook and the modules of an aggregate module, the beneficiary and default gas of a paymaster, the mailbox of a merkle hook and of a validator announce contract and the domain of the latter, the mode and token of a token router.", "quantifier": "all instantiate messages of all contracts, all histories of calls after it, all answers of other contracts", "why_tests_cant": "The project's tests compare single events of single calls; that the log as a whole determines the state is about all histories and about pairs of messages that must not share an event.", "anchors": ["contracts/*/src: instantiate", "contracts/warp/native/src/contract.rs: 30-144", "contracts/warp/cw20/src/contract.rs: 29-140", "packages/ownable/src/lib.rs"]}
{"id": "C96", "title": "Contracts are made as their creators say", "statement": "Every message that makes a contract has one text, which the contract reads as the very message and which no other message for the contract has; without characters to escape the text is the JSON object with the documented field names. The message the cw20 router sends for its new token is read by the token as the one the creator gave, with only the minter replaced by the router, without a cap.", "quantifier": "all instantiate messages of all 17 contracts and of cw20 tokens, all texts and numbers in them", "why_tests_cant": "Tests write a few messages with the same code that reads them; faithfulness and injectivity are about all values, including nested options, lists and unusual texts.", "anchors": ["packages/interface/src: InstantiateMsg", "packages/interface/src/warp/native.rs: 14-53", "packages/interface/src/warp/cw20.rs: 27-45", "contracts/warp/cw20/src/contract.rs: 49-67"]}
{"id": "C97", "title": "Signatures recover to exactly those who made them", "statement": "From a hash, a signature and a parity a public key is recovered exactly if the hash is 32 bytes, the signature is two numbers of 32 bytes, and the key is that of a secret key with which the hash was signed under the ECDSA equations on secp256k1, with some nonce giving these numbers and this parity; the second number must be in the lower half unless the host normalizes it. Each secret key has one public key, which no other has, and every point but the neutral one is one. With every signature comes a second one, with the opposite number and parity, and exactly one of the two is in the lower half.", "quantifier": "all hashes, signatures, parities, keys, secret keys and nonces", "why_tests_cant": "The project's tests recover a handful of signatures made by the same library; that nothing else recovers, and that every signature does, is a fact about the group of about 2^256 points and the equations of ECDSA.", "anchors": ["contracts/core/va/src/contract.rs: 185-195", "contracts/isms/multisig/src/query.rs: 46-53", "packages/interface/src/types/crypto.rs: 23-31"]}
{"id": "C98", "title": "Only holders of the validators' secret keys can attest and announce, and they always can", "statement": "With keccak256 and secp256k1 in place of parameters: if the multisig module accepts a message, the metadata has signatures of its checkpoint digest made with secret keys of threshold many different enrolled addresses; and if holders of such keys sign, the checkpoint followed by their signatures, in any order and with further signatures by anybody, is accepted. Every committed announcement is signed with a secret key of the validator's address over this domain, mailbox and location; and the holder of a secret key can announce each location not yet announced for its address, unless an explicit collision of keccak256 is at hand.", "quantifier": "all reachable states, messages, metadata, secret keys, nonces, histories of announcements, both behaviours of the host for high numbers", "why_tests_cant": "Tests try single signatures of fixed or random keys; acceptance of every quorum of signers and rejection of everything else ranges over all keys, nonces, orders and histories.", "anchors": ["contracts/isms/multisig/src/query.rs: 21-68", "contracts/core/va/src/contract.rs: 149-220", "packages/interface/src/types/crypto.rs: 5-31"]}
{"id": "C99", "title": "A false message can be delivered only by breaking ECDSA or keccak256", "statement": "With keccak256 and secp256k1 in place: if a mailbox delivers a message that names another chain as its origin, the modules responsible are guarded and honest validators truthful, then an account of that chain dispatched the message and the recipient is called as it asked; or the metadata have a signature valid for an honest validator's secret key over a digest the validator never signed; or they have one valid for another secret key whose public key has that validator's address; or two named strings are a collision of keccak256. Conversely, if holders of secret keys of threshold many validators sign a checkpoint with an undelivered message, anybody delivers it with metadata of 68 bytes plus 65 for each of them.", "quantifier": "all histories of the origin, all states of the destination, all nestings of security modules, messages, metadata, keys and nonces, both behaviours of the host for high numbers", "why_tests_cant": "Tests deliver single messages with signatures of random keys; that nothing else than the named breaks can get a false message through is a statement over all executions and all metadata.", "anchors": ["contracts/core/mailbox/src/execute.rs: process", "contracts/isms/multisig/src/query.rs: 21-68", "contracts/isms/aggregate/src/lib.rs", "contracts/isms/routing/src/contract.rs", "packages/interface/src/types/crypto.rs: 5-31"]}
{"id": "C100", "title": "Circular arrangements of hooks or modules stop messages", "statement": "If the required hook or the hook chosen passes a message on without an end (aggregate and routing hooks that name each other in a circle), then every dispatch of the message fails, whoever sends it and with whatever coins and gas, such a hook cannot be called directly either, and no quote for it is answered at any depth of queries. If a security module passes the question about an origin on without an end (routing modules in a circle, aggregates whose module with the smallest address leads back), then it never answers, and the mailbox delivers no message of that origin for which it is responsible, whatever the metadata.", "quantifier": "all arrangements of hooks and modules, all lengths of circles, all states, senders, funds, metadata, gas limits and query depths", "why_tests_cant": "A test with a circle runs out of gas or of stack for one gas limit; that no limit and no way into the circle succeeds is a statement over all of them.", "anchors": ["contracts/hooks/aggregate/src/lib.rs: 84-110, 158-185", "contracts/hooks/routing/src/lib.rs: post_dispatch, quote_dispatch", "contracts/hooks/routing-fallback/src/lib.rs", "contracts/hooks/routing-custom/src/lib.rs", "contracts/isms/routing/src/contract.rs: 112-124", "contracts/isms/aggregate/src/lib.rs: 136-160"]}
{"id": "C101", "title": "Validators and relayers need to see nothing but events and signatures", "statement": "The mailbox_dispatch events of a mailbox show, in order, the bytes of exactly the messages it announced. Honest validators who attest only what such events of chain A show make chain B safe: if a message with A's domain as origin is delivered on B, guarded by modules with enough honest validators, then an event of A shows these bytes for B, and the recipient is called with the sender and body shown, or a key, an address or the hash is broken. A relayer who sees an event of A with a message for B, no event of B with its delivery, and signatures of threshold many validators over a checkpoint with the id of the bytes shown, can deliver the message, and the recipient is called with A's domain, the sender shown and the body shown.", "quantifier": "all histories of both mailboxes, all events, metadata, modules, keys, signatures, query depths and callers", "why_tests_cant": "A test reads the events of one transaction; that off-chain agents who see nothing else are neither fooled nor stuck is a statement over all histories, metadata and keys.", "anchors": ["contracts/core/mailbox/src/event.rs", "contracts/core/mailbox/src/execute.rs: dispatch, process", "contracts/isms/multisig/src/query.rs: verify_message", "packages/interface/src/types/message.rs"]}
{"id": "C102", "title": "Bridged tokens lose their backing only by breaking ECDSA or keccak256", "statement": "Take any number of freshly deployed token routers without initial balances, guarded by modules whose honest validators, known by their secp256k1 secret keys, attest only announced messages. After every execution, in which anybody may use the tokens as they like, what any accounts hold of bridged tokens, together with the transfers in transit, is not more than the collateral locked; or a delivery that took place carries a signature valid for an honest validator's key which the validator never made, or one valid for another key with the same address, or gives a collision of keccak256. And each transfer announces one message which anybody can deliver who has signatures made with enough secret keys, through any nesting of modules; the account addressed then has exactly the amount more.", "quantifier": "all numbers of chains, histories with nested and failing calls, modules, metadata, keys, signatures and users of the tokens", "why_tests_cant": "A test runs a few transfers with a few signatures; that no sequence of calls, metadata and signatures short of breaking the cryptography takes away the backing is a statement over all of them.", "anchors": ["contracts/warp/native/src/contract.rs", "contracts/warp/cw20/src/contract.rs", "contracts/core/mailbox/src/execute.rs", "contracts/isms/multisig/src/query.rs: verify_message", "contracts/isms/routing/src/contract.rs", "contracts/isms/aggregate/src/lib.rs"]}
{"id": "C103", "title": "Hooks that charge are paid for every call", "statement": "Whatever hooks a mailbox has and however aggregate and routing hooks connect them: the list of hooks that a dispatch calls, with repetitions, is determined by the arrangement and the message; and after the dispatch every fee hook and every gas paymaster has gained, in each coin, at least what it quotes for this message times the number of times it was called, whoever's coins paid for it. The same holds for direct calls of a hook by anybody.", "quantifier": "all arrangements of hooks, settings, balances, senders, coins attached, messages and metadata", "why_tests_cant": "A test sends the fee to one hook. That no arrangement, no coins attached and no surplus lying about in a hook lets a message pass without each charge being paid in full each time is a statement over all of them.", "anchors": ["contracts/core/mailbox/src/execute.rs: dispatch", "contracts/hooks/fee/src/lib.rs", "contracts/igps/core/src/execute.rs: post_dispatch, pay_for_gas", "contracts/igps/core/src/query.rs", "contracts/hooks/aggregate/src/lib.rs", "contracts/hooks/routing/src/lib.rs", "contracts/hooks/routing-custom/src/lib.rs", "contracts/hooks/routing-fallback/src/lib.rs"]}
{"id": "C104", "title": "Mistyped addresses are refused", "statement": "Take two texts that differ, not only in case, within four consecutive characters after the separator, none of which is the separator itself: bech32_decode takes at most one of them for an address, whatever their length and prefix and although it accepts the checksums of both Bech32 and Bech32m. The same holds if the texts have the same data and prefixes that differ in up to four consecutive letters, so that an address is not taken for one of another chain. What it does not notice is the kind of the checksum: every address has a second text, differing from it in the last six characters only, which is taken for the same address.", "quantifier": "all texts of any length, prefixes, places and kinds of changes; all addresses", "why_tests_cant": "A test tries some typing mistakes in some addresses. That none of the changes in any place of a text of any length passes both checksums is a statement about the polynomial, not about examples.", "anchors": ["packages/interface/src/types/bech32.rs: bech32_decode", "contracts/core/va/src/contract.rs: instantiate", "contracts/isms/aggregate/src/lib.rs"]}
{"id": "C105", "title": "Storage locations shown for validators are their own", "statement": "With keccak256 and secp256k1 in place: let a validator with a secret key have signed certain checkpoints and announcements and nothing else. Each location the announce contract shows for its address is one the validator signed for this domain and this mailbox, so neither its checkpoints nor its announcements for other chains or mailboxes can be used; or the location was announced with a signature valid for its secret key over a digest it never signed; or with one valid for another secret key with the same address; or two named strings are a collision of keccak256. Conversely, whoever has the validator's signature of a location can have it shown, as the last one and without changing what is shown for others, unless it is shown already or a collision is at hand. What is shown stays for ever, in the same order.", "quantifier": "all histories of transactions from the making of the contract, all validators, keys, sets of signed statements, locations, senders, domains and mailboxes; both behaviours of the host on high signatures", "why_tests_cant": "Tests announce single locations with recorded signatures; they cannot show that no other signature the validator ever makes, for whatever purpose, serves to announce a location in its name, nor that nothing later removes one.", "anchors": ["contracts/core/va/src/contract.rs: announce", "contracts/core/va/src/contract.rs: get_announce", "packages/interface/src/types/crypto.rs: eth_hash, eth_addr"]}
{"id": "C106", "title": "Contracts are made exactly with valid addresses and start as said", "statement": "Each of the contracts is made exactly if every address its creator names is valid (owner, mailbox, beneficiary, hooks, modules for domains, collateral contract), and for mailbox and paymaster if moreover the prefix is in lower case, for the paymaster if the chain answers how much there is of the gas token, and for the announce contract if the mailbox's address can be decoded and the mailbox tells its domain. A contract so made belongs to the owner named, with nobody nominated; the settings named are in force and all others are empty: no routes, no custom or fallback hooks, no validators, no gas data, no leaves, nothing dispatched, delivered or announced. Of several initial modules for one domain the last one counts.", "quantifier": "all creators, owners, addresses, lists of hooks and modules, settings and notions of valid addresses", "why_tests_cant": "Tests make contracts with a few good addresses. That no list with an invalid address anywhere is accepted, and that nothing else prevents a contract from being made, is about all lists.", "anchors": ["contracts/core/mailbox/src/contract.rs: 18-48", "contracts/core/va/src/contract.rs: 27-55", "contracts/hooks/merkle/src/lib.rs: 57-75", "contracts/hooks/routing-custom/src/lib.rs: 57-74", "contracts/isms/routing/src/contract.rs: 19-42", "contracts/isms/aggregate/src/lib.rs: 37-64", "contracts/isms/multisig/src/contract.rs: 25-38", "contracts/isms/pausable/src/lib.rs: 39-57", "contracts/igps/core/src/contract.rs: 21-58", "contracts/igps/oracle/src/contract.rs: 20-33", "contracts/warp/native/src/contract.rs: instantiate", "contracts/warp/cw20/src/contract.rs: 29-82"]}
