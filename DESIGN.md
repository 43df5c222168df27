# Formal model of cw-hyperlane in Lean 4

Source under study: `/repo` (many-things/cw-hyperlane, workspace version 0.0.7), read as text only.
Lean 4.33.0 and single modules of Mathlib.

## 1. Layout

| path | content |
|---|---|
| `properties.jsonl` | the properties in English |
| `MANIFEST.json` | per property: status and theorem names |
| `lean/Verif/Model/*.lean` | definitions that transcribe the Rust code, function by function, each citing file and lines; and what the chain itself does (`Run`, `Tx`, `Ledger`, `MerkleSystem`, `Bridge`, `HookSystem`, `Network`) |
| `lean/Verif/Spec/*.lean` | small independent specifications (what a user would say), not using model helpers where avoidable |
| `lean/Verif/Lemmas/*.lean` | helper lemmas |
| `lean/Verif/Props/*.lean` | the property theorems listed in `MANIFEST.json`, with a concrete `example` next to each |
| `lean/Verif/Examples/*.lean` | larger concrete systems the examples use |
| `seeded/LOG.jsonl` | wrong programs tried against the theorems, and which theorems failed |
| `tools/` | scripts that keep the manifest and run the wrong programs |

## 2. Modelling conventions

* **Bytes** are `List UInt8`; `u8`/`u32` are `UInt8`/`UInt32`; `Uint128`, `Uint256`, `u128`, `usize` are `Nat`
  with every operation that can overflow written as an explicit check (the release profile of the
  workspace has `overflow-checks = true`, `Cargo.toml` `[profile.release]`, so overflow is a panic).
* **Failure** is a value: `Except Fail α`, where `Fail` is either a returned error or a panic. In CosmWasm both
  abort the call and the runtime discards all writes and messages of that call, so a model function returns the new
  state only in the `ok` case. The transaction model (`Verif/Model/Tx.lean`) makes rollback explicit.
* **Storage** is one structure per contract. `cw_storage_plus::Item` becomes a field (`Option` if it may be unset),
  `Map` becomes an ordered finite map (`OMap`, a key-sorted association list with the same iteration order).
  JSON (de)serialisation of storage is trusted to be the identity, and the models of single contracts take messages as
  values. That messages survive their JSON text is C74 (`Json`, `Schema`, `Interface`).
* **External world** (other contracts, the address validator, the bank) appears as function parameters that may be
  different for each call; theorems quantify over them, i.e. they are adversarial.
* **Cryptography**: keccak256 is an arbitrary function parameter `H : Bytes → Bytes`; public key recovery is an arbitrary partial
  function. `Model/Keccak` and `Model/Secp` are the functions meant; C14 and C98 put them in. Neither is in the repository: both follow
  the published standards, and `Props/SecpVectors` checks them on the repository's test data. The host's recovery is taken with and
  without normalization of high `s`. No collision-freeness is assumed: binding theorems conclude "equal, or here is the
  collision", naming the two colliding preimages.
* **Events**: the models of the contracts keep the events about messages. `Model/Events` gives events as texts (types and attributes) for mailbox, merkle hook, paymaster, validator announce, token routers and the packages for owners, routes and connections, as a function of call, state before and response; `Model/EventsOthers` does so for security modules, the other hooks, the gas oracle and pausing. `Model/Start` gives the events of `instantiate` and of the routers' `reply`; attributes of a response without event are the event `wasm`.
* **Histories.** `run step s h` executes a list of calls, a failed one changing nothing (`Model/Run`). `Tx.history`
  (`Model/Tx`) is the same for transactions with nested calls, aborts and caught failures. A theorem about
  `run` covers nested executions too, because what `Tx.history` commits is a chain of successful steps of the same step
  function (`Tx.Chain`).
* **False properties.** Where the code does not have a property, the full statement is kept as `Cnn_full : Prop`, its negation
  is proved (`Cnn_full_refuted`, with a concrete witness reachable by calls), and what does hold is a theorem
  named `_partial`. The manifest status is then `partial`.

### Systems of several contracts

| system | contains | assumptions made about the rest |
|---|---|---|
| `MerkleSystem` (C45-C47) | mailbox, merkle hook | anything else may call either at any time |
| `Ledger` (C49) | a contract and its account in the bank | others may send any coins; a bank message fails if the balance is too small |
| `IsmContract`/`askIsm` (C44, C63) | modules asking each other, any nesting | C63 names for each origin a guarded module: a multisig with fewer dishonest validators than its threshold, or a combination of guarded ones. Honest validators sign only what they saw (`Truthful`); a forged signature or hash collision is a named alternative of the conclusion |
| `Bridge` (C61, C64, C72) | on each of two chains a mailbox, a token router, its holdings and the supply of its token | `Linked`: the two routers enrol just each other and use the mailbox of their chain, domains differ, one is collateral and the other bridged. Only the router mints its bridged token. `Honest`: only the mailbox calls in its name, nobody but the router dispatches in its name, owners leave the routes alone, and a delivery in the name of the remote router is of an announced message (C64 derives this from honest validators, `Validated`). cw20 and bank behave as documented. `Recipients`: lengths of transfer recipients, without which C61 is false |
| `HookSystem` (C65, C66, C69-C71, C103) | mailbox, any hooks and oracles, all balances | messages are executed depth first; exchange rates come from gas oracles or, as in the code, through other paymasters (nine at most); balances are unbounded numbers (the bank's 2^256 limit is not modelled) |
| `HookUsers` (C91) | as `HookSystem`, with all messages of mailbox, hooks and oracles | contracts outside of the model do anything in their own name when called, also in the middle of a call; quotes of hooks outside of the model are not modelled |
| `TokenNet` (C81-C83) | any number of chains, each as in `Bridge` | `Joined`: routers enrol only routers of the network, domains differ, modes are arbitrary. `HonestNet`: as `Honest`, but owners may enrol and remove routers of the network at any time; deliveries in the name of a router of the network are of announced messages (C83 derives this from honest validators, `ValidatedNet`). `RecipientsNet`: lengths of transfer recipients |
| `TokenWorld` (C84-C89) | as `TokenNet`, and on each chain the bank with token factory and a cw20 token, all balances, allowances, supplies, administrators and minters; anybody may use them | `OwnTokens`: the router administers its bridged token, collateral has no administrator who could take it away, the router gave no allowance (C87 derives these from deployment). `Covered`: balances amount to the supply. C84, C85: `HonestNet`, `RecipientsNet`; C86 assumes nothing more. C88 replaces `HonestNet` by `ValidatedNet`, as in C82. C89 assumes only that deliveries come without coins and do not pay the router itself; the module's answer is part of each delivery, recipients other than routers have no state. Ledgers (`Ledgers`) follow the documentation of the SDK's bank, Osmosis' token factory and cw20-base; they are not code of the repository |
| `Network` (C67) | a mailbox per chain, any number of chains | none |

## 3. Trusted base

* Lean's kernel and the three standard axioms `propext`, `Classical.choice`, `Quot.sound`
  (each property theorem is checked with `#print axioms`; see section 6). No own axioms, no `sorry`,
  no `native_decide`, no `bv_decide`.
* That the model definitions transcribe the cited Rust code (manual correspondence, comments give file:line).
* Semantics of dependencies as transcribed from their documentation: `cosmwasm_std::{Coins, Uint128, Uint256, HexBinary}`,
  `cw_storage_plus::{Item, Map}`, `cw_utils::must_pay`, `cw2`, `semver` 1.0 (parser and comparison, transcribed in `Semver`), `bech32` 0.9.1, `prost` (wire format,
  decoding of strings and unknown fields; groups are refused by the model), `BTreeMap`/`HashSet`, the wasm runtime's
  atomic rollback and depth-first message execution.
* The rules of serde, `cw_serde` and serde-json-wasm as written in `Json` and `Schema`: writer and reader of texts,
  names in snake case, unknown and missing fields refused. The reader of the model also accepts numbers with leading zeros
  and refuses a field given twice. That the lists of fields in `Interface` are those of the Rust types, and that `u128` is
  written in a string (as in the recorded answers under `tests/neutron-migration`).
* The keys and ranges of cw-storage-plus as written in `Storage` (C78); the other models keep items and maps as typed fields,
  which C78 justifies. The host separates the storages of contracts.
* Not modelled: gas, event attributes not mentioned above,
  the schema/CLI/script parts of the repository, the mock contracts, `integration-test`, `error.rs` texts.

### Which code is modelled

| code | model | not modelled there |
|---|---|---|
| `packages/interface/src/types/{message,metadata,merkle,bech32,crypto}.rs` | `Message`, `Metadata`, `Merkle`, `Bech32`, `Bech32Codec`, `Crypto`, `Keccak`, `Secp` | `Display`; secp256k1 recovery is not in the repository and modelled in `Secp` |
| `packages/{ownable,pausable,router,connection,utils}` | `Packages`, `Owned`, `Events` | |
| `contracts/core/mailbox` | `Mailbox`, `Coins`, `Msg` | |
| `contracts/core/va` | `Va` | |
| `contracts/isms/{multisig,aggregate,routing,pausable}` | `Multisig`, `Isms` | |
| `contracts/hooks/*` | `Hooks` | |
| `contracts/igps/{core,oracle}` | `Igp` | |
| `contracts/warp/{native,cw20}` | `Warp`, `WarpMessage`, `Proto`, `Deploy` | the token contract is cw20-base (`Ledgers`), whatever code id the deployer names |
| instantiate, execute, query and response types of `packages/interface/src` | `Interface` and `Start`, over `Schema` and `Json` | embedded logos in the message for a cw20 token, JSON schema generation |
| `migrate` of all contracts | `Packages` (`utils`), `Semver` | |

## 4. Plan per property

Status is kept in `MANIFEST.json`. "neg" marks a property that reading the code suggests is false in full generality; the
plan there is: prove the counterexample, and prove the strongest true part as `_partial`.

| id | model | proof |
|---|---|---|
| C01 | `Model/Message` encode/decode with slice panics | list append/take/drop algebra, big-endian round trip |
| C02 | `id = H ∘ encode` | injectivity of encode; collision disjunct |
| C03 | `Model/Warp` payload | as C01 (32-byte recipient; see C60 for other lengths) |
| C04, C05 | `Model/Metadata` | chunk lemmas by induction |
| C06 (neg: stored order differs from address order) | `AggregateMetadata` over sorted map | induction over the table, u32 bound; counterexample for unsorted lists |
| C07 (neg: addresses with 16 leading zero bytes abort) | `get_refund_address` | case analysis; counterexample |
| C08 | `Model/Bech32`, first relative to an abstract lawful codec, later the concrete BIP-173 codec | padding algebra; polymod linearity over GF(2) |
| C09 | `Model/Merkle` branch/count | invariant "branch[i] is the root of the i-th full block"; spec is a recursive full tree |
| C10 | `branch_root` | induction on depth |
| C11, C12 | same | induction on depth returning the colliding preimages |
| C13 | `insert` | 2-adic valuation of count+1 is below 32 |
| C14 | concrete keccak-f in Lean | kernel evaluation of the 31 hash equations (complete enumeration) |
| C15, C18 | `Model/Mailbox` + `Model/Tx` call trees with rollback and caught failures | invariant: committed trace ids = delivered keys, no duplicates |
| C16, C17 | `process` | inversion of the successful path |
| C19, C20 | `dispatch` over histories | induction; injectivity of encoding in the nonce |
| C21, C22, C23 | `Model/Coins` (BTreeMap with zero dropping) | per-denomination amount function |
| C24 | all mailbox messages | invariant |
| C25 (neg: eager default lookup) | `process`, `dispatch` | counterexample + partial when default is set |
| C26 | two mailboxes | composition of C01, C16, C20 |
| C27, C28, C29, C31 | `Model/Ownable`, `Pausable`, `Router`, `Connection` | induction over histories against small specs |
| C30 | `range_option` on `OMap` | induction on the remaining table; then the listings of routes and gas amounts against the owner's writes (C29, C57) |
| C32 | semver order as lexicographic order | strict order |
| C33, C34, C35 | `Model/Va` | history invariant; preimage injectivity |
| C36, C37, C39 | `Model/Multisig` verify loop | loop invariant: matched set ⊆ enrolled ∩ recovered, threshold + matched = const |
| C38 (neg: duplicates make a quorum unattainable) | SetValidators/UnsetDomain | invariant + counterexample |
| C40 (neg: instantiate accepts threshold 0) | `Model/AggregateIsm` | loop invariant + counterexample |
| C41 | same | loop invariant |
| C42, C43 | `Model/RoutingIsm`, `PausableIsm` | history refinement |
| C44 | inductive tree of modules | structural induction |
| C45 | mailbox × merkle hook interleavings | invariant |
| C46 (neg: anyone can re-insert the latest message) | same | counterexample + "at least once" partial |
| C47 | merkle hook queries | from C09 |
| C48, C50 | `Model/Hooks` | decision logic (C48 neg for zero fee: quote is not payable) |
| C49 | fee hook/IGP with a bank | history invariant |
| C51, C53 | `Model/Hooks` | history refinement; per-denomination sums |
| C52 (neg: forwards no funds) | routing hooks | counterexample |
| C54, C55 | `Model/Igp` | Nat arithmetic |
| C56 (neg: zero quote cannot be paid, refund panic) | same | counterexample + partial |
| C57, C58 (C58 neg: single setter lacks the check) | same | history refinement |
| C59, C60 (C60 neg: recipient length unchecked), C61 (neg for the same reason) | `Model/Warp`, two-chain system | inversion; global invariant |
| C62 (neg: separate storage items) | warp + connection | counterexample |
| C63 | `Spec/Security` over nested modules | induction over the guarded combination; a quorum above the number of dishonest validators contains an honest one |
| C64 | `Bridge` with C63 | `Honest` of C61 derived from validators |
| C65, C66 (neg: the aggregate hook pays from its own balance), C69, C70, C71 | `HookSystem` | induction over the hooks reached (`Settles`, `Reaches`); conservation of coins per message |
| C67 | `Network` | mailbox invariants per chain, ids commit to the destination |
| C68 | `process`, `dispatch` | inversion both ways |
| C72 | `Bridge` | backing invariant gives the collateral for each pending message |
| C73 | `Proto` | wire format as a relation, shown to be uniquely readable; decoder and encoder proved against it |
| C74 (neg: `VerifyInfo` of the routing module) | `Interface` | types as data; reading is inverse to writing for every type by mutual induction; compatibility of sender and receiver types is a decidable relation |
| C75 | `Governance` (all contracts with an owner) | one description per contract; five stepwise conditions, invariant by induction over the history; hand-over by following the three steps |
| C76 | `Relay` (verification by nested modules, `process`) | rules for what a relayer can achieve, induction over them with metadata assembled per module; a failing module blocks by induction over the loop; full statement refuted |
| C77 | `Listing` (listing of custom hooks) | pages of texts are images of pages of keys, then C30; agreement with `route` by C51 |
| C78 | `Storage` (keys, ranges, layouts of all contracts) | keys are uniquely readable; strings between two with a common prefix have it; equal-length strings are ordered as numbers, and the upper bound is the next number |
| C79 | `Events`, `Mailbox`, `MerkleHook`, `Va` | induction along the committed log: lists of dispatched and processed messages whose events are the events of each type; recording events does not change a history |
| C80 | `Events`, `Igp`, `Warp` | what a successful call did (C55, C59, C60) determines the attributes; decimal texts of numbers; settings by induction along the log |
| C81 | `TokenNet` | what a step does to one chain (lemmas of C61); invariant: sent messages are distinct, each delivered one is marked on its destination, taken = given + in transit; sums over all chains |
| C82 | `TokenNet` | as C72; the only collateral router holds all collateral; counterexample for several |
| C83 | `TokenNet` with C63 | `HonestNet` of C81 derived from validators |
| C84 | `TokenWorld`, `Ledgers` | refinement: every step of the world is a step of `TokenNet` on its view (holdings of the router, supply) and keeps `OwnTokens` and `Covered`; then C81 |
| C85 (neg for amount zero) | `TokenWorld` | refinement, C82, and liveness of the ledgers for what the router asks |
| C86 | `TokenWorld` | per message of the router: what it takes from whom; induction along the log |
| C87 (neg: initial balances) | `Deploy` | inversion of the deployment, reply parsers read what the chain writes; then C84; counterexample in which collateral is taken |
| C88 | `Deploy`, `TokenWorld`, `Isms` | validated deliveries are honest (as C82, on the view of the world); then C87, C85 and C76 |
| C89 | `TokenWorld` | a delivery is a relation between ledgers that only adds what was paid; two neighbours commute (per chain: native, cw20, bridged and collateral); induction over permutations |
| C90 (neg: validators, threshold, gas data and custom hooks are not told) | `EventsOthers` | induction along the log: setting = what the last event about it says; reading of printed JSON, decimal and hexadecimal texts; pairs of calls with equal events for what is not told |
| C91 | `HookUsers` (all calls of the contracts of `HookSystem`) | what others than owners call leaves settings alone, per contract; induction over everything that happens, contracts outside of the model acting in the middle of calls; quotes and trees of hooks do not depend on the nonce; then C65 |
| C92 | all contracts (`Spec/Panics.lean`) | a bind panics exactly when its first part does or its second part on the result; computed through every entry point down to slices, checked arithmetic, `expect` and `unwrap`; histories for the merkle tree, thresholds and settings of the mailbox |
| C93 | entry points of all contracts, `Model/Interface.lean`, `Model/Schema.lean` (`Spec/Mouthpiece.lean`) | case analysis of every entry point against a list of duties; the reader of an enum refuses every text whose only key is none of its variants, checked for each pair of a kind of message and a contract; C74 for the remaining pairs |
| C94 | `Model/Semver.lean`, `Packages` (`utils`) (`Spec/Semver.lean`) | the comparison is that of an injective key in a product of linear orders; numbers without leading zeros compare by length and text as by value; induction over the text in both directions for the parser; C32 for histories |
| C95 (neg: some settings are not told) | `Model/Start.lean` (`Spec/Start.lean`) | the first event put before the events of C79, C80 and C90; token and mode of routers never change over a history; injectivity of the texts of events; counterexamples |
| C96 | `Model/Start.lean` over `Schema` and `Json` (`Spec/Start.lean`) | typing of every message, round trip of C74, injectivity of values, texts by recursion over the types |
| C97 | `Model/Secp.lean` (`Spec/Secp.lean`: the curve, points and multiples of Mathlib) | Pratt certificates for both primes; the model's addition and multiplication are those of the group; the group has `n` points (bound on the number of points, no point of order two, Cauchy), so every point is a multiple of the generator; equations modulo `n` |
| C98 | `Model/Multisig.lean`, `Model/Va.lean` over `Secp` and `Keccak` | C97 put into C33, C34, C36, C37; the signatures of the repository's tests computed by the kernel (`Props/SecpVectors.lean`) |
| C99 | `Model/Mailbox`, `Model/Isms` over `Secp` and `Keccak` (`Spec/Security`, `Props/SecpSecurity`: `KeyBroken`, `AddressBroken`) | C98 put into C63 and C76; a forged signature is one valid for the validator's own key, or for another key with its address |
| C100 | `HookSystem`, `askIsm` (`Spec/Circular`: infinite paths) | induction on gas and on the depth of queries: what succeeds heads no infinite path |
| C101 | `Events`, `Mailbox`, `Multisig`, `Secp`, `Keccak` | correspondence of text events and announced messages; composition of C79, C63 and C99 |
| C102 | `TokenWorld`, `Deploy`, `Isms` over `Secp` and `Keccak` (`KeyedNet`, `CryptoBroken`, `KeyCan`) | C88 with C98: what is assumed not to happen there is named here |
| C103 | `HookSystem` (`Called`, `Charges`) | induction over the messages pending: each charge stays with the hook that makes it, refunds come out of what is above it |
| C104 | `Bech` | the checksum is linear and shifting it is injective; the difference of the two checksums has period 1023 and is never below 2^20, one orbit checked in the kernel |
| C105 | `Va` over `Secp` and `Keccak` | as C99 for announcements: C33 and C98 tell who signed; equal digests mean equal statements or a collision, the tags of announcements and checkpoints differ in their last letter; persistence by C33's account of the locations |
| C106 | all `instantiate`, `Start`, `Deploy` | what `Made` says (`Spec/Made.lean`) is built up check by check; the loop over initial modules by induction |

## 5. Findings about the code

Each is witnessed by a theorem, or by the model definition where no theorem is named.

1. **Token routers do not check the length of the recipient.** `transfer_remote` of both routers packs
   recipient ++ amount. With a 64-byte recipient (32-byte account ++ 32-byte number) the other side reads the number
   chosen by the sender as amount, whatever was paid: `C60_long_recipient`, `C61_full_refuted`. Recipients shorter than 32
   bytes lock tokens that can never be delivered.
2. `process` and `dispatch` panic if the default ISM or hook is unset even when the recipient or caller names one:
   `C25_process_full_refuted`, `C25_dispatch_full_refuted`. The fallback routing hook fails without a fallback even if a
   route exists.
3. A refund address with 16 leading zero bytes aborts the payment: `C07_zero_prefix_aborts`, `C56_refund_zero_prefix`.
4. Gas quotes abort for an exchange rate of zero and for huge amounts: `C54_full_refuted`; the oracle's single setter
   stores a zero rate: `C58_full_refuted`.
5. An aggregate ISM may be instantiated with threshold 0 and then accepts everything: `C40_zero_threshold`. Duplicate
   modules collapse in its metadata; the reader uses the stored order and the packer the sorted order: `C06_full_refuted`;
   the packer panics on wasm32: `C06_wasm32_packer_panics`.
6. Duplicate validators can make a quorum unattainable: `C38_unattainable`. An unrecoverable signature before the quorum is
   reached fails the whole verification.
7. Zero quotes of the fee hook and paymaster cannot be paid (`must_pay` rejects zero): `C48_full_refuted`,
   `C56_full_refuted`.
8. Routing hooks do not forward funds; coins stay there: `C52_full_refuted`. The aggregate hook pays quotes out of its own
   balance whatever is attached: `C66_surplus_spent_by_others`.
9. Anybody can make the merkle hook insert the latest message again: `C46_full_refuted`.
10. The `MAILBOX` of a token router and the mailbox of its connection settings are different storage items; the latter has
    no effect: `C62_full_refuted`.
11. The routing ISM forwards `VerifyInfo` without the wrapper other modules expect and reads the answer as
    `VerifyResponse`: every module refuses the query (`C74_verify_info_refused`), and no answer of the routing module can be
    read as the declared `VerifyInfoResponse`; the pausable ISM panics on `VerifyInfo` (`C74_verify_info_answers`).
12. A module that fails (a paused one, a multisig that does not know the origin) makes an aggregate ISM fail if its address
    is smaller than that of the last module needed; other Hyperlane implementations skip modules without metadata:
    `C76_full_refuted`, `C76_blocked`.
13. In a network with several collateral routers a paid and approved transfer may be undeliverable because the
    destination holds too little: `C82_empty_pool`. Nothing in the routers prevents enrolling two collateral routers.
14. The cw20 router replaces only the minter in the instantiation message of its bridged token and keeps
    `initial_balances`, so tokens without backing can exist from the start and be exchanged for the collateral of others:
    `C87_full_refuted`. Collateral denominations with a token factory administrator (who can force transfers) are accepted.
15. Transfers of amount zero are accepted but can never be delivered to a native router: `C85_zero_never_arrives`.
16. The events do not tell all settings: a validator set is announced by its size only, the aggregate module leaves out its
    threshold, the gas oracle its data and the custom routing hook the hook: `C90_untold`. Removing a domain of the multisig
    module names the caller under the misspelt attribute `sener`.
17. Release candidates named `rcN`, as the project names them, are compared as texts: code of version `x.y.z-rc9` cannot be
    migrated to `x.y.z-rc10`, only to candidates from `rc90` on or to the release: `C94_full_refuted`. With a dot (`rc.10`) the
    numbers count.
18. The events of the making do not tell: the owner of a multisig module, whether a pausable hook or module begins paused, the
    modules of a routing module, domain and prefix of a mailbox, gas token of a paymaster, mailbox and prefix of a router:
    `C95_untold`. The first event of a bridged cw20 router gives the name of the token as its `denom`. The field `hrp` of the
    message that makes a validator announce contract is not used.
19. Smaller ones: an empty hrp passes the lower-case check, and token routers do not check the hrp; router listings
    include domains set to null; the dispatch quote does not check the recipient length; the validator announce contract
    accepts a mailbox longer than 32 bytes and then fails every announcement; the native router stores the empty string as token
    on an empty reply; a native transfer of the whole coin forwards a coin of amount zero; addresses with a Bech32m checksum are
    accepted (`C104_second_text`).

## 6. Axioms

`#print axioms` on every theorem in the manifest gives a subset of `propext`, `Classical.choice`, `Quot.sound`. There is no
`axiom`, `sorry`, `admit`, `native_decide`, `bv_decide`, `implemented_by` or `unsafe` in the sources. Concrete
`example`s use `decide`, `decide +kernel` or `rfl`, which the kernel checks.

## 7. Wrong programs

`tools/mutate.py` applies an edit to a scratch copy of the model, rebuilds, and logs which theorems fail; where a theorem
named in the claim still passes it is tightened. For most edits the log also records a proof that the claim is false of the
edited program.
