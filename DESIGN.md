# Formal model of python-elementstx: design

The code under study is `/repo` (python-elementstx, pinned commit).  The model is
a set of total functions in Lean 4 under `lean/Verif/`; each one mirrors one
Python function branch by branch and cites the file and lines it comes from.
`properties.jsonl` lists the properties, `MANIFEST.json` maps them to theorems,
`seeded/LOG.jsonl` records wrong programs the theorems were tried against.

## Conventions

* A Python `bytes` is `Bytes := List UInt8`; a `str` is a list of code points.
  Python ints are `Int`, or `Nat` where the code has already rejected negative
  values (said at each definition).
* A call that may raise returns `Except PyErr α`.  `PyErr` names the exception
  class only.
* A stream read is `P α := Bytes → Except PyErr (α × Bytes)`: the value and the
  bytes that remain.
* Functions that mutate a transaction return the final state *together with* how
  the call ended (return or raise), so that what is left behind after an
  exception is visible to the theorems (`BM` in `Blind.lean`).
* Hash functions are arbitrary functions with 32-byte results (`HashFn`; `MidFn`
  for the SHA256 compression of one block).  No injectivity is ever assumed.
  "Commits to" statements are proved as: equal digests imply equal content, *or*
  two different byte strings with the same hash, **both among the strings
  actually hashed in the two calls**, are exhibited (`Spec/Collision.lean`).
* libsecp256k1-zkp is an arbitrary structure of functions (`Zkp`).  C32, C33,
  C35 and C37–C40 hold for every such structure.  Only C34, C36, C54, C57 (and
  `C33_formats`) need more; they take the contract of the library as explicit
  hypotheses (`Pedersen`, `RewindSound`, `Formats`, `Rewinds`, `WireSizes` in
  `Spec/Zkp.lean`).
  `ZkpToy.lean` has an instance that satisfies all of them, so the hypotheses
  are consistent and the theorems not vacuous.
* Randomness (`os.urandom`, `_rand_func`) is an arbitrary function of the draw
  number.
* When the code violates a property, the full claim is kept as
  `def Cxx_statement : Prop`, its negation is proved with a concrete witness
  (`Cxx_statement_false`), and what does hold is proved under the name
  `…_partial`.
* Beside each theorem an `example` shows a concrete non-trivial case that meets
  its hypotheses.

## Layout

| file | contents |
|---|---|
| `Bytes` | byte strings, little/big endian, two's complement, `struct.pack` |
| `Serialize` | stream reader, varint, byte-string and vector serializers of python-bitcointx |
| `Types` | records for transactions and their parts |
| `Hash` | abstract hash functions |
| `Confidential` | the three confidential field classes |
| `Tx` | issuance, inputs, outputs, witnesses, transactions |
| `Script` | script iteration, unspendable, peg-out |
| `Sighash` | legacy, segwit v0 and taproot signature hashes |
| `Issue` | asset entropy, asset and token ids, blinding key derivation |
| `Blech32` | `liquid_addr.py` |
| `Bech32` | `segwit_addr.py` of python-bitcointx |
| `Wallet` | `blech32.py` and the address classes of `wallet.py` |
| `Blind` | `blind_transaction`, `unblind_confidential_pair` and helpers |
| `Library` | loading of the native library |
| `Results` | result classes |
| `Objects` | objects in memory, mutable/immutable copies |
| `Repr` | printed forms |
| `Surjection` | `generate_surjectionproof` with its calls on the proof object |
| `WalletKeys` | redeem scripts of confidential addresses, key prefixes |
| `CrossSwap`, `SwapTime` | contracts, key recovery and timing of the cross-chain swap example |
| `AssetSwap` | examples/asset-atomic-swap.py: both sides between the messages, `sign_input`, `find_utxo_for_fee`, `claim_funds_back` |
| `SpendAddr` | examples/spend-to-confidential-address.py from line 86 on |
| `SwapSpend` | the same example: finding, claiming and reclaiming the Elements-side deposit, `create_elt_spend_tx` |
| `SwapBtc` | the same example: checks of the Bitcoin deposit, reading the key from Bob's transaction, `create_btc_spend_tx`, `try_reclaim_btc` |
| `SwapWatch` | the same example: `wait_spend_reveal_transaction` |
| `UnblindEx` | examples/unblind.py from line 58 on, `get_rangeproof_info` |
| `SerializeLemmas`, `TxLemmas`, `TxWriteLemmas`, `SighashLemmas`, `BlechLemmas`, `ConvertLemmas`, `BlechAddr`, `GF1024`, `BlindLemmas`, `BlindChecks`, `BlindRun`, `BlindLoop`, `BlindFacts`, `ObjectLemmas` | lemmas |
| `ZkpToy` | a library instance keeping all promises of `Spec/Zkp` |
| `Spec/*` | specifications written without the model's helpers: wire grammar, bit strings, committed content, balance, pushes, library promises, sharing |
| `Props/*` | the property theorems with their non-vacuity examples |

## Trusted base

* Lean 4 kernel.  Axioms used: at most `propext`, `Classical.choice`,
  `Quot.sound` (table at the end).  No axioms of our own, no `sorry`, no
  `native_decide`, no `bv_decide`.
* The transcription of `/repo` into the model, checked by reading; no code is run.
* The specifications under `Spec/` and the statements under `Props/`.
* The behaviour of code that is not in `/repo`, modelled from the published
  behaviour of python-bitcointx 1.1.x and Python:
  * `ser_read`, varint, byte string and vector serializers, the trailing-data
    check of `deserialize` (`Serialize.lean`);
  * `COutPoint`, `CTxIn`, `CTransaction` constructors and (de)serialization of
    outpoints (`Tx.lean`);
  * the script iterator `raw_iter` and `is_unspendable` of the base class
    (`Script.lean`);
  * the legacy signature hash algorithm and `sighash()` (`Sighash.lean`);
  * class dispatch by selected chain parameters, base58 after the checksum,
    (`Wallet.lean`), base58 (`AddrText.lean`), bech32 and bech32m (`Bech32.lean`);
  * `CKey`, `CPubKey.is_fullyvalid`, ECDH as arbitrary functions (`Issue.lean`,
    `Wallet.lean`, `Blind.lean`);
  * `from_instance`, `to_mutable`, `to_immutable` (`Objects.lean`);
  * `struct`, `int`, `str`, `bytes`, `hmac` of Python (`Bytes.lean`, `Issue.lean`).
* For C34, C36, C54, C57, C73, C105 and `C33_formats` (and what is built on them) only: the promises of libsecp256k1-zkp.

## Properties

For each property: what is modelled, how it is proved, what is missing.

* **C01–C04** (`Props/Confidential`).  `CConfidentialCommitmentBase` and its three
  subclasses, core/__init__.py:221-396, as one function family over a class record
  (explicit size, two prefixes) compared with the independent table in
  `Spec/Conf`.  Case analysis on the marker byte; `>q` inverted by arithmetic on
  all 2^64 values.  C03 also shows that the constructor accepts content that is
  not `is_valid()`.
* **C05–C08, C10, C11** (`Props/Tx`).  All (de)serializers of
  core/__init__.py:424-1143.  Proved against the relational wire grammar of
  `Spec/Wire` and `Spec/WireTx`: reader ⟺ grammar by induction over vectors
  (C06), writer ⟺ canonical grammar (C05), determinism and prefix-freeness of
  the grammar (C07), normal forms (C08), collision extraction (C10).
* **C09** partial.  Bit arithmetic on indices; the full claim is false for index
  0x3fffffff with both flags (it becomes the coinbase sentinel): `C09_full_false`.
* **C12** induction on inputs against a count.
* **C13, C14** (`Props/SighashV0`).  core/script.py:296-378.  The strings hashed on
  the way are fields of a record; unique parsing of each; collision extraction.
  C14 gives, for every hash type, the content the digest is a function of
  (`C14_covered`) and the freed fields.
* **C15** partial.  Lock times of 2^31 and more raise (`C15_locktime_raises`);
  everything else is answered (`C15_total_partial`).
* **C16–C18** (`Props/SighashTap`, `SighashTapArgs`).  core/script.py:113-293.  C17
  is false (`…_statement_false`: script and rangeproofs have no length prefix);
  the partial theorem assumes equal lengths only where the input has an issuance.
  C18 is an iff for "a hash is produced".
* **C19** (`Props/SighashBase`).  Non-negative indices; the algorithm is
  python-bitcointx's.
* **C20, C21** (`Props/Script`).  core/script.py:380-470 against the push relation of
  `Spec/Push`.
* **C22–C27** (`Props/Blech`).  `liquid_addr.py` complete.  Checksum affine over
  xor; `convertbits` as regrouping of one bit string (`Spec/Bits`); C24 by
  evaluating the register at six consecutive powers of an element of order 1023
  of GF(1024) and a Vandermonde determinant.  `C22_text` and `C23_text` (`Props/BlechText`) say
  what the text is in terms of `Spec/BlechText`: BIP 173 letters and a remainder over GF(32); the
  register of the code is shown to hold the coefficients of that remainder.
* **C28–C31** (`Props/Wallet`).  The class hierarchy of wallet.py as a finite table,
  payloads arbitrary.  C28 is false when another chain's parameters are selected
  (`C28_statement_false`), proved for the chain of the class; `Props/AddrExact` says for any selected
  chain what is accepted and that it turns back exactly for the selected chain.  C31 is false for
  unconfidential classes (32 bytes short), proved for confidential ones.
* **C32, C33, C35, C38–C40** (`Props/Blind*`).  `blind()` core/__init__.py:1159-1730
  in its phases: argument checks, input loop, counting, issuance and output
  loops, result.  Each run is decomposed into a list of step records by
  induction on the loops (`BlindRun`, `BlindLoop`); facts about the final
  transaction follow from the list (`BlindFacts`).  C39 is false after the
  mutation phase began; C40 is false for reissuances with inflation keys (a
  stale token id is used), and `Props/TargetsCoded` says which targets are used
  for every transaction, those included.
* **C34** partial (`Props/Balance`).  Commitment sums in an arbitrary module over
  the scalars.  False with a key for an input that issues nothing; proved when
  keys belong to issuances and every requested output was committed; the exact
  imbalance of the zero-factor case is `C34_zero`.  `C34_exact` (`Props/BalanceExact`, spec
  `Spec/BalanceExact`): for every success, whatever the keys, the result balances if and only if the
  factors returned for the outputs add up to those of inputs and hidden issuances; from C35 and C61.
* **C36** (`Props/BlindUnblind`) from the output records and `Rewinds`.
* **C37** (`Props/Unblind`) success is characterised by an iff for any library.
* **C41, C42** (`Props/Issue`) collision extraction through two hash levels.
* **C43** partial (`Props/Library`).  Induction over histories with the answers of
  the loader as arbitrary inputs.  False if context creation raises after loading.
* **C44** partial, **C45** (`Props/Results`).  Layout by induction; wrong item sizes
  are not refused (`C44_statement_false`).
* **C46** partial, **C47** (`Props/Objects`, lemmas in `ObjectLemmas`).  Heap of
  object cells, `bytearray` store; induction over arbitrary programs of updates.
  `CElementsTxOutWitness` keeps the caller's `bytearray`.
* **C48** partial, **C49** partial, **C50** (`Props/SighashLayout`, reference layouts
  in `Spec/SighashLayout`).  The layouts are written from BIP143, BIP341, BIP342
  and the Elements source from memory (no network).  `C49_tap_layout` states
  exactly what is hashed for every call; the deviations from the network layout
  are `C49_annex_longer`, `C49_acp_shorter`, `C48_null_amount` and the lock time
  of C15.
* **C51** partial (`Props/SighashIndex`).  Python's negative list indices: the index
  −1 signs the last input.
* **C52** (`Props/Draws`, spec `Spec/Draws`).  From the run decomposition: the list of
  uses of the draws has no duplicates.
* **C53** partial (`Props/TokenId`, spec `Spec/TokenId`).  From C32, C33 and C40.  False when only
  one of the two issuance keys of an input is given; `C53_exact` says that these are all the cases.
* **C54** partial (`Props/BlindWire`, spec `Spec/BlindWire`).  Well-formedness is an invariant of
  every step of blinding, also of those that raise; then C05 and C36.  Promise `WireSizes`: sizes
  of proofs, prefix of pubkeys.  False for transactions without input witness list.  `C54_hidden`
  (`Props/BlindWireAll`) says for every strict success that hides an output whether the result
  survives: the input witnesses were complete, or the last input has a blinded issuance.
* **C55** partial (`WalletKeys`, `Props/WalletKeys`).  By cases on the kind; `to_redeemScript` of the
  unconfidential classes is that of python-bitcointx.  False but for P2PKH.  `C55_pays`
  (`Props/WalletOut`) runs the output scripts in the interpreter of `Spec/Interp`.
* **C56** partial (`Props/WalletKeys`).  By cases on the classes.  False for secret keys only.
* **C57** partial (`Results`, `Spec/Spend`, `Props/Spend`).  From C37 the rewound amount and factors;
  promise `RewindSound` (rewinding recomputes the commitment) makes them an opening of the
  commitment on chain; then C34.  False where nothing is to be hidden.  `Props/SpendExact`: balance
  against the chain is an equation between returned and unblinded factors (`C34_exact`).
* **C58, C59, C60** partial (`Repr`, `Spec/Repr`, `Props/Repr`).  Texts are token sequences; the text of a call
  determines the call (mutual induction over expressions and argument lists).  Evaluation is the
  constructors of the classes.  False for explicit assets and issuances (C58), issuances with
  absent parts (C59), absent fields and nonces (C60).
* **C61** (`Spec/BlindEnd`, `Props/BlindEnd`).  Induction over both loops with a predicate for the
  state at an exception (`OnRaise`); the run up to there is decomposed as for C38.  The only
  hypothesis is that the inputs have the sizes their constructors guarantee.
* **C62** partial (`Spec/Buffers`, `Props/Buffers`).  Noninterference: two libraries that agree on properly
  sized calls (`SameOnSized`, sizes from the C headers) give the same result, the same exception and
  the same transaction.  Relational Hoare rules (`Same`) over both loops with the invariant that all
  factors are 32 bytes and both lists equally long.  False for a random source that returns other
  than 32 bytes.  Limits on the number of targets inside the library are not covered.
* **C63** (`Spec/Surjection`, `Props/Surjection`).  Invariant of the recorded targets without any
  assumption on reissuances, then the run decomposition.  Promise `InitMatches`: the selected target
  has the asset of the output.
* **C64** (`Surjection`, `Spec/Handles`, `Props/Handles`).  The function with the list of calls it makes on the
  object; by cases; its results are those of the model used for blinding (`C64_refines`).
* **C65** (`CrossSwap`, `Spec/Interp`, `Props/CrossSwap`).  Symbolic execution of the two parsed contracts, one
  rewriting rule per opcode; the interpreter is part of the specification.
* **C66** partial (`CrossSwap`, `Spec/Ecdsa`, `Props/KeyReveal`).  Algebra in the scalars: a signature with the known
  nonce determines the key up to the sign of `s`.  Promises: a cyclic group of the right order, the
  node's check is ECDSA on strict DER, the known nonce belongs to `r` and no other point but its negative
  has that x-coordinate.  The script does not fix *where* in the signature `r` stands, so the claim is false
  (`C66_hidden`: `r` in the place of `s`, `C66_buried`: pushes below the expected ones, `C66_zero`: a
  key for which a candidate is zero).  Toy group: the scalars themselves.
* **C67** partial (`SwapTime`, `Props/SwapTime`).  A transition system in rounds of one block per chain, Bob's moves
  arbitrary; invariant by phase of Alice.  False for every choice of timeouts: `C67_late` (no upper
  bound on the age of the Bitcoin deposit), `C67_last` (confirmations are checked before the block is searched).
  Assumed: key recovery succeeds (C66), transactions get into the next block, no reorganisations.
* **C68** proved (`Tx`, `Confidential`, `Spec/Predicates`, `Props/Predicates`).  The null and fee questions against the
  bytes written.  Outputs: for everything the constructors build (null) and every well-formed output (fee, through
  uniqueness of reading).  Witnesses: induction over the lists, a compact size is all zero exactly for 0.
* **C69** proved (`Blech32`, `Props/BlechPrefix`).  One step of the checksum register is injective (it is linear and
  its kernel is trivial: the low five bits of the 32 generator combinations), so equal ends mean equal registers after
  the prefix; a prefix of at most five characters fits in the twelve symbols of the register unreduced.
* **C70** proved (`Blind`, `Spec/Joint`, `Props/Joint`).  Induction over turns: `C34_preserved` (what blinding adds to
  outputs is what the known inputs hide) for each, the foreign inputs contribute nothing on either side, the own part
  balances by assumption.  `C70_blocked`: from the loop over inputs.  Toy run: two parties, with auxiliary generators.
* **C71** partial (`AssetSwap`, `Spec/AssetSwap`, `Props/AssetSwap`, `Props/AssetSwapBack`, `Props/AssetSwapToy`).  What the
  other side sends is arbitrary.  Signing changes only the unlocking scripts and witnesses of own inputs (`SameBut`), which no
  digest depends on (`C14_free`, `C19_free`), so that every signature is over the transaction as sent (induction over the
  inputs).  Amounts found by key holders are C36; balance is C70 with two turns.  Claiming back: induction over the dictionary
  of amounts; blinding reports one per entry, so the final assertion holds only if no asset occurs twice, contrary to the
  comment in line 944.  Taken as given: the transaction that arrives is the one sent (C01), and a round trip through
  `to_immutable().to_mutable()` gives an empty witness per input.  Prompts, messages, RPC calls, timeouts and the handling
  of a failed broadcast are not modelled.  `C71_alice_paid_statement_false`, `C71_bob_paid_statement_false`: either side may be
  given outputs that can be looked into but not spent, since scripts of outputs are never compared with own addresses.
* **C72** partial (`SpendAddr`, `Spec/SpendAddr`, `Props/SpendAddr`).  The loop over outputs by induction (first output
  to the key, last fee, one fee asset); then what blinding leaves alone (C32), what it hides (C33, C36, C57), and that
  the signature hash does not cover unlocking scripts and witnesses (C14).  The case of the zero output left as it is
  balances because its amount is zero (`C34_zero`).  `C72_statement_false`: fee in another asset than the one spent.
  `C72_exact` (`Props/SpendAddrExact`): balance if and only if the fee is worth the same in both.
  Left out: command line, files, address text (C55 and C56 treat it), `VerifyScript` (a function that may raise).
* **C73** proved (`Blind`, `Spec/BlindGoes`, `Props/BlindGoes`).  Completeness of `blind()`: the checks pass for a sensible
  request, then induction over issuances and outputs with the state described exactly; each library call succeeds by one of
  the promises in `Works`, which the toy library keeps.
* **C74** partial (`UnblindEx`, `Spec/UnblindEx`, `Props/UnblindEx`).  Induction over outputs; what opens and what it opens to
  is C37, the recipient's view is C36.  `C74_statement_false`: a data output has no address and ends the listing.  Left out:
  command line, files, the text of addresses and numbers.
* **C75** partial (`Blind`, `Spec/Messages`, `Props/Messages`).  Failures as values with their exact texts.  Each step of the
  checking phase looks for certain problems (`Tells`); steps compose if problems looked for later do not come before earlier
  ones.  The strict switch: a simulation between strict and lenient runs through all of `blind()`, which may differ in the
  final report only (`C75_strict`).  Unblinding by following its branches (`C75_unblind`, an equivalence).
  `C75_statement_false`: two texts keep a literal `%d` instead of the number of the input.
* **C76** proved (`SwapSpend`, `Spec/SwapSpend`, `Props/SwapSpend`, `Props/SwapSpendToy`, `Props/SwapSpendGoes`).  The search by
  induction over outputs; what the spend looks like from C32 and C33, balance from C57 and C34, the recipient from C36, the
  unlocking scripts from C65, the key from C66.  That it goes through: C73 for the blinding, C19 for the digest, C54 for writing.
  Left out: nodes and messages, the texts of ids and keys, `CPubKey.add` and the signature functions (parameters of the model).
* **C77** proved (`SwapBtc`, `Spec/SwapBtc`, `Props/SwapBtc`, `Props/SwapBtcToy`).  Searches by induction on the outputs and inputs, with
  exact conditions.  `C77_claim` takes any transaction by Bob: that Alice's loop stops means that the public key of the number found is the
  key to be revealed, so by injectivity of encodings the difference with the blinding key is Bob's contract key, whoever made the
  script.  `C77_honest` composes `C76_reveals` and `C66_claim`.  `SpendsP2WSH` is BIP 141: one true value must be left.  The signature hash,
  serialization and addresses of Bitcoin belong to python-bitcointx and are abstract.
* **C78** partial (`SwapWatch`, `Spec/SwapWatch`, `Props/SwapWatch`).  The loop runs on an arbitrary list of answers, each from a node that has some
  prefix of a fixed chain; invariant: the block looked at is at or after the deposit and no block before it spends an output of the
  deposit.  `C78_first`: what is returned is the first spender of *any* output.  `C78_finds_partial`: it is returned after
  at most `c - d + 2` passes with it in sight.  The full claim is false (`C78_statement_false`): the code compares only the transaction id, so
  a transaction that spends the change is returned, Alice then dies for lack of the contract in it and can no longer get either side
  once Bob has claimed.
* **C79** partial (`SwapRun`, `Spec/SwapRun`, `Props/SwapRun`, `Props/SwapWhy`, `Props/SwapRunToy`).  `alice`, `bob` and the two last wishes are
  programs that ask the world (messages, nodes) and go on with the answer; the world is an arbitrary function of everything that has
  happened.  `participant` runs them with `die`, the last wish and the handler of exceptions.  A weakest-precondition style predicate `Obeys` is
  proved of each part of the programs and shown sound for runs (`exec_obeys`, `participant_obeys`); what may be sent when, and why one gives up,
  are separate specifications on histories (`AliceMay`, `BobMay`, `AliceGivesUp`, `BobGivesUp`).  Loops without an end run for any given number of passes
  and are then `waiting`.  That whoever has paid and stops has sent the reclaim is false (`C79_statement_false`): `try_reclaim_elt` and
  `try_reclaim_btc` read `tx_json['confirmations']`, which is absent while the deposit is not in a block (which is exactly when
  `wait_confirm` has given up), `KeyError` ends the last wish and it is not tried again.
* **C80** partial (`AssetRun`, `Spec/AssetRun`, `Props/AssetRun`, `Props/AssetRunToy`).  `alice` and `bob` of the asset swap from beginning to end, built
  like C79 as programs that ask an arbitrary world, with `issue_asset`, `find_utxo_for_fee`, `get_dst_addr`, `wait_confirm`, the balances,
  `claim_funds_back` and `participant`.  What may be done when (`AliceMay`, `BobMay`), how it ends (`AliceEnds`, `BobEnds`) and why with an exception
  (`AliceGivesUp`, `BobGivesUp`) are specifications on histories; the transactions in them are those of C71.  That Alice takes everything back when
  Bob has the signatures but the swap is not accepted is false (`C80_statement_false`): when the last message is `bye!`, `recv` calls
  `sys.exit(-1)`, which `except Exception` does not catch, so that Alice leaves with Bob in possession of a transaction Bob can publish at any time.
* **C81** partial (`Opcodes`, `Spec/Opcodes`, `Props/Opcodes`).  The table of names of core/script.py and `CScript([...])`, against the order of the
  opcodes in the reference client and a relation `ReadAs` between scripts and steps, with any of the push encodings.  By induction on the script.
  The claim is false (`C81_statement_false`): `OP_DETERMINISTICRANDOM` has the value 0xc1 of `OP_CHECKSIGFROMSTACK` instead of 0xc0, so that a node runs
  another opcode than the one written.  Proved for scripts without this name.
* **C82** (`ChainParams`, `Spec/ChainParams`, `Props/ChainParams`).  `get_datadir_extra_name` and `get_network_id` of both classes for any `NAME`, with
  `split('/')` on lists of characters.
* **C83** (`Spec/SwapJoint`, `Props/SwapJoint`, `Props/SwapJointToy`).  A pair of runs of the programs of C79, each in a world of its own, with the only
  condition that each receives only what the other has sent (`Linked`; order, loss and the nodes are arbitrary).  From C79 for both sides and the
  messages follows that both mean the same contracts and payments; `Swapped` says what is true when both are done.
* **C84** (`Spec/AssetJoint`, `Props/AssetJoint`, `Props/AssetJointToy`).  A pair of runs of the programs of C80, connected as in C83.  C71 now also says
  that the transactions are well formed (`wire`, by which C05 gives back what was serialized), and C80 that addresses and the final transaction are
  sent once; with both, the transaction Bob signs is the one Alice signed and `Fair` says what is in it, without the helpers of the model.
  `C84_alice_done` and `C84_bob_done` say what is true when Alice, or Bob, is done.
* **C85** (`AssetPair`, `Props/AssetPair`, `Props/AssetPairToy`).  Both processes of the asset swap as a transition system: a state has two processes and
  two queues; a step answers what one of them asks, from the queue if it receives, by the node otherwise.  What has happened to a process up to any
  reachable state is the beginning of a run of C80 (`replay`), and what both have seen is connected as in C84, so that C84 holds at every moment.
  Steps are well founded, and only two processes that are over cannot step.
* **C86** (`SwapPair`, `Props/SwapPair`, `Props/SwapPairToy`).  The same for the cross-chain swap, with C79 and C83 and the last wishes.
* **C87** (`Spec/SwapBoth`, `Props/SwapBoth`, `Props/SwapBothToy`).  What a participant of C79 asks after the last wish has begun; when the claim is
  seen confirmed the participant is done and has no last wish.  `C87_statement_false` has runs of both in which the claim is accepted, not seen
  confirmed, and the deposit is taken back too.
* **C88** (`AddrText`, `Bech32`, `Spec/AddrText`, `Props/AddrText`, `Props/AddrTextToy`, `Props/Bech32`).  Base58 as a loop over digits, with the checksum, and the reading of text by a
  list of classes.  The specification says what base58 text stands for (a number and the zeros before it); `C88_encode` and `C88_decode` are exact.
  Segwit text, blech32 text and base58 text of addresses differ in length, so that no text is of two sorts.  `SegwitCodec.Standard` is what is
  asked of bech32; `C88_standard` proves it of the reference code of BIP 173 and BIP 350, which python-bitcointx contains, and `C88_all` has no assumption on it.  That an error of a class other than an encoding error is raised and ends the search is modelled; this is where the condition for bech32 text
  comes from.
* **C89** (`BlechClass`, `Spec/BlechClass`, `Props/BlechClass`).  `CBlech32Data` for any finite tree of classes: a class has a prefix, a version, a length,
  classes it is mapped to, each or none.  The specification lists the classes a class offers, in order.  `C89_wallet` says that with the trees of the wallet
  this is what C30 and C88 speak of.  `C89_statement_false`: the message of the refusal reads `cls._data_length`, which a class with one candidate need not have.
* **C90** (`BlindShared.lean`, `Spec/BlindShared.lean`, `Props/BlindShared.lean`).  `blind()` again, with the lists of the transaction taken for lists of references: which
  object each position holds is a parameter, an assignment goes to every position holding the object, and witnesses appended by the call are new objects.  The loops are those of
  `Blind.lean` with the assignments as parameters; `C90_distinct` proves that without sharing the two models agree, so that C31 to C41 and the rest speak of this one too.
  `C90_reached_partial` is the frame of C32 for objects instead of positions.  `C90_statement_false`: an output listed again without pubkey becomes a commitment without range proof.
* **C91** (`Ffi.lean`, `Spec/Ffi.lean`, `Props/Ffi.lean`, `Props/FfiBlind.lean`).  The declarations of core/secp256k1.py, the conversions of ctypes (`from_param` of the types declared) and the
  arguments of every call in core/__init__.py, as lists of Python objects.  The specification is the C side: prototypes from the headers, and for each function what it reads from the memory it
  is given, which is nothing if a buffer is too short, not writable or something else is pointed to.  `C91_exact` covers all call sites; `C91_blind` and `C91_unblind` put ctypes between the
  model of blinding and the library (`through`) and use the theorems behind C62, which are stated for the range proofs in question for this purpose.  `C91_statement_false`: a `bytearray` proof.
* **C92** (`Spec/Node.lean`, `Props/Node.lean`, `Props/NodeToy.lean`).  The specification is the amount check of the network, `VerifyAmounts` of the Elements node, written from knowledge of that
  program (it is not in /repo): sorts of fields, generators and commitments of inputs, issuances and outputs, range proofs, surjection proofs against all generators, tally.  It shares with the
  model of blinding only the library functions; `Verifier` has those for verification, and `Verifier.Keeps` says that they accept what the others made and that the tally compares sums in the
  group.  `Ready` lists what the caller has to see to.  `C92_exact` (every output asked to be hidden is hidden, or acceptable as it was) combines C32 (what was not asked for is as before), C33 (shape of what is hidden), C35, C40 (targets, now also: the generator
  written was made from an asset) and C53 (which token the node credits).  `C92_statement_false`: the stray key of C34, refused by the node of the toy library.
  `C92_goes` (`Props/NodeGoes.lean`) starts before blinding: with arguments sensible in the sense of C73, a library that works, and amounts that balance, blinding succeeds, hides all it was asked to,
  and the node accepts.
* **C93** (`Spec/NodeJoint.lean`, `Props/NodeJoint.lean`, `Props/NodeSwap.lean`).  Several parties add inputs and outputs and blind in turn, as in the asset swap example.  `NetJoint` is `Joint` of C70
  with what each turn has to offer for the network: asset commitments of what others spend given as auxiliary generators, no issuances, own outputs plain beforehand, those of others left alone.
  `C93_joint` is by induction on turns: proofs made in an earlier turn were made against targets (`turn_targets`) which are those the node computes at the end, and later turns and signatures leave
  them alone.  `C93_swap`, `C93_claim`: what Alice sends, what Bob completes, and what is claimed back in examples/asset-atomic-swap.py is accepted; both are shown on the swap of C71.
* **C94** (`Spec/NodeSpend.lean`, `Props/NodeSpend.lean`).  `C94_spent` connects unblinding (C37, C57) with what the node of C92 computes for a spent output; `RewindExact` is what it asks of the
  library beyond the other promises.  `C94_again` does so for outputs the library hid.  `C94_spend`, `C94_claim`, `C94_reclaim` apply `C92_exact` to the examples of C72 and C76: every output asked to be
  hidden is hidden or fine as it was (the zero output nobody can spend), and signing does not change what the node looks at (`verify_same`).  The toys also show refusals: a fee in another asset, and the
  reclaim of a deposit of another amount, which the example does not check.
* **C95** (`Spec/AssetHonest.lean`, `Props/AssetHonest.lean`, `Props/AssetHonestToy.lean`).  The other direction of C71: not what holds if the swap functions return, but that they return.  `Owned` says what
  an output offered by a participant is, `AllWorks` what is asked of the library and of VerifyScript (`VerifyWorks`: it accepts what is unlocked as nodes expect, for the three supported kinds of address).
  `signs` shows that signing goes through (C15, C19), `bob_sensible` and `alice_sensible` that both requests to blind make sense (C73), `C95_made` composes them with the checks of C71.  The toy file has two
  participants who meet all of it, with one address of each kind.

* **C96** (`Spec/AssetHonestRun.lean`, `Props/HonestRun.lean`, `Props/AssetHonestRun.lean`, `Props/AssetHonestRunToy.lean`).  Liveness of the asset swap.  `HonestStep` is the step relation of C85 without loss and silence, with
  nodes that answer as `aliceNode`, `bobNode` and `bobRealNode` say (what the participants have seen so far is known to them).  `Follows` says of a program which messages it sends and waits for whatever the node answers, `Sched` that two such
  lists fit together; `Sched` is kept by every step and rules out deadlock (no bound on the number of steps or on the number of questions until a transaction is confirmed, up to the sixty of `wait_confirm`).  `alice_follows` and `bob_follows` go
  through the programs of C80 with the transactions of C95.  With a node that refuses what is in the chain already, Bob may stop with an exception although the swap took place (`C96_race`); `C96_real` says that nothing worse happens.

* **C97** (`Spec/AssetBack.lean`, `Props/AssetBack.lean`, `Props/AssetBackToy.lean`).  Taking back always goes.  `C97_made` is about `claimBack` for any list of outputs (`Backable`: owned by the wallet, different assets, one that can pay the fee):
  the request to `blind()` is `Sensible`, so that C73 applies, and signing goes as in C95; `GivesBack` says what the transaction does.  `C97_accepted` is C93 for it.  `C97_back` discharges the hypothesis `CanTakeBack` of C80 from what is assumed of
  Alice's own node (`OwnNode`) only; messages of Bob and answers to transactions are arbitrary.  For this, `TakesBack` of C80 says that the transaction is what `claimBack` makes.

* **C98** (`Spec/SwapHonest.lean`, `Props/SwapFollow.lean`, `Props/SwapHonestRun.lean`, `Props/SwapHonestRunToy.lean`).  Liveness of the cross-chain swap, in the manner of C96.  `Scene` has the participants, the transactions by their ids and the chain
  in which Bob's claim appears; `Scene.node` says what the nodes answer, `Scene.Honest` what is assumed of keys, library and chain.  `Follows` has two more items than that of C96: `post` (Bob's claim is sent) and `see` (Alice finds it in the chain, which
  happens only after `post`).  `facts` collects what C65, C66, C76, C77, C78 and C94 say about the transactions of the two; `alice_follows` and `bob_follows` go through the programs of C79.  What the swap is, when both are done, is `Swapped` of C86.

* **Sizes of contracts** (C76, C77, C79, C94, C98).  The addresses of the contracts are made by `from_redeemScript` of python-bitcointx, which raises `ValueError` for a script of more than 520 bytes (P2SH, lines 165, 345, 369)
  or 10000 bytes (P2WSH, lines 194 and Bob's side).  The dependency is not in /repo; this check of it is modelled by `redeemable`.

* **C99** partial (`Spec/SwapLimits.lean`, `Props/SwapLimits.lean`, `Props/SwapLimitsToy.lean`).  `Within` has the limits that nodes check of every script, which `Spec/Interp.lean` leaves out; `Relayed` has what they ask of a witness script before they pass the transaction on (`conditions` collects what OP_IF takes from the stack).  `C99_alice` and `C99_bob` compose the runs of C79
  (for this, `C79_back_partial` says which transaction was sent) with C76, C77 and C94: promises are needed of the participant's own wallet and node only (`OwnElt`, `OwnBtc`).  Finding: `bob_btc_exit_pub_raw` (line 152) is used in the contract without
  being checked to be a public key.  `C99_coins` says for which contracts this matters; `C99_statement_false` runs Alice against a Bob who sends 600 bytes: Alice pays, and the bitcoins are stuck.
* **C100** (`Spec/Hides.lean`, `Props/Hides.lean`, `Props/HidesToy.lean`).  Two requests that differ only in what is to be hidden (`LooksLike`) are blinded to the same inputs and outputs by draws that hide in the same points (`SameDraws`).
  The last value factor is not drawn; that its commitment is the same follows from C34 for both.  `full_run` (in `Props/Balance.lean`) and `drawn` say which draw is used for what.  `C100_draws` gives the bijection of draws, assuming that the base point generates the group.

* **C101** (`Spec/SignAfter.lean`, `Props/SignAfter.lean`).  Kept: from `C32_only_asked` what was not to be hidden is the same, and the hashed strings read nothing else.  Broken: C14, C19, C16 and C17 say what equal hashes imply; on success `C35_issuances` shows that an issuance stays one (`noIssue_after`),
  which makes the inputs as hashed by the legacy scheme uniquely readable (`sigIns_unique`).
* **C102** (`Spec/BlindAgain.lean`, `Props/BlindAgain.lean`).  Invariant `Marks`, carried through the monad by `Rel` and `Steps`: wherever a call stops, an output that differs from before has an asset commitment, and an issued amount that differs is a commitment.  Such outputs are refused by C38; such issuances make the targets fail (`inputTargets_plain`).
  Induction over `Later`.
* **C103** (`Spec/BlindCount.lean`, `Props/BlindCount.lean`).  `finishedOutputs` and `changedIssued` count from the two transactions only.  From the run lists (`Ends`): both are permutations of what the lists say was made, because the keys and the positions have no duplicates and everything else keeps its place.
* **C104** (`Spec/MinimalPush.lean`, `Props/MinimalPush.lean`, `Props/MinimalPushToy.lean`).  `MinimalPushes`: the script is what its operations are when each is written in the shortest way.  By induction over the elements of a script; where an element is longer than needed the lengths differ.
* **C105** (`Spec/OnlyKey.lean`, `Props/OnlyKey.lean`).  Promises `Keyed`: a rangeproof is rewound only with the nonce and extra data it was signed with, and keys with different pubkeys share different secrets with a third key.  From the record `Blinded` of the output: the nonce signed with is the hash of the secret of the ephemeral key and the pubkey, the extra data is the script.  A clash of the hashes of the two secrets is shown, not assumed away.  Issuances: from `C61_issuance_proof`, whatever `blind()` ended with.  `Toy.keyed` is a library that keeps all promises at once.
* **C106** (`Spec/NodeAddress.lean`, `Props/NodeAddress.lean`).  `NodeReads` is `DecodeDestination` of Elements with the prefixes of chainparams.cpp (written down from knowledge of Elements, which is not part of /repo); the codecs for bech32 and blech32 are shared with the model.  By cases over the classes, with C88 for base58.  Added after a seeded wrong prefix (hd17) was noticed by no theorem.
* **C107** (`Props/Receive.lean`).  Composition of C28 (the address carries key and script), C88 (whoever reads the text gets the address), C32 (the script of the output stays), C36 (its key opens the output), C42 (keys tell secret and script) and C105.  `Given` and `Pays` are the specification.
* **C108** (`Spec/BechText.lean`, `Props/BechText.lean`).  The same as `C22_text` and `C23_text` for addresses without blinding key: BIP 173 letters, and long division by the published polynomial over GF(32).  `Divides` lists what a register needs to hold the remainder; an induction over the symbols shows that it does.
* **C109** (`Props/BechErrors.lean`).  As C24: the register is evaluated at three roots of the generator in an extension of degree two, whose exponents are in arithmetic progression with a step prime to 1023, and a Vandermonde determinant shows that no word of weight three or less is divisible.
* **C110** (`Spec/Bursts.lean`, `Props/Bursts.lean`).  For both codecs by one proof over `Divides`: from zero the register just stores as many symbols as it holds, and since the constant coefficient of the divisor is not zero, zeros that follow never bring a register back to zero.
* **C111** (`Props/OneTypo.lean`).  If a word with at most three symbols had the difference of the two checksum constants as remainder, its values at α, …, α⁶ would be sums of three geometric sequences and so satisfy a linear recursion, which the actual values determine; one of the ratios is then α¹⁰¹⁴, a place before the beginning of any text of a thousand characters.  Without blinding key three values are available, which is enough for one symbol.
## Simplifications

* Messages of exceptions are abbreviated or dropped; those of failed blinding and unblinding are exact.
* Argument type checks (`ensure_isinstance`) are the Lean types, except where a
  property is about them (C42, C45).
* `blind()` is modelled on transactions whose `vin`, `vout` and witness lists
  hold pairwise different objects, except in C90, which is about shared ones.
* ctypes buffers are byte strings of the sizes allocated.
* In printed forms (C58 to C60) a number, a `bytes_repr` and a quoted hex string are single tokens;
  the text of a script is a parameter.
* `CoreCoinParams.CT_EXPONENT` and `CT_BITS` are their default values; the zkp functions of the
  library are assumed to be present, as `blind()` itself does not check.

## Not modelled

`__repr__` of results, scripts and addresses, logging, the parts of the example scripts other than those of C65 to C67, C71, C72, C74 and C76 to C80, C83 to C87 and C94 to C99, timing and side channels,
memory layout of ctypes buffers except sizes and who may write (lifetimes of buffers, alignment), elliptic-curve
arithmetic.

## Axioms per theorem

As printed by `#print axioms`.  P = `propext`, C = `Classical.choice`, Q = `Quot.sound`.

| property | status | theorem: axioms |
|---|---|---|
| C01 | proved | `C01_confidential_roundtrip`: PQ |
| C02 | proved | `C02_confidential_canonical`: PQ, `C02_confidential_markers`: PQ |
| C03 | proved | `C03_exclusive`: PQ, `C03_constructor`: PQ, `C03_invalid_constructible`: none |
| C04 | proved | `C04_value_from_amount`: CPQ, `C04_value_to_amount`: PQ, `C04_amount_recovered`: CPQ, `C04_asset_recovered`: PQ |
| C05 | proved | `C05_roundtrip`: CPQ, `C05_roundtrip_no_witness`: CPQ, `C05_short_witness_breaks`: P |
| C06 | proved | `C06_grammar`: CPQ |
| C07 | proved | `C07_prefix_free`: CPQ, `C07_serialized`: CPQ |
| C08 | proved | `C08_normal_form`: CPQ, `C08_shortest`: CPQ |
| C09 | partial | `C09_index_written`: CPQ, `C09_index_roundtrip_partial`: CPQ, `C09_full_false`: P, `C09_exact`: CPQ |
| C10 | proved | `C10_ignores_witness`: PQ, `C10_txid_commits`: CPQ, `C10_hidden_data`: P |
| C100 | proved | `C100_same`: CPQ, `C100_draws`: CPQ, `C100_goes`: CPQ |
| C101 | proved | `C101_keeps_v0`: CPQ, `C101_breaks_v0`: CPQ, `C101_keeps_base`: CPQ, `C101_breaks_base`: CPQ, `C101_keeps_tap`: CPQ, `C101_breaks_tap`: CPQ, `C101_breaks_tap_acp`: CPQ, `C101_strict`: CPQ |
| C102 | proved | `C102_output`: CPQ, `C102_asked`: CPQ, `C102_issuance`: CPQ |
| C103 | proved | `C103_count`: CPQ |
| C104 | proved | `CrossSwap.C104_asset`: CPQ, `CrossSwap.C104_coins`: CPQ, `CrossSwap.C104_unlocking`: CPQ, `SwapSpend.C104_claim`: CPQ, `SwapSpend.C104_reclaim`: CPQ |
| C105 | proved | `C105_only`: CPQ, `C105_exactly`: CPQ, `C105_issuance`: CPQ |
| C106 | proved | `AddrText.C106_same`: CPQ, `AddrText.C106_all`: CPQ, `AddrText.C106_printed`: CPQ, `AddrText.C106_one`: CPQ |
| C107 | proved | `Receive.C107_received`: CPQ, `Receive.C107_only`: CPQ |
| C108 | proved | `Bech.C108_printed`: CPQ, `Bech.C108_read`: CPQ |
| C109 | proved | `Bech.C109_distance`: CPQ, `Bech.C109_detects`: CPQ |
| C11 | proved | `C11_extended_iff`: CPQ, `C11_superfluous_rejected`: CPQ, `C11_wrong_length_refused`: CPQ |
| C110 | proved | `Bursts.C110_blech`: CPQ, `Bursts.C110_bech`: CPQ, `Bursts.C110_blech_detects`: CPQ, `Bursts.C110_bech_detects`: CPQ |
| C111 | proved | `OneTypo.C111_blech`: CPQ, `OneTypo.C111_bech`: CPQ, `OneTypo.C111_blech_refused`: CPQ, `OneTypo.C111_bech_refused`: CPQ |
| C12 | proved | `C12_num_issuances`: PQ |
| C13 | proved | `C13_v0_all_commits`: CPQ, `C13_v0_all_commits_index`: CPQ, `C13_issuance_ambiguity`: P |
| C14 | proved | `C14_covered`: CPQ, `C14_free`: CPQ, `C14_free_script_witness_pegin`: CPQ, `C14_free_none`: CPQ, `C14_free_single`: CPQ, `C14_free_anyonecanpay`: CPQ, `C14_free_sequences`: CPQ |
| C15 | partial | `C15_total_partial`: CPQ, `C15_locktime_raises`: CPQ, `C15_statement_false`: CPQ |
| C16 | proved | `C16_tap_commits`: CPQ |
| C17 | partial | `C17_tap_acp_commits_partial`: CPQ, `C17_proofs_ambiguous`: P, `C17_proofs_statement_false`: PQ, `C17_script_ambiguous`: P, `C17_script_statement_false`: PQ |
| C18 | proved | `C18_only_valid`: CPQ, `C18_iff`: CPQ, `C18_single_needs_output`: CPQ |
| C19 | proved | `C19_error_iff`: CPQ, `C19_hash`: CPQ, `C19_sighash_raises`: CPQ, `C19_sighash_ok`: CPQ, `C19_total`: CPQ, `C19_free`: CPQ |
| C20 | proved | `C20_pegout_iff`: PQ, `C20_pegout_total`: PQ, `C20_pegout_unique`: PQ |
| C21 | proved | `C21_unspendable`: CPQ, `C21_min_value`: P |
| C22 | proved | `C22_roundtrip`: CPQ, `C22_encode_iff`: CPQ, `C22_encode_total`: CPQ, `C22_text`: CPQ |
| C23 | proved | `C23_canonical`: CPQ, `C23_unique`: CPQ, `C23_text`: CPQ |
| C24 | proved | `C24_distance`: CPQ, `C24_raw`: CPQ, `C24_detects`: CPQ, `code_distance`: CPQ |
| C25 | proved | `C25_hrp_unique`: CPQ, `C25_chains`: CPQ |
| C26 | proved | `C26_strict`: CPQ, `C26_refused`: CPQ |
| C27 | proved | `C27_nopad_iff`: CPQ, `C27_pad_iff`: CPQ, `C27_refused`: CPQ, `C27_roundtrip`: CPQ |
| C28 | partial | `C28_sound`: PQ, `C28_iff_partial`: PQ, `C28_refused`: P, `C28_made_iff`: PQ, `C28_exact`: PQ, `C28_statement_false`: PQ |
| C29 | proved | `C29_prefix_free`: PQ, `C29_base58_unambiguous`: PQ, `C29_base58_complete`: PQ, `C29_blech32_chains`: CPQ, `C29_hrps_distinct`: CPQ, `C29_blech32_has_l`: CPQ |
| C30 | proved | `C30_roundtrip`: CPQ, `C30_canonical`: CPQ, `C30_unique`: CPQ |
| C31 | partial | `C31_confidential`: PQ, `C31_plain_partial`: PQ, `C31_plain_statement_false`: PQ |
| C32 | proved | `C32_only_asked`: CPQ, `C32_counts`: CPQ |
| C33 | proved | `C33_strict`: CPQ, `C33_formats`: P, `C33_alone`: CPQ |
| C34 | partial | `C34_balanced_partial`: CPQ, `C34_preserved`: CPQ, `C34_zero`: CPQ, `C34_statement_false`: CPQ, `C34_exact`: CPQ, `C34_exact_outputs`: CPQ |
| C35 | proved | `C35_factors`: CPQ, `C35_issuances`: CPQ |
| C36 | proved | `C36_unblinds`: CPQ, `C36_strict`: CPQ, `C36_descriptor`: CPQ |
| C37 | proved | `C37_success_iff`: CPQ, `C37_asset_commitment`: CPQ, `C37_asset_explicit`: CPQ, `C37_no_asset`: CPQ, `C37_raises`: PQ |
| C38 | proved | `C38_refused`: CPQ, `C38_reported`: CPQ |
| C39 | partial | `C39_partial`: CPQ, `C39_statement_false`: PQ |
| C40 | partial | `C40_targets`: CPQ, `C40_targets_partial`: CPQ, `C40_statement_false`: PQ, `C40_reissued_token_unbound`: PQ, `C40_verified_partial`: CPQ |
| C41 | proved | `C41_ids_separated`: CPQ, `C41_ids_exist`: PQ, `C41_formula`: P, `C41_entropy_size`: P |
| C42 | proved | `C42_foreign_refused`: PQ, `C42_deterministic`: PQ, `C42_script_specific`: PQ, `C42_key_iff`: PQ |
| C43 | partial | `C43_path`: PQ, `C43_once`: PQ, `C43_unique`: PQ, `C43_source`: CPQ, `C43_setPath`: PQ, `C43_getPath`: PQ, `C43_single_partial`: PQ, `C43_statement_false`: P |
| C44 | partial | `C44_layout`: P, `C44_accepts`: PQ, `C44_refuses`: CPQ, `C44_in_blinding`: PQ, `C44_statement_false`: P |
| C45 | proved | `C45_ok`: CPQ, `C45_class`: CPQ, `C45_failure_new`: CPQ, `C45_success_new`: P, `C45_bool`: none, `C45_blind`: CPQ, `C45_unblind`: CPQ |
| C46 | partial | `C46_conf`: none, `C46_inwit`: none, `C46_outwit_partial`: none, `C46_statement_false`: none, `C46_exact`: CPQ |
| C47 | proved | `C47_content`: PQ, `C47_serialize`: PQ, `C47_exact`: none, `C47_null`: PQ, `C47_succeeds`: PQ, `C47_updates`: PQ, `C47_inplace_partial`: PQ, `C47_inplace_statement_false`: PQ |
| C48 | partial | `C48_v0_layout_partial`: CPQ, `C48_statement_false`: CPQ, `C48_null_amount`: CPQ, `C48_exact`: CPQ |
| C49 | partial | `C49_tap_layout`: CPQ, `C49_tap_layout_partial`: CPQ, `C49_annex_longer`: CPQ, `C49_acp_shorter`: CPQ, `C49_statement_false`: CPQ |
| C50 | proved | `C50_leaf`: CPQ, `C50_commits_script`: CPQ |
| C51 | partial | `C51_range_partial`: PQ, `C51_negative_alias`: CPQ, `C51_negative_single`: CPQ, `C51_statement_false`: CPQ |
| C52 | proved | `C52_drawn_once`: CPQ, `C52_distinct`: CPQ |
| C53 | partial | `C53_token_partial`: CPQ, `C53_statement_false`: CPQ, `C53_exact`: CPQ, `C53_credited`: CPQ, `C53_offered`: CPQ |
| C54 | partial | `C54_survives_partial`: CPQ, `C54_recipient_partial`: CPQ, `C54_statement_false`: PQ, `C54_exact`: CPQ, `C54_hidden`: CPQ, `C54_opens`: CPQ |
| C55 | partial | `C55_redeem_partial`: P, `C55_script_determines`: PQ, `C55_pays`: CPQ, `C55_statement_false`: P |
| C56 | partial | `C56_prefix_partial`: PQ, `C56_unambiguous_partial`: PQ, `C56_statement_false`: P |
| C57 | partial | `C57_opening`: CPQ, `C57_spend_partial`: CPQ, `C57_stands`: CPQ, `C57_exact`: CPQ, `C57_exact_outputs`: CPQ, `C57_statement_false`: CPQ |
| C58 | partial | `C58_reads_back_partial`: CPQ, `C58_statement_false`: PQ |
| C59 | partial | `C59_objects`: CPQ, `C59_issuances`: CPQ, `C59_inputs_partial`: CPQ, `C59_same_shape_partial`: P, `C59_outputs`: CPQ, `C59_statement_false`: CPQ |
| C60 | partial | `C60_str_partial`: CPQ, `C60_statement_false`: none |
| C61 | proved | `C61_got_to`: CPQ, `C61_output_proof`: CPQ, `C61_issuance_proof`: CPQ |
| C62 | partial | `C62_blind_partial`: CPQ, `C62_unblind`: PQ, `C62_blind_statement_false`: PQ |
| C63 | proved | `C63_made`: CPQ, `C63_true`: CPQ |
| C64 | proved | `C64_handle`: P, `C64_refines`: P, `C64_calls`: P |
| C65 | proved | `C65_elements`: CPQ, `C65_bitcoin`: CPQ, `C65_unlock`: CPQ, `C65_witness`: CPQ, `C65_early`: PQ |
| C66 | partial | `C66_recovers_partial`: CPQ, `C66_claim`: PQ, `C66_hidden`: CPQ, `C66_zero`: CPQ, `C66_buried`: CPQ, `C66_statement_false`: CPQ |
| C67 | partial | `C67_safe_partial`: CPQ, `C67_refund`: CPQ, `C67_bob`: CPQ, `C67_waits`: CPQ, `C67_late`: PQ, `C67_last`: CPQ, `C67_statement_false`: PQ |
| C68 | proved | `C68_field`: CPQ, `C68_null`: CPQ, `C68_null_read`: CPQ, `C68_fee_answers`: PQ, `C68_fee`: CPQ, `C68_exclusive`: PQ, `C68_in_witness`: CPQ, `C68_out_witness`: CPQ, `C68_witness`: CPQ, `C68_issuance`: PQ |
| C69 | proved | `C69_prefix`: CPQ, `C69_rewritten`: CPQ |
| C70 | proved | `C70_joint`: CPQ, `C70_blocked`: CPQ |
| C71 | partial | `AssetSwap.C71_alice`: CPQ, `AssetSwap.C71_pays`: CPQ, `AssetSwap.C71_bob_begins`: CPQ, `AssetSwap.C71_bob`: CPQ, `AssetSwap.C71_final`: PQ, `AssetSwap.C71_fee`: CPQ, `AssetSwap.C71_fee_stops`: CPQ, `AssetSwap.C71_balanced_partial`: CPQ, `AssetSwap.C71_balanced_statement_false`: CPQ, `AssetSwap.C71_claim`: CPQ, `AssetSwap.C71_claim_pays`: CPQ, `AssetSwap.C71_claim_balanced_partial`: CPQ, `AssetSwap.C71_claim_same`: CPQ, `AssetSwap.C71_claim_short`: PQ, `AssetSwap.C71_checked`: CPQ, `AssetSwap.C71_alice_accepts`: CPQ, `AssetSwap.C71_bob_accepts`: CPQ, `AssetSwap.C71_final_statement_false`: PQ, `AssetSwap.C71_alice_paid_statement_false`: CPQ, `AssetSwap.C71_bob_paid_statement_false`: CPQ |
| C72 | partial | `SpendAddr.C72_printed`: CPQ, `SpendAddr.C72_recipient`: CPQ, `SpendAddr.C72_refused`: CPQ, `SpendAddr.C72_balanced_partial`: CPQ, `SpendAddr.C72_exact`: CPQ, `SpendAddr.C72_statement_false`: CPQ |
| C73 | proved | `C73_goes`: CPQ |
| C74 | partial | `UnblindEx.C74_told_partial`: CPQ, `UnblindEx.C74_ends_partial`: CPQ, `UnblindEx.C74_recipient`: CPQ, `UnblindEx.C74_statement_false`: CPQ |
| C75 | partial | `C75_blind_partial`: CPQ, `C75_found`: CPQ, `C75_strict`: CPQ, `C75_unblind`: CPQ, `C75_statement_false`: CPQ |
| C76 | proved | `SwapSpend.C76_claim`: CPQ, `SwapSpend.C76_reclaim`: CPQ, `SwapSpend.C76_claim_unlocks`: CPQ, `SwapSpend.C76_reclaim_unlocks`: CPQ, `SwapSpend.C76_reveals`: CPQ, `SwapSpend.C76_claim_goes`: CPQ, `SwapSpend.C76_reclaim_goes`: CPQ |
| C77 | proved | `SwapBtc.C77_checks`: CPQ, `SwapBtc.C77_found`: PQ, `SwapBtc.C77_claim`: CPQ, `SwapBtc.C77_honest`: CPQ, `SwapBtc.C77_reclaim`: CPQ, `SwapBtc.C77_reclaim_goes`: CPQ |
| C78 | partial | `SwapWatch.C78_first`: PQ, `SwapWatch.C78_finds_partial`: CPQ, `SwapWatch.C78_statement_false`: CPQ |
| C79 | partial | `SwapRun.C79_alice`: CPQ, `SwapRun.C79_bob`: CPQ, `SwapRun.C79_alice_ends`: CPQ, `SwapRun.C79_bob_ends`: CPQ, `SwapRun.C79_alice_why`: CPQ, `SwapRun.C79_bob_why`: CPQ, `SwapRun.C79_back_partial`: CPQ, `SwapRun.C79_back_bob_partial`: CPQ, `SwapRun.C79_backed_false`: CPQ, `SwapRun.C79_backed_bob_false`: CPQ, `SwapRun.C79_statement_false`: CPQ |
| C80 | partial | `AssetRun.C80_alice`: CPQ, `AssetRun.C80_bob`: CPQ, `AssetRun.C80_alice_ends`: CPQ, `AssetRun.C80_bob_ends`: CPQ, `AssetRun.C80_back_partial`: CPQ, `AssetRun.C80_statement_false`: CPQ |
| C81 | partial | `Opcodes.C81_reads_partial`: CPQ, `Opcodes.C81_apart_partial`: CPQ, `Opcodes.C81_iterates`: PQ, `Opcodes.C81_exact`: CPQ, `Opcodes.C81_one_reading`: PQ, `Opcodes.C81_written`: CPQ, `Opcodes.C81_statement_false`: CPQ |
| C82 | proved | `ChainParams.C82_datadir`: CPQ, `ChainParams.C82_liquid_named`: CPQ, `ChainParams.C82_apart`: CPQ, `ChainParams.C82_registered`: CPQ |
| C83 | proved | `SwapRun.C83_bob_pays`: CPQ, `SwapRun.C83_alice_pays`: CPQ, `SwapRun.C83_bob_claims`: CPQ, `SwapRun.C83_alice_claims`: CPQ, `SwapRun.C83_done`: CPQ |
| C84 | proved | `AssetRun.C84_bob_signs`: CPQ, `AssetRun.C84_bob_publishes`: CPQ, `AssetRun.C84_alice_publishes`: CPQ, `AssetRun.C84_alice_done`: CPQ, `AssetRun.C84_bob_done`: CPQ |
| C85 | proved | `AssetPair.C85_bob_signs`: CPQ, `AssetPair.C85_bob_publishes`: CPQ, `AssetPair.C85_alice_publishes`: CPQ, `AssetPair.C85_alice_done`: CPQ, `AssetPair.C85_bob_done`: CPQ, `AssetPair.C85_ends`: P, `AssetPair.C85_goes`: P |
| C86 | proved | `SwapPair.C86_bob_pays`: CPQ, `SwapPair.C86_alice_pays`: CPQ, `SwapPair.C86_bob_claims`: CPQ, `SwapPair.C86_alice_claims`: CPQ, `SwapPair.C86_done`: CPQ, `SwapPair.C86_ends`: P, `SwapPair.C86_goes`: P |
| C87 | partial | `SwapRun.C87_bob_partial`: CPQ, `SwapRun.C87_alice_partial`: CPQ, `SwapRun.C87_bob_done`: CPQ, `SwapRun.C87_alice_done`: CPQ, `SwapRun.C87_bob_order`: CPQ, `SwapRun.C87_alice_order`: CPQ, `SwapRun.Toy.C87_statement_false`: CPQ |
| C88 | proved | `AddrText.C88_encode`: CPQ, `AddrText.C88_decode`: CPQ, `AddrText.C88_base58`: CPQ, `AddrText.C88_prints`: CPQ, `AddrText.C88_apart`: CPQ, `AddrText.C88_one`: CPQ, `AddrText.C88_reads`: CPQ, `AddrText.C88_classes`: CPQ, `Bech.C88_standard`: CPQ, `Bech.C88_all`: CPQ |
| C89 | partial | `BlechClass.C89_from_bytes`: PQ, `BlechClass.C89_reads_partial`: CPQ, `BlechClass.C89_sound`: CPQ, `BlechClass.C89_str`: CPQ, `BlechClass.C89_back`: CPQ, `BlechClass.C89_wallet`: CPQ, `BlechClass.C89_statement_false`: CPQ |
| C90 | partial | `C90_distinct`: CPQ, `C90_reached_partial`: CPQ, `C90_one`: CPQ, `C90_twice`: CPQ, `C90_statement_false`: PQ |
| C91 | partial | `Ffi.C91_declared`: PQ, `Ffi.C91_results_partial`: P, `Ffi.C91_results_statement_false`: P, `Ffi.C91_size`: PQ, `Ffi.C91_exact`: CPQ, `Ffi.C91_statement_false`: CPQ, `Ffi.C91_refused`: P, `Ffi.C91_wraps`: PQ, `Ffi.C91_blind`: CPQ, `Ffi.C91_unblind`: CPQ, `Ffi.C91_bits`: CPQ |
| C92 | partial | `C92_exact`: CPQ, `C92_goes`: CPQ, `C92_accepted_partial`: CPQ, `C92_statement_false`: CPQ |
| C93 | proved | `C93_joint`: CPQ, `AssetSwap.C93_swap`: CPQ, `AssetSwap.C93_claim`: CPQ |
| C94 | proved | `C94_spent`: CPQ, `C94_again`: CPQ, `SpendAddr.C94_spend`: CPQ, `SwapSpend.C94_claim`: CPQ, `SwapSpend.C94_reclaim`: CPQ |
| C95 | proved | `AssetSwap.C95_made`: CPQ, `AssetSwap.C95_accepted`: CPQ |
| C96 | partial | `AssetPair.C96_goes_partial`: CPQ, `AssetPair.C96_swaps_partial`: CPQ, `AssetPair.C96_ends`: P, `AssetPair.C96_real`: CPQ, `AssetPair.C96_race`: CPQ, `AssetPair.C96_statement_false`: CPQ |
| C97 | proved | `AssetSwap.C97_made`: CPQ, `AssetSwap.C97_accepted`: CPQ, `AssetRun.C97_back`: CPQ |
| C98 | proved | `SwapPair.C98_always`: CPQ, `SwapPair.C98_ends`: P, `SwapPair.C98_swaps`: CPQ |
| C99 | partial | `CrossSwap.C99_coins`: CPQ, `CrossSwap.C99_asset`: CPQ, `CrossSwap.C99_relayed`: CPQ, `SwapSpend.C99_claim_unlocks`: CPQ, `SwapSpend.C99_reclaim_unlocks`: CPQ, `SwapBtc.C99_back_unlocks`: CPQ, `SwapBtc.C99_coins_unlock`: CPQ, `SwapRun.C99_alice`: CPQ, `SwapRun.C99_bob`: CPQ, `SwapRun.C99_pays_partial`: CPQ, `SwapRun.C99_statement_false`: CPQ |
