{"id": "C01", "title": "Confidential field round-trip", "statement": "For every CConfidentialValue / CConfidentialAsset / CConfidentialNonce object that is_valid(), serialize() followed by stream_deserialize() on the bytes followed by anything gives back an equal object and leaves exactly the trailing bytes unread.", "quantifier": "every valid confidential object of the three classes and every trailing byte string", "why_tests_cant": "2^264 commitments and every possible following stream; a unit test samples a handful", "anchors": ["elementstx/core/__init__.py:CConfidentialCommitmentBase.stream_serialize", "elementstx/core/__init__.py:CConfidentialCommitmentBase.stream_deserialize"]}
{"id": "C02", "title": "Confidential field decoding is canonical and strict", "statement": "Whenever stream_deserialize() of a confidential class returns, the object is_valid(), and serializing it reproduces byte for byte the input that was consumed; a first byte other than 0, 1 or one of the two class prefixes is rejected with WitnessSerializationError, and a stream too short for its prefix is rejected.", "quantifier": "every byte stream and each of the three classes", "why_tests_cant": "the input space is all byte strings", "anchors": ["elementstx/core/__init__.py:CConfidentialCommitmentBase.stream_deserialize", "elementstx/core/__init__.py:CConfidentialCommitmentBase.is_valid"]}
{"id": "C03", "title": "null / explicit / commitment are exclusive", "statement": "For every constructible confidential object at most one of is_null(), is_explicit(), is_commitment() is true, and is_valid() is true exactly when one of them is; the constructor accepts exactly the byte strings of length 0, the explicit size or 33.", "quantifier": "every byte string passed to the constructor of each class", "why_tests_cant": "all byte strings of all lengths", "anchors": ["elementstx/core/__init__.py:CConfidentialCommitmentBase.__init__", "elementstx/core/__init__.py:CConfidentialCommitmentBase.is_null", "elementstx/core/__init__.py:CConfidentialCommitmentBase.is_explicit", "elementstx/core/__init__.py:CConfidentialCommitmentBase.is_commitment"]}
{"id": "C04", "title": "Explicit amounts and assets are recovered exactly", "statement": "CConfidentialValue(n).to_amount() == n for every n in [-2^63, 2^63) and construction fails outside this range; CConfidentialAsset(a).to_asset() == a for every asset id; to_amount()/to_asset() raise TypeError on anything not explicit; distinct amounts have distinct serializations.", "quantifier": "every Python int and every 32-byte asset id", "why_tests_cant": "2^64 amounts and 2^256 assets including sign and boundary cases", "anchors": ["elementstx/core/__init__.py:CConfidentialValue.__init__", "elementstx/core/__init__.py:CConfidentialValue.to_amount", "elementstx/core/__init__.py:CConfidentialAsset.to_asset"]}
{"id": "C05", "title": "Transaction round-trip", "statement": "For every transaction whose fields are in range (serializable, canonical: no data hidden in a null issuance or a coinbase input, witness vectors of full length), deserialize(serialize(tx)) equals tx field by field, with and without witness.", "quantifier": "every well-formed transaction with any number of inputs, outputs and witness items", "why_tests_cant": "unbounded numbers of inputs/outputs/witness stacks of arbitrary sizes across the varint boundaries", "anchors": ["elementstx/core/__init__.py:CElementsTransaction.stream_serialize", "elementstx/core/__init__.py:CElementsTransaction.stream_deserialize", "elementstx/core/__init__.py:CElementsTxIn.stream_serialize", "elementstx/core/__init__.py:CElementsTxOut.stream_serialize", "elementstx/core/__init__.py:CElementsTxWitness.stream_serialize"]}
{"id": "C06", "title": "Deserializer accepts exactly the wire grammar", "statement": "deserialize(b) returns tx if and only if b is an encoding of tx under the Elements transaction grammar written down independently (version, flag, inputs with outpoint-flag bits, outputs, locktime, witnesses iff flag is 1); every other byte string raises.", "quantifier": "every byte string", "why_tests_cant": "all byte strings; soundness of rejection cannot be enumerated", "anchors": ["elementstx/core/__init__.py:CElementsTransaction.stream_deserialize", "elementstx/core/__init__.py:CElementsTxIn.stream_deserialize", "elementstx/core/__init__.py:CAssetIssuance.stream_deserialize", "elementstx/core/__init__.py:CElementsTxInWitness.stream_deserialize"]}
{"id": "C07", "title": "Truncated or padded transactions are rejected", "statement": "No proper prefix of a serialized transaction deserializes, and no serialized transaction followed by extra bytes deserializes; encodings are prefix-free.", "quantifier": "every serializable transaction, every cut point and every non-empty suffix", "why_tests_cant": "every cut point of every transaction", "anchors": ["elementstx/core/__init__.py:CElementsTransaction.stream_deserialize"]}
{"id": "C08", "title": "Re-serialization is a stable normal form", "statement": "For every byte string b that deserializes, serializing the result succeeds and yields a normal form: deserializing and serializing again changes nothing; and the re-serialization equals b exactly when b used shortest varints, flag byte 0 or 1 and no issuance flag on an all-null issuance.", "quantifier": "every accepted byte string", "why_tests_cant": "all accepted byte strings", "anchors": ["elementstx/core/__init__.py:CElementsTransaction.stream_serialize", "elementstx/core/__init__.py:CElementsTransaction.stream_deserialize"]}
{"id": "C09", "title": "Outpoint index flags never corrupt the index", "statement": "For every input with prevout.n below 2^30 the serialized index carries the issuance bit iff the issuance is non-null and the peg-in bit iff is_pegin, and deserializing returns the same n, the same peg-in flag and the same issuance; n with high bits set (other than 0xffffffff) is refused with TxInSerializationError. (False for n = 0x3fffffff with both flags: shown.)", "quantifier": "every input, every index, all flag combinations", "why_tests_cant": "2^32 indices and arbitrary issuances", "anchors": ["elementstx/core/__init__.py:CElementsTxIn.stream_serialize", "elementstx/core/__init__.py:CElementsTxIn.stream_deserialize", "elementstx/core/__init__.py:OUTPOINT_ISSUANCE_FLAG"]}
{"id": "C10", "title": "Transaction id ignores witnesses and commits to everything else", "statement": "serialize(include_witness=False) and hence the txid is the same for any two transactions that differ only in witness data, and two well-formed transactions with equal txid agree on version, inputs, outputs and locktime unless an explicit hash collision is exhibited.", "quantifier": "every transaction and witness; every pair of well-formed transactions; every hash function", "why_tests_cant": "pairs of arbitrary transactions", "anchors": ["elementstx/core/__init__.py:CElementsTransaction.stream_serialize"]}
{"id": "C11", "title": "Witness nullness decides the extended format", "statement": "The extended (flag 1) format is produced iff include_witness and some input or output witness is non-null; a received extended transaction whose witnesses are all null is rejected as superfluous; witness vectors of a wrong non-zero length are refused.", "quantifier": "every transaction and every byte string", "why_tests_cant": "arbitrary witness vectors", "anchors": ["elementstx/core/__init__.py:CElementsTxWitness.is_null", "elementstx/core/__init__.py:CElementsTransaction.stream_serialize", "elementstx/core/__init__.py:CElementsTransaction.stream_deserialize"]}
{"id": "C12", "title": "num_issuances counts issued amounts", "statement": "num_issuances equals the number of non-null nAmount fields plus the number of non-null nInflationKeys fields over all inputs.", "quantifier": "every transaction", "why_tests_cant": "unbounded input lists", "anchors": ["elementstx/core/__init__.py:CElementsTransaction.num_issuances"]}
{"id": "C13", "title": "Segwit v0 SIGHASH_ALL commits to the transaction", "statement": "If two (script, transaction, input index, amount) combinations produce the same SIGVERSION_WITNESS_V0 SIGHASH_ALL hash then they agree on version, all prevouts, all sequences, all outputs, the signed input, the script code, the amount, the locktime and the hash type (and on issuances whenever the same inputs carry issuances), unless a hash collision is exhibited among the hashed strings.", "quantifier": "every pair of transactions, scripts, indices, amounts", "why_tests_cant": "a universally quantified statement over pairs of transactions", "anchors": ["elementstx/core/script.py:RawElementsSignatureHash"]}
{"id": "C14", "title": "Sighash flags free exactly the documented fields", "statement": "For segwit v0: with ANYONECANPAY the hash does not depend on other inputs; with NONE it does not depend on outputs; with SINGLE only on the output with the same index; with NONE/SINGLE/ANYONECANPAY it does not depend on other inputs sequences; it never depends on scriptSigs or witnesses or is_pegin.", "quantifier": "every pair of transactions agreeing on the committed parts, every hash type", "why_tests_cant": "pairs of arbitrary transactions and all 2^32 hash types", "anchors": ["elementstx/core/script.py:RawElementsSignatureHash"]}
{"id": "C15", "title": "Segwit v0 sighash is total on valid transactions", "statement": "RawElementsSignatureHash for WITNESS_V0 returns a hash for every transaction with in-range fields. (False: nLockTime >= 2^31 is packed as signed and raises; shown, and proved for the rest.)", "quantifier": "every transaction, index and hash type", "why_tests_cant": "2^32 locktimes", "anchors": ["elementstx/core/script.py:RawElementsSignatureHash"]}
{"id": "C16", "title": "Taproot sighash commits to everything it must", "statement": "Equal ElementsSignatureHashSchnorr hashes under ALL/DEFAULT without ANYONECANPAY imply equal genesis hash, hash type, version, locktime, outpoint flags, prevouts, spent assets, values and scripts, sequences, issuances, issuance rangeproofs, outputs, output witnesses, annex, input index, tapleaf hash and codeseparator position, unless a hash collision is exhibited.", "quantifier": "every pair of argument tuples", "why_tests_cant": "pairs of arbitrary transactions", "anchors": ["elementstx/core/script.py:ElementsSignatureHashSchnorr"]}
{"id": "C17", "title": "Taproot ANYONECANPAY preimage is unambiguous", "statement": "With ANYONECANPAY, equal hashes imply equal spent script and equal issuance rangeproofs of the signed input. (False: the spent scriptPubKey and the two rangeproofs are written without length prefixes; collisions shown, and the commitment proved under fixed lengths.)", "quantifier": "every pair of argument tuples", "why_tests_cant": "adversarially chosen byte splits", "anchors": ["elementstx/core/script.py:ElementsSignatureHashSchnorr"]}
{"id": "C18", "title": "Taproot sighash validates its arguments", "statement": "A hash is produced only if 0 <= inIdx < len(vin), spent_outputs has one entry per input, tapleaf/annex/genesis hashes are 32 bytes, the sigversion is TAPROOT or TAPSCRIPT, a TAPSCRIPT call has a tapleaf hash and witness vectors cover what is hashed; SINGLE with no matching output never yields a hash.", "quantifier": "every argument tuple", "why_tests_cant": "all argument combinations", "anchors": ["elementstx/core/script.py:ElementsSignatureHashSchnorr"]}
{"id": "C19", "title": "Legacy sighash: SIGHASH_SINGLE bug value and error", "statement": "For SIGVERSION_BASE, raw_sighash returns the constant one-hash with an error exactly when the index is out of range for inputs, or for outputs under SINGLE; sighash() then raises; otherwise the hash is that of the blanked transaction without any flag byte and without outpoint flag bits.", "quantifier": "every transaction, index and hash type", "why_tests_cant": "all index/hashtype combinations", "anchors": ["elementstx/core/script.py:CElementsScript.sighash", "elementstx/core/script.py:RawElementsSignatureHash", "elementstx/core/__init__.py:CElementsTransaction.stream_serialize"]}
{"id": "C20", "title": "Peg-out recognition", "statement": "get_pegout_data() returns (h, s) iff the script starts with OP_RETURN, a push of the 32-byte h and a push of the non-empty s (any push encoding), whatever follows; otherwise None and never an exception; is_pegout() agrees.", "quantifier": "every byte string as a script", "why_tests_cant": "all scripts, including truncated and malformed pushes", "anchors": ["elementstx/core/script.py:CElementsScript.get_pegout_data", "elementstx/core/script.py:CElementsScript.is_pegout"]}
{"id": "C21", "title": "Unspendable scripts", "statement": "is_unspendable() is true exactly for the empty script and scripts starting with OP_RETURN, so the rangeproof minimum value is 0 exactly for them and 1 otherwise.", "quantifier": "every script", "why_tests_cant": "all scripts", "anchors": ["elementstx/core/script.py:CElementsScript.is_unspendable", "elementstx/core/__init__.py:generate_rangeproof"]}
{"id": "C22", "title": "Blech32 encode/decode round-trip", "statement": "For every lowercase hrp, witness version and program for which encode returns a string, decode of that string returns exactly that version and program; encode succeeds exactly for the supported versions and program lengths; and the string is the hrp, the separator, and the letters of version, program and a checksum that is the prescribed polynomial remainder.", "quantifier": "every hrp, version, program", "why_tests_cant": "2^584 programs, all hrps", "anchors": ["elementstx/liquid_addr.py:encode", "elementstx/liquid_addr.py:decode", "elementstx/liquid_addr.py:convertbits", "elementstx/liquid_addr.py:blech32_create_checksum"]}
{"id": "C23", "title": "Blech32 strings are canonical", "statement": "Any string accepted by decode is, up to letter case, exactly the string encode produces from the decoded version and program; so two accepted strings with equal decoding differ only in case; and decode accepts exactly the texts of that form in one letter case.", "quantifier": "every string", "why_tests_cant": "all strings", "anchors": ["elementstx/liquid_addr.py:decode", "elementstx/liquid_addr.py:encode"]}
{"id": "C24", "title": "Blech32 checksum detects up to six substitutions", "statement": "If two strings of equal length are both accepted by decode under the same hrp with the same checksum variant and differ (ignoring case) then they differ in at least seven characters.", "quantifier": "every pair of accepted strings", "why_tests_cant": "exhaustive testing over 32^k error patterns in strings up to 1000 characters is infeasible", "anchors": ["elementstx/liquid_addr.py:blech32_polymod", "elementstx/liquid_addr.py:blech32_verify_checksum", "elementstx/liquid_addr.py:decode"]}
{"id": "C25", "title": "Blech32 hrp separates chains", "statement": "A string accepted under one hrp is rejected under every other hrp; in particular no Elements regtest confidential segwit address is a Liquid one.", "quantifier": "every string and every pair of hrps", "why_tests_cant": "all strings", "anchors": ["elementstx/liquid_addr.py:decode", "elementstx/wallet.py:CBlech32ElementsConfidentialAddress", "elementstx/wallet.py:CBlech32ElementsLiquidV1ConfidentialAddress"]}
{"id": "C26", "title": "Blech32 version and checksum variant are tied, lengths bounded", "statement": "decode returns a program only with version <= 16, length between 2 and 73, version 0 only with length 53 or 65 and the constant-1 checksum, other versions only with the blech32m checksum; mixed-case and out-of-range characters are rejected.", "quantifier": "every string", "why_tests_cant": "all strings", "anchors": ["elementstx/liquid_addr.py:decode", "elementstx/liquid_addr.py:blech32_decode"]}
{"id": "C27", "title": "convertbits is an exact, strict regrouping", "statement": "convertbits(convertbits(b,8,5),5,8,False) == b for every byte string; convertbits 5->8 without padding succeeds only if leftover bits are fewer than 5 and zero; values out of range are refused; the result represents the same bit string.", "quantifier": "every byte string / list of ints", "why_tests_cant": "all lengths and values", "anchors": ["elementstx/liquid_addr.py:convertbits"]}
{"id": "C28", "title": "Confidential address composition", "statement": "For each chain and each of the five address kinds: from_unconfidential(a, pub) has blinding_pubkey == pub and to_unconfidential() == a, and its scriptPubKey equals that of a; an invalid pubkey, a foreign chain or a mismatched kind is refused.", "quantifier": "every address payload, pubkey, class and chain", "why_tests_cant": "all payloads and class pairs", "anchors": ["elementstx/wallet.py:CCoinConfidentialAddress.from_unconfidential", "elementstx/wallet.py:CCoinConfidentialAddress.to_unconfidential", "elementstx/wallet.py:CCoinConfidentialAddress.blinding_pubkey"]}
{"id": "C29", "title": "Address prefixes are unambiguous", "statement": "Within a chain, no base58 prefix of one address class is a prefix of another class prefix, and no payload of one class is accepted by another; across the two chains no base58 or segwit address string of one is accepted as an address of the other.", "quantifier": "every payload and every pair of classes", "why_tests_cant": "all payloads", "anchors": ["elementstx/wallet.py:P2PKHElementsConfidentialAddress", "elementstx/wallet.py:P2SHElementsLiquidV1ConfidentialAddress"]}
{"id": "C30", "title": "Confidential address string round-trip", "statement": "str() of a confidential segwit address decodes (by the general class, the chain class or the exact class) to an equal address of the same class, with the same blinding key and unconfidential address.", "quantifier": "every payload of every class", "why_tests_cant": "all payloads", "anchors": ["elementstx/blech32.py:CBlech32Data.__new__", "elementstx/blech32.py:CBlech32Data.__str__", "elementstx/blech32.py:CBlech32Data.blech32_match_progam_and_version", "elementstx/wallet.py:CBlech32DataDispatched"]}
{"id": "C31", "title": "get_output_size is the size of a real output", "statement": "For confidential address classes get_output_size() equals the serialized size of any output to any address of this class with committed value, asset and nonce. For unconfidential ones it should equal the size of an explicit output. (False: it omits the 32 bytes of the asset id; shown.)", "quantifier": "every address of every class", "why_tests_cant": "all payloads", "anchors": ["elementstx/wallet.py:CCoinConfidentialAddress.get_output_size", "elementstx/wallet.py:CElementsAddressBase.get_output_size"]}
{"id": "C32", "title": "Blinding only touches what it was asked to", "statement": "Whatever blind() returns or raises, version, locktime, the number of inputs and outputs, prevouts, scripts, sequences and peg-in flags are unchanged, every output without a blinding pubkey is unchanged, and every input without issuance keys keeps its issuance.", "quantifier": "every transaction, argument tuple, randomness and library behaviour", "why_tests_cant": "arbitrary transactions and arbitrary failures of the native library", "anchors": ["elementstx/core/__init__.py:blind_transaction"]}
{"id": "C33", "title": "Strict blinding success means everything was blinded", "statement": "If blind() with is_blind_success_strict returns BlindingSuccess, num_successfully_blinded equals the number of requested outputs and issuance amounts, except for the documented zero-last-blinder case every requested output is now committed in value and asset with rangeproof and surjection proof present.", "quantifier": "every transaction and argument tuple, any randomness, any library behaviour", "why_tests_cant": "all control-flow paths times all inputs", "anchors": ["elementstx/core/__init__.py:blind_transaction"]}
{"id": "C34", "title": "Blinding keeps commitments balanced", "statement": "If amounts balance per asset, then after blind() succeeds the sum of input commitments equals the sum of output commitments in the commitment group. (False when an issuance key is given for an input without issuance: the final blinding factor is then never computed; shown. Proved otherwise.)", "quantifier": "every transaction, descriptors, randomness", "why_tests_cant": "algebraic statement over all values and blinding factors", "anchors": ["elementstx/core/__init__.py:blind_transaction"]}
{"id": "C35", "title": "Blinding result vectors line up with outputs", "statement": "On success blinding_factors and asset_blinding_factors have one entry per output, zero for outputs that were not blinded, and for a blinded output exactly the factors used in its commitments.", "quantifier": "every successful call", "why_tests_cant": "all successful calls", "anchors": ["elementstx/core/__init__.py:blind_transaction", "elementstx/core/__init__.py:BlindingSuccess"]}
{"id": "C36", "title": "Blind then unblind recovers the output", "statement": "Every output blinded by blind() to pubkey P is unblinded by the key of P to its original asset and amount with the reported blinding factors, given that the native library rewinds what it signed.", "quantifier": "every transaction, key, amount in money range", "why_tests_cant": "all amounts/keys/randomness", "anchors": ["elementstx/core/__init__.py:blind_transaction", "elementstx/core/__init__.py:unblind_confidential_pair"]}
{"id": "C37", "title": "Unblinding never returns wrong data", "statement": "UnblindingSuccess is returned only if the amount is in money range, the value is a commitment, the rangeproof rewound with the right nonce, and the recovered asset and asset blinder regenerate exactly the asset commitment (or explicit asset) of the output.", "quantifier": "every output, key, rangeproof, and any library behaviour", "why_tests_cant": "adversarial rangeproofs", "anchors": ["elementstx/core/__init__.py:unblind_confidential_pair"]}
{"id": "C38", "title": "Fee, already blinded and invalid outputs are never blinded", "statement": "blind() reports failure before touching the transaction if a pubkey is given for a fee output, a non-explicit output, an output with witness in place, or if the pubkey is invalid.", "quantifier": "every transaction and argument tuple", "why_tests_cant": "all positions and combinations", "anchors": ["elementstx/core/__init__.py:blind_transaction"]}
{"id": "C39", "title": "Failed blinding leaves the transaction as it was", "statement": "If blind() returns BlindingFailure or raises, the transaction is unchanged. (False after the mutation phase has begun; shown. Proved for all failures of the checking phase.)", "quantifier": "every call", "why_tests_cant": "every failure point", "anchors": ["elementstx/core/__init__.py:blind_transaction"]}
{"id": "C40", "title": "Surjection targets describe the inputs", "statement": "The target list handed to the surjection prover consists, input by input, of the input asset, the issued asset if an amount is issued and the reissuance token if tokens are issued, then the extra auxiliary generators, each with the matching blinder. (False for a reissuance with inflation keys: a stale token is used; shown.)", "quantifier": "every transaction and descriptor list", "why_tests_cant": "unbounded lists", "anchors": ["elementstx/core/__init__.py:blind_transaction"]}
{"id": "C41", "title": "Issued asset and token ids are separated", "statement": "For any outpoints and contract hashes, the asset id, confidential token and explicit token of one issuance, and the ids of two different issuances, are pairwise different unless a hash collision is exhibited.", "quantifier": "every pair of outpoints and contract hashes", "why_tests_cant": "all pairs", "anchors": ["elementstx/core/__init__.py:generate_asset_entropy", "elementstx/core/__init__.py:calculate_asset", "elementstx/core/__init__.py:calculate_reissuance_token"]}
{"id": "C42", "title": "Blinding key derivation is deterministic and script-specific", "statement": "derive_blinding_key depends only on the derivation secret and the script bytes; different scripts give different keys unless a hash collision is exhibited; a non-Elements script object is refused.", "quantifier": "every key and pair of scripts", "why_tests_cant": "all pairs of scripts", "anchors": ["elementstx/core/__init__.py:derive_blinding_key", "elementstx/core/script.py:CElementsScript.derive_blinding_key"]}
{"id": "C43", "title": "The native library is loaded once, with the path set before first use", "statement": "For any history of set_custom_secp256k1_path / get_secp256k1 calls the library is loaded at most once, with the last path set before the first load, and every later call returns the same handle.", "quantifier": "every call history", "why_tests_cant": "unbounded histories", "anchors": ["elementstx/core/secp256k1.py:get_secp256k1", "elementstx/__init__.py:set_custom_secp256k1_path"]}
{"id": "C44", "title": "build_aligned_data_array lays items out contiguously", "statement": "When it returns for items of the expected size, item i occupies bytes [i*len,(i+1)*len). It should refuse items of a wrong size. (False: only the total length is checked; shown.)", "quantifier": "every list of byte strings", "why_tests_cant": "all lists", "anchors": ["elementstx/core/secp256k1.py:build_aligned_data_array"]}
{"id": "C45", "title": "Result objects: ok iff error is empty", "statement": "For every blinding/unblinding result ok is True iff error is the empty string; failures always carry a non-empty message; using a result as a boolean raises.", "quantifier": "every result object", "why_tests_cant": "all messages", "anchors": ["elementstx/core/__init__.py:BlindingOrUnblindingResult", "elementstx/core/__init__.py:BlindingOrUnblindingFailure"]}
{"id": "C46", "title": "Immutable objects do not alias caller buffers", "statement": "After constructing an immutable object from a bytearray, no later mutation of the bytearray changes the object. (False for CElementsTxOutWitness; shown. Proved for confidential commitments and CElementsTxInWitness.)", "quantifier": "every buffer and every later mutation", "why_tests_cant": "all histories of mutations", "anchors": ["elementstx/core/__init__.py:CElementsTxOutWitness.__init__", "elementstx/core/__init__.py:CElementsTxInWitness.__init__", "elementstx/core/__init__.py:CConfidentialCommitmentBase.__init__"]}
{"id": "C47", "title": "Mutable/immutable conversion preserves content and isolates", "statement": "to_mutable()/to_immutable() keep every field, hence the serialization, and mutating the mutable copy never changes the original.", "quantifier": "every transaction and every sequence of field updates", "why_tests_cant": "all mutation histories", "anchors": ["elementstx/core/__init__.py:CElementsTransaction", "elementstx/core/__init__.py:CElementsTxIn.from_instance", "elementstx/core/__init__.py:CElementsTxOut.from_instance", "elementstx/core/__init__.py:CElementsTxWitness.from_instance"]}
{"id": "C48", "title": "Witness v0 signature hashes follow the Elements layout", "statement": "For every transaction, input index, script, amount and hash type the witness v0 digest is the double hash of the Elements BIP143 message, field by field in order. (False: a lock time of 2^31 or more raises instead; and a null amount contributes nothing instead of a zero byte. Proved for all other calls.)", "quantifier": "every transaction, index, script, amount and hash type", "why_tests_cant": "any fixed vector covers a handful of the flag combinations; a constant wrong in one branch passes", "anchors": ["elementstx/core/script.py:RawElementsSignatureHash", "elementstx/core/__init__.py:CAssetIssuance.stream_serialize"]}
{"id": "C49", "title": "Taproot signature hashes follow the Elements layout", "statement": "For every call that produces a digest, the digest is the tagged hash of the Elements BIP341 message. (False with an annex or under ANYONECANPAY, where length prefixes are swapped: the annex hash gets a length byte and the script and the issuance rangeproofs get none. What is hashed is characterised exactly for every call.)", "quantifier": "every transaction, index, hash type, leaf, annex and code separator position", "why_tests_cant": "the space of flag combinations times issuances, witnesses and annexes", "anchors": ["elementstx/core/script.py:CElementsScript.sighash_schnorr", "elementstx/core/script.py:ElementsSignatureHashSchnorr"]}
{"id": "C50", "title": "Script-path signing commits to the leaf script", "statement": "sighash_schnorr of a script hashes the tapleaf of exactly that script with leaf version 0xc4, so two scripts with the same digest give a collision.", "quantifier": "every pair of scripts and every call", "why_tests_cant": "no finite set of scripts shows injectivity", "anchors": ["elementstx/core/script.py:CElementsScript.sighash_schnorr"]}
{"id": "C51", "title": "Input indices outside the transaction are refused when signing", "statement": "Signing with an index that names no input of the transaction is refused. (False for negative indices: -1 signs the last input. Proved for indices from the number of inputs on and below minus the number of inputs; what the others sign is characterised.)", "quantifier": "every integer index and transaction", "why_tests_cant": "integers are unbounded", "anchors": ["elementstx/core/script.py:RawElementsSignatureHash", "elementstx/core/script.py:ElementsSignatureHashSchnorr"]}
{"id": "C52", "title": "No two uses share a random draw when blinding", "statement": "When blinding succeeds, every result of the random function has one use: the asset factor, ephemeral key, surjection seed and (except for the one balancing output) value factor of every changed output, and the factor of every changed issuance, each come from a draw of their own; so if the random function does not repeat itself, no factor is shared.", "quantifier": "every transaction, argument list, library answer and random function, strict or not", "why_tests_cant": "a reused draw gives transactions that verify; only an argument over all runs shows that no draw is used twice", "anchors": ["elementstx/core/__init__.py:CElementsMutableTransaction.blind", "elementstx/core/__init__.py:blind_transaction"]}
{"id": "C53", "title": "Blinding uses the token id of the network", "statement": "After a strictly successful blinding of an input that issues tokens, the token the network credits (confidential iff the issued amount is a commitment in the result) is among the surjection targets, and a hidden number of tokens is committed to with its generator. (False when only one of the two issuance keys is given: the id is chosen by the token key, the network looks at the amount. Proved for inputs with both keys or none.)", "quantifier": "every transaction, argument list, library and random function", "why_tests_cant": "both sides succeed locally; only the relation between the two ids over all argument combinations shows the disagreement", "anchors": ["elementstx/core/__init__.py:blind_transaction", "elementstx/core/__init__.py:calculate_reissuance_token"]}
{"id": "C54", "title": "A blinded transaction survives the wire and opens for its recipients", "statement": "A transaction whose fields fit the wire format, with witness lists complete or missing, can after successful blinding be serialized, the bytes deserialize to the blinded transaction, and each blinded output in what was read is unblinded by its key to the original asset and amount. (False for a transaction without input witness list, e.g. built by appending to an empty mutable one: blinding adds output witnesses only, serialize succeeds and the bytes are unreadable. Proved for complete witness lists, whatever blinding returns or raises.)", "quantifier": "every transaction, argument list, random function and library within its documented sizes", "why_tests_cant": "tests blind transactions read from bytes, which have complete witness lists; the claim is about every state blinding can leave", "anchors": ["elementstx/core/__init__.py:blind_transaction", "elementstx/core/__init__.py:CElementsTransaction.stream_serialize", "elementstx/core/__init__.py:unblind_confidential_pair"]}
{"id": "C55", "title": "Redeem script of a confidential address is that of the unconfidential one", "statement": "to_redeemScript of a confidential address equals to_redeemScript of its unconfidential address; and the scriptPubKey of an address determines its kind and hash, and can be spent by exactly the party the address names. (The first half is false: the confidential class returns the scriptPubKey, which is the script to sign for only for P2PKH. Proved: equal iff P2PKH.)", "quantifier": "every address of both chains and all kinds", "why_tests_cant": "tests sample a few addresses of one kind; the claim is over all kinds and payloads", "anchors": ["elementstx/wallet.py:CCoinConfidentialAddress.to_redeemScript", "elementstx/wallet.py:CCoinConfidentialAddress.to_scriptPubKey"]}
{"id": "C56", "title": "Base58 prefixes tell all classes apart", "statement": "No base58 prefix of an address, key or extended key class of either chain begins the prefix of another class, so decoded base58 data belongs to one class. (False for the secret keys of the two chains, which share prefix 239. Proved for every other pair.)", "quantifier": "every pair of base58 classes, every decoded string", "why_tests_cant": "tests decode strings of their own class; the claim is about all strings and all pairs of classes", "anchors": ["elementstx/wallet.py:CElementsKey", "elementstx/wallet.py:CElementsLiquidV1Key", "elementstx/wallet.py:CElementsExtPubKey"]}
{"id": "C57", "title": "What was unblinded can be spent", "statement": "The descriptor got from unblinding an output (UnblindingSuccess.get_descriptor), or written down for an explicit output, opens the commitments of that output as they stand in the transaction. Blinding a transaction with such descriptors, plain amounts balancing, yields commitments that balance against those of the spent outputs. (The second half is false on mere success: with nothing to blind, hidden inputs are not balanced and success is reported. Proved if at least one output is asked for, all asked outputs were hidden, and issuance keys are given for issuances only.)", "quantifier": "every library keeping the Pedersen promises, every spent output with witness, every key, every transaction and arguments", "why_tests_cant": "tests unblind and re-blind a few recorded transactions; the equation must hold in the group for all amounts, factors and combinations of outputs", "anchors": ["elementstx/core/__init__.py:UnblindingSuccess.get_descriptor", "elementstx/core/__init__.py:unblind_confidential_pair", "elementstx/core/__init__.py:CElementsMutableTransaction.blind"]}
{"id": "C58", "title": "Printed objects read back", "statement": "Evaluating repr(x) as Python gives x again, for confidential fields, issuances and witnesses. (False for explicit assets, whose repr passes a hex string to CAsset, and for issuances, whose repr passes bytes where Uint256 is required and drops leading arguments. Proved: exactly these raise TypeError, all else reads back.)", "quantifier": "every constructible field, issuance, input witness, output witness and transaction witness", "why_tests_cant": "tests print a few objects; the claim is over all bytes, all amounts including negative ones, all stacks and all lists of witnesses", "anchors": ["elementstx/core/__init__.py:CConfidentialCommitmentBase.__repr__", "elementstx/core/__init__.py:CAsset.__repr__", "elementstx/core/__init__.py:CAssetIssuance._repr_or_str", "elementstx/core/__init__.py:CElementsTxInWitness._repr_or_str", "elementstx/core/__init__.py:CElementsTxOutWitness.__repr__", "elementstx/core/__init__.py:CElementsTxWitness._repr_or_str"]}
{"id": "C59", "title": "Printed objects can be told apart", "statement": "Two objects with the same repr are equal. (False for inputs: an issuance of 100 units without tokens prints like one of 100 tokens without units, because absent parts are left out by position. Proved for fields, witnesses and outputs; for inputs, texts are equal iff outpoint, sequence, peg-in mark and script text agree and the issuances have the same list of present parts.)", "quantifier": "every pair of constructible objects", "why_tests_cant": "tests compare the text of single objects; a collision is a statement about pairs", "anchors": ["elementstx/core/__init__.py:CAssetIssuance._repr_or_str", "elementstx/core/__init__.py:CElementsTxIn._repr_or_str", "elementstx/core/__init__.py:CElementsTxOut._repr_or_str"]}
{"id": "C60", "title": "What str calls confidential", "statement": "str of a field shows CONFIDENTIAL exactly if the field is a commitment. (False for absent fields and for nonces. Proved: an explicit amount or asset is shown as such, everything else, in particular every commitment, as CONFIDENTIAL.)", "quantifier": "every field", "why_tests_cant": "tests print one explicit and one blinded field", "anchors": ["elementstx/core/__init__.py:CConfidentialCommitmentBase.__str__", "elementstx/core/__init__.py:CConfidentialNonce._get_explicit"]}
{"id": "C61", "title": "However blinding ends, there is one place where it stopped", "statement": "Whatever blind() does (success, failure result, exception), there is one place in the order issuances first, then outputs, such that everything before it is finished (blinded with proofs, or hidden without proofs because no surjection proof was found, or rightly left alone), everything after it is as it was, and at the place itself no proof was written; nothing at all was written there unless an exception was raised. In particular every proof that changed belongs to an output or issued amount that is blinded completely.", "quantifier": "every transaction with inputs of regular sizes, all arguments, every random source and every behaviour of the library", "why_tests_cant": "tests look at transactions after success, not at what an exception in the middle of the loops leaves behind", "anchors": ["elementstx/core/__init__.py:CElementsMutableTransaction.blind"]}
{"id": "C62", "title": "Buffers handed to the native library have the sizes it reads", "statement": "blind() and unblind() call functions of libsecp256k1-zkp only with buffers of the sizes the C functions read, arrays with as many elements as announced, and indices within them: replacing the library by one that differs on any other call changes nothing. (False for blind() with a _rand_func that returns other than 32 bytes: the seed of the surjection proof is passed on unchecked. Proved for random sources that return 32 bytes.)", "quantifier": "every pair of libraries that agree on properly sized calls, all arguments and transactions, every key and every field and proof for unblind()", "why_tests_cant": "an overread past a Python bytes object usually finds mapped memory and goes unnoticed; tests use one shape of transaction", "anchors": ["elementstx/core/__init__.py:CElementsMutableTransaction.blind", "elementstx/core/__init__.py:generate_surjectionproof", "elementstx/core/__init__.py:generate_rangeproof", "elementstx/core/__init__.py:unblind_confidential_pair", "elementstx/core/secp256k1.py:build_aligned_data_array"]}
{"id": "C63", "title": "Surjection proofs are made from factors that open what is to be proved", "statement": "Every surjection proof that blind() puts into a witness was made by the library from the assets, generators and factors of the targets, in line with each other, from the factor of the selected target and the asset blinding factor reported for the output, and was verified. If the library selects a target with the output's asset, the difference between the output's asset commitment and the generator of that target is the difference of the two factors times the base point, so that the proof is about a true statement.", "quantifier": "every successful blinding, any number of inputs, issuances, auxiliary generators and outputs; every library, for the second part one with Pedersen commitments", "why_tests_cant": "tests verify proofs of a few transactions; a mismatch of factor and target for some position raises an exception only there", "anchors": ["elementstx/core/__init__.py:generate_surjectionproof", "elementstx/core/__init__.py:CElementsMutableTransaction.blind"]}
{"id": "C64", "title": "Surjection proof objects are freed exactly once", "statement": "However generate_surjectionproof ends, the proof object in native memory was freed exactly once if it was allocated and not otherwise, and no call used it before allocation or after it was freed. A proof is returned only after generate, verify and serialize; None only if nothing was allocated.", "quantifier": "every library, all targets, generators, factors and seeds, every way of ending", "why_tests_cant": "leaks and double frees on exceptional paths do not show in results", "anchors": ["elementstx/core/__init__.py:generate_surjectionproof", "elementstx/core/secp256k1.py:_set_zkp_func_types"]}
{"id": "C65", "title": "Who can spend the cross-chain swap contracts", "statement": "The Elements-side contract script succeeds exactly when the stack holds a true condition, a prefix, a suffix and a signature such that prefix, the fixed r and suffix together are a signature of message 01 by the key to be revealed and the last is a signature by the buyer, or a false condition and a signature by the seller in an input with a relative lock of at least ten blocks. The Bitcoin-side contract succeeds exactly for a signature by the combined key or for the seller under a lock of fifteen blocks. The unlocking scripts the example makes are accepted, and neither contract can be refunded with a shorter lock or the default sequence number.", "quantifier": "all stacks, all transactions and signature checks of the node, all public keys, all r", "why_tests_cant": "acceptance of a script is a statement about every stack an adversary can supply; the example itself notes that VerifyScript cannot be used", "anchors": ["examples/confidential-cross-chain-atomic-swap.py:make_elt_cntract", "examples/confidential-cross-chain-atomic-swap.py:make_btc_contract", "examples/confidential-cross-chain-atomic-swap.py:prepare_elt_spend_reveal_branch", "examples/confidential-cross-chain-atomic-swap.py:create_elt_spend_tx", "examples/confidential-cross-chain-atomic-swap.py:create_btc_spend_tx"]}
{"id": "C66", "title": "Claiming the Elements side reveals the key to Alice", "statement": "Whenever a node accepts an unlocking script of the Elements-side contract in an input that is not a refund, Alice computes from it the secret of the key to be revealed, and from that the secret key that spends the Bitcoin-side contract.", "quantifier": "all keys, all unlocking scripts a node accepts, every group of the order of secp256k1", "why_tests_cant": "an honest counterparty always sends the expected shape; the failing cases are chosen keys and scripts", "anchors": ["examples/confidential-cross-chain-atomic-swap.py:alice", "examples/confidential-cross-chain-atomic-swap.py:get_known_k_r", "examples/confidential-cross-chain-atomic-swap.py:make_elt_cntract"]}
{"id": "C67", "title": "Bob cannot take both deposits of the cross-chain swap", "statement": "Whatever Bob sends and whenever, Bob never ends up with both the Bitcoin deposit and the Elements deposit as long as Alice acts as the example has them act; the Elements deposit never stays unspent after its timeout; and Alice gets the Bitcoin only if Bob gets the Elements deposit.", "quantifier": "all sequences of moves by Bob, of any length", "why_tests_cant": "a run of the example shows one schedule with an honest Bob", "anchors": ["examples/confidential-cross-chain-atomic-swap.py:alice", "examples/confidential-cross-chain-atomic-swap.py:wait_spend_reveal_transaction", "examples/confidential-cross-chain-atomic-swap.py:try_reclaim_elt", "examples/confidential-cross-chain-atomic-swap.py:miner"]}
{"id": "C68", "title": "Null and fee questions answer as the wire has it", "statement": "is_null, is_explicit and is_commitment of a valid confidential field say which marker byte the field is written with. An output is null exactly when it is written as four zero bytes, and a fee exactly when it is written as marker 1 and 32 bytes, marker 1 and 8 bytes, any nonce and a zero byte; equivalently its script is empty and to_asset and to_amount both give an answer. Input, output and transaction witnesses are null exactly when they are written with zero bytes only; an issuance exactly when two absent values follow its nonce and entropy.", "quantifier": "all outputs the constructors can build, all well-formed outputs, all witnesses of any shape and size, all issuances, all valid fields of the three classes", "why_tests_cant": "The predicates decide what is blinded, what is counted as a fee and whether a witness is written; a field they forget to look at (the nonce, the peg-in stack) only matters for objects tests do not build.", "anchors": ["elementstx/core/__init__.py:272-287", "elementstx/core/__init__.py:462-466", "elementstx/core/__init__.py:558-559", "elementstx/core/__init__.py:666-673", "elementstx/core/__init__.py:772-773", "elementstx/core/__init__.py:989-997"]}
{"id": "C69", "title": "The blech32 checksum covers the human readable part", "statement": "If a string is accepted as an address under a human readable part of at most five characters, then the same separator and data after a different part of at most five characters is not accepted under that part: an address of one chain does not become an address of another by rewriting its prefix.", "quantifier": "all pairs of human readable parts of at most five printable characters, all accepted strings, either letter case, both checksum variants, all payload lengths", "why_tests_cant": "There are about 10^10 prefixes; leaving the high bits of the prefix characters out of the checksum keeps every round trip of the code with itself intact.", "anchors": ["elementstx/liquid_addr.py:55-68", "elementstx/liquid_addr.py:126-148"]}
{"id": "C70", "title": "A transaction blinded in turns by several parties balances", "statement": "Parties take turns: each appends inputs and outputs whose own amounts are equal per asset, describes the inputs of the others as unknown (no asset, no factors) with their asset commitments as auxiliary generators, and blinds its own outputs. If every such blinding succeeds and hides all it was asked to, the sum of commitments of all inputs and issuances equals the sum of commitments of all outputs, although no party knew the factors of another. A party that hides an issued amount ends this: no blinding after that succeeds.", "quantifier": "any number of parties and turns, any inputs, outputs, issuances, keys, random choices and library obeying the algebra of commitments", "why_tests_cant": "The test for joint blinding has two parties and one order; that the factors of the others never enter the balance is a statement about all of them.", "anchors": ["elementstx/core/__init__.py:1196-1660", "examples/asset-atomic-swap.py:93-389", "examples/asset-atomic-swap.py:392-595"]}
{"id": "C71", "title": "The asset swap example gives each side what was offered, signed over the whole of it", "statement": "Whenever Alice sends a transaction to Bob in asset-atomic-swap.py, it has Bob's one input and one output as they were and Alice's three inputs, each signed over this very transaction in the way its kind of address needs; the first output opens with Alice's blinding key to what Bob offered; the holders of the keys of Bob's addresses find both of Alice's assets, whole; fee and change are as they should be. Whenever Bob signs, every output after the first opens with Bob's keys to what Alice offered, the last one is a fee, and nothing but the first input is changed. Alice publishes exactly what spends the agreed inputs in order (or the first of them). The fee is paid from the smallest output that is large enough. The transaction balances although neither side knows the factors of the other, provided the change was hidden. A transaction that claims funds back spends them all, to one new address each, and never exists if two are of the same asset. Neither side checks where the outputs go.", "quantifier": "all outputs, addresses, offers, keys, random choices, partial transactions (whatever the other side sends), hash functions and libraries obeying the algebra of commitments; any number of outputs claimed back", "why_tests_cant": "The script needs two nodes and two processes to run; what a dishonest other side may send cannot be enumerated, and balance is a statement about all blinding factors.", "anchors": ["examples/asset-atomic-swap.py:93-388", "examples/asset-atomic-swap.py:392-590", "examples/asset-atomic-swap.py:826-986"]}
{"id": "C72", "title": "The spending example pays the address what it should and signs it properly", "statement": "Whenever spend-to-confidential-address.py prints a transaction, its only input is the first output of the given transaction that pays to the key; it pays the fee of that transaction again, in the fee asset, and the whole rest to the given address, plus a zero unspendable output exactly if a hidden output goes to a plain address; the unlocking script reveals the program of the key and the witness is the key with its signature of this very transaction. The holder of the blinding key of a confidential address learns asset and amount. What goes in equals what comes out as commitments, provided the fee was paid in the asset that is spent and the output to a confidential address was hidden. An output that hides nothing is never sent to a confidential address.", "quantifier": "all transactions with any outputs (explicit amounts below 2^63), all keys, addresses, random choices, hash functions and libraries obeying the algebra of commitments", "why_tests_cant": "The example scripts have no tests that run without a node; the cases (hidden or clear output, plain or confidential address, several fee outputs, several outputs to the key) multiply, and balance is a statement about all blinding factors.", "anchors": ["examples/spend-to-confidential-address.py:86-268"]}
{"id": "C73", "title": "A sensible request is blinded completely", "statement": "If the request makes sense — list lengths fit, amounts are at most 21 million coins, outputs to be blinded are explicit, have no witness, are not fees and are not zero unless unspendable, issued amounts to be blinded are there, every asset comes from some input, the random strings are usable and differ from the factors of the inputs, at least one output is blinded and not all by itself — and the library works for what it is given, then blind() neither raises nor returns a failure but blinds everything it was asked to, strict or not.", "quantifier": "all transactions, all arguments and random choices meeting these conditions, any number of inputs, issuances and outputs, all hash functions, all libraries keeping the promises", "why_tests_cant": "Tests blind a few recorded transactions; that no further condition is hidden anywhere in 550 lines of branches and assertions is a statement about all sensible requests.", "anchors": ["elementstx/core/__init__.py:1184-1734", "elementstx/core/__init__.py:1773-1975"]}
{"id": "C74", "title": "The unblinding example tells the truth about every output", "statement": "unblind.py prints, output by output and in order, the right lines: fee outputs as fees, explicit ones with address, amount and asset; hidden ones with what they open to under the key, with the factors and the confidential address of that key, exactly if they open, otherwise that they cannot be opened and what the proof tells. The holder of the key an output was blinded for is told its original asset and amount. All outputs are told about exactly if each of them has an address (or is a fee), a witness if it is hidden, and an amount within the money range if not; otherwise everything before the first one that lacks it is told, and the rest is lost to an exception.", "quantifier": "all transactions with any outputs and witnesses, all keys, all libraries and hash functions, all functions from scripts to addresses", "why_tests_cant": "The example has no tests; which outputs are silently not reached depends on the combination of scripts and witnesses of all outputs before them.", "anchors": ["examples/unblind.py:58-108", "elementstx/core/__init__.py:572-591", "elementstx/core/__init__.py:1005-1016"]}
{"id": "C75", "title": "A failed blinding or unblinding tells what is wrong", "statement": "blind() reports a failure exactly for the first problem of the request, in a fixed order (what inputs spend and issue, further generators, amounts and keys input by input, outputs one by one), with a text naming the problem and the number of the input, generator or output, and leaves the transaction as it was; a request without any such problem fails only if strict, telling how many were blinded and how many should have been, and the strict switch changes nothing but that report: the same is done to the transaction, and the number told is the one a lenient run reports. unblind() fails exactly when the output is closed under the key, with the text for the first reason.", "quantifier": "all transactions, arguments, keys, libraries and hash functions; all numbers of inputs and outputs", "why_tests_cant": "Which of several problems is told depends on their combination; tests look at one problem at a time, and none compares strict and lenient runs.", "anchors": ["elementstx/core/__init__.py:1244-1263", "elementstx/core/__init__.py:1290-1502", "elementstx/core/__init__.py:1978-2117"]}
{"id": "C76", "title": "The Elements side of the cross-chain swap is spent safely and completely", "statement": "In the cross-chain swap Bob claims only a deposit with two confirmations whose first output to the contract opens, under the blinding key, to exactly the agreed amount of the agreed asset; Alice reclaims the first output to the contract if it opens to the agreed asset. Either transaction spends that output alone, pays the agreed amount less the fee to the address, hidden from all but the holder of the blinding key, who sees it, and the fee, and its commitments balance (Alice's if the deposit has the agreed amount); it can be written to the wire. Its unlocking script satisfies the contract, Alice's under the relative lock of the contract only, and Bob's gives Alice the key. If the deposit is there, the library works for the secrets drawn and the known nonce is the one the contract expects, there is a claim, and a reclaim.", "quantifier": "all deposits with any outputs and witnesses, all keys, addresses, random strings, confirmations, hash and signature functions and libraries that keep their promises", "why_tests_cant": "The example has no tests and needs two running nodes; what is spent, paid and revealed depends on the whole deposit transaction and on secrets of both sides.", "anchors": ["examples/confidential-cross-chain-atomic-swap.py:365-415", "examples/confidential-cross-chain-atomic-swap.py:482-499", "examples/confidential-cross-chain-atomic-swap.py:562-590", "examples/confidential-cross-chain-atomic-swap.py:649-760"]}
{"id": "C77", "title": "The Bitcoin side of the cross-chain swap is checked, claimed and taken back", "statement": "Alice sends the asset exactly if Bob's Bitcoin deposit has six confirmations, the contract has at most 10000 bytes and the first output of the deposit to the hash of the contract carries exactly the agreed amount. Whatever transaction Bob spends the Elements deposit with, if Alice makes a Bitcoin claim it spends that output alone, pays the agreed amount less the fee to Alice's address, and its witness unlocks the contract; the key is read from the first input that spends an output of the deposit by a script ending in the contract. If Bob claims as the example does and the claim is accepted, there is such a claim of Alice. Bob's reclaim spends the first output the node lists with the contract's address, pays Bob, unlocks the contract only with the relative lock of fifteen blocks, and exists whenever such an output is listed.", "quantifier": "all deposits, confirmations, transactions of Bob with any inputs, keys, nodes' descriptions, hash and signature functions, every group of the order of secp256k1", "why_tests_cant": "The example has no tests and needs two running nodes; what Bob puts in the spending transaction is up to Bob.", "anchors": ["examples/confidential-cross-chain-atomic-swap.py:178-217", "examples/confidential-cross-chain-atomic-swap.py:243-297", "examples/confidential-cross-chain-atomic-swap.py:502-552", "examples/confidential-cross-chain-atomic-swap.py:602-646"]}
{"id": "C78", "title": "Alice finds Bob's transaction on the chain", "statement": "While waiting, Alice returns the transaction that spends the contract output of the deposit, once it is in a block, whatever blocks the node had, lost or gained before, after at most two passes more than there are blocks between; and gives up only when the deposit has more confirmations than the timeout.", "quantifier": "all chains of any length, all sequences of views of the chain a node may have had, all positions of the deposit and of the spending transaction", "why_tests_cant": "depends on the whole chain and on the order in which the node sees it, including reorganizations; the example has no tests", "anchors": ["examples/confidential-cross-chain-atomic-swap.py:966-1009"]}
{"id": "C79", "title": "The participants of the cross-chain swap act only on what has happened, and take back what they have paid", "statement": "Whatever the other participant and the nodes answer, at any time: Alice pays at most once, to the contract made with the keys received and only after a deposit of Bob that is as agreed, tells only public keys, the shared key and the id of a confirmed deposit, and claims with what a confirmed transaction reveals; Bob pays at most once, and reveals the key only against a confirmed deposit that opens to the agreed asset and amount; both take back only after the timeout. A participant is done only with the claim confirmed. Whoever stops otherwise does so for a reason (a failed call, a missing or unexpected message, keys without a sum or too long for a contract, a bad deposit, sixty answers without enough confirmations, the timeout, a transaction from which no claim can be made), begins once to take the money back if and only if it was paid, and then does not end without having sent the transaction that takes it back.", "quantifier": "all environments: every answer of the nodes and every message of the other participant may depend on everything that has happened; all keys, addresses, numbers of passes", "why_tests_cant": "The example has no tests and needs two running nodes; the answers range over all possible histories.", "anchors": ["examples/confidential-cross-chain-atomic-swap.py:124-301", "examples/confidential-cross-chain-atomic-swap.py:304-419", "examples/confidential-cross-chain-atomic-swap.py:502-599", "examples/confidential-cross-chain-atomic-swap.py:863-932", "examples/confidential-cross-chain-atomic-swap.py:957-1031"]}
{"id": "C80", "title": "The participants of the asset swap act only on what has happened, and Alice takes back what Bob could still spend", "statement": "Whatever the other participant and the node answer, at any time: Alice offers only assets whose transactions, and Bob's, are confirmed, sends signatures at most once, only for a transaction in which Bob's part pays what Bob offered and which is made from what was exchanged, publishes at most the swap that came back with the same inputs and, if that was not accepted, the transaction that takes all three outputs back to addresses just made, and says goodbye only when the swap is confirmed and the balance then is what was offered; Bob signs and publishes only a transaction in which each offer is found in its output. A participant that finishes has all of this behind it; one that stops otherwise got a bye or does so for a reason (a failed call, a missing or unexpected message, no single output of a new asset, too little for the fee, a key that is none, sixty answers without a confirmation, a partial transaction that does not pay, a transaction that cannot be made, another balance). When Bob has the signatures and the swap is not accepted, Alice gives the node the transaction that takes everything back if that can be made.", "quantifier": "all environments: every answer of the node and every message of the other participant may depend on everything that has happened; all assets, amounts, keys and addresses", "why_tests_cant": "The example has no tests and needs two running nodes; the answers range over all possible histories.", "anchors": ["examples/asset-atomic-swap.py:93-389", "examples/asset-atomic-swap.py:392-594", "examples/asset-atomic-swap.py:676-724", "examples/asset-atomic-swap.py:749-859", "examples/asset-atomic-swap.py:919-989"]}
{"id": "C81", "title": "Scripts written with the Elements opcodes mean what was written", "statement": "A script made from the names of core/script.py, opcodes of Bitcoin and data is read by an Elements node as exactly these steps; every opcode of the node has its name; scripts written differently are different; the script iterator gives the same steps as the node, and fails on exactly the scripts that end within an operation.", "quantifier": "all sequences of names, opcodes and data of any length", "why_tests_cant": "unboundedly many scripts; the upstream tests use none of the opcodes but two, so that a wrong value is not seen", "anchors": ["elementstx/core/script.py:40-101", "elementstx/core/script.py:381"]}
{"id": "C82", "title": "Chains keep their data apart", "statement": "An Elements chain keeps its data under the name of its network, the network id is the same name, all registered names of a chain lead to the same place, and two chains of a coin share the place or the id only if they are the same network.", "quantifier": "all chain names that say a coin and possibly a network", "why_tests_cant": "chains are made by subclassing with any name", "anchors": ["elementstx/__init__.py:25-45"]}
{"id": "C83", "title": "In the cross-chain swap both participants mean the same contracts and payments, and when both are done the swap has taken place", "statement": "When the two participants are connected, whatever the nodes answer: the scripts each pays to and checks are the same two contracts, made from the keys both have drawn; Alice pays only after Bob has paid, once, and both have seen it confirmed; Bob claims only the output Alice has paid, which opens with Alice's key to what was agreed; Alice claims only what Bob has paid, after a confirmed transaction spent Alice's payment with the contract; when both are done both payments were claimed by confirmed transactions and nothing was taken back.", "quantifier": "all pairs of runs in which each receives only what the other has sent; every answer of the nodes may depend on everything that has happened; all keys", "why_tests_cant": "the example has no tests; the claim is about all interleavings of two processes and two chains", "anchors": ["examples/confidential-cross-chain-atomic-swap.py:124-419", "examples/confidential-cross-chain-atomic-swap.py:863-932"]}
{"id": "C84", "title": "In the asset swap nothing but the agreed exchange is signed or published, and when both are done it has taken place", "statement": "When the two participants are connected, whatever the nodes answer: what Bob signs and sends, and publishes, is one transaction whose four inputs are Bob's issued output and Alice's two issued outputs and fee output, nothing else, each signed by its owner over the whole of it; its first output goes to Alice's address and opens with Alice's key to all of Bob's asset, the next two go to the addresses Bob has made and open with Bob's keys to all of Alice's assets, then come Alice's change and the fee. Alice publishes these same bytes or takes everything back. When Alice is done the node has accepted these bytes and nothing else from Alice, they are confirmed and Bob's asset has arrived; when Bob is done this is true and Alice's assets have arrived.", "quantifier": "all pairs of runs in which each receives only what the other has sent; every answer of the nodes may depend on everything that has happened; all assets, amounts, keys and addresses", "why_tests_cant": "the example has no tests; the claim is about all pairs of processes, all answers of two nodes, and about what is left of a transaction after being serialized and read twice", "anchors": ["examples/asset-atomic-swap.py:93-597", "examples/asset-atomic-swap.py:676-724"]}
{"id": "C85", "title": "The two processes of the asset swap, stepping in any order, exchange only what was agreed, do not block each other and end", "statement": "When the two processes step in any order, connected by a pipe that keeps the order, and the nodes answer anything: at every moment what was signed, sent and published is the agreed exchange of C84 or Alice's taking back; when Alice is done it has taken place for Alice, and when Bob is done it has taken place for both and Alice is done too; as long as one has not ended a step is possible, and there is no endless sequence of steps.", "quantifier": "all interleavings of the two processes, all answers of the nodes that may depend on everything that has happened, all reachable states", "why_tests_cant": "the example has no tests; the claim is about all interleavings", "anchors": ["examples/asset-atomic-swap.py:93-597", "examples/asset-atomic-swap.py:599-724"]}
{"id": "C86", "title": "The two processes of the cross-chain swap, stepping in any order, pay and claim only what was agreed, do not block each other and end", "statement": "When the two processes step in any order, connected by a pipe that keeps the order, and the nodes answer anything: at every moment Bob has paid only into the agreed contract, Alice only after that, Bob has claimed only what Alice has paid before, Alice only what Bob has paid before and after the asset was taken; when both are done the swap has taken place; as long as one has not ended a step is possible, and there is no endless sequence of steps other than in the two loops that wait for the other's transaction.", "quantifier": "all interleavings of the two processes, all answers of the nodes that may depend on everything that has happened, all reachable states", "why_tests_cant": "the example has no tests; the claim is about all interleavings", "anchors": ["examples/confidential-cross-chain-atomic-swap.py:124-419", "examples/confidential-cross-chain-atomic-swap.py:774-932"]}
{"id": "C87", "title": "Whoever has claimed in the cross-chain swap does not take back", "statement": "A participant whose claim was accepted does not send the transaction that takes the own deposit back, and nobody claims after taking back. (False as stated: if the claim is not seen confirmed within sixty attempts the last wish takes back too. Proved when the claim is seen confirmed; and that nobody claims after taking back.)", "quantifier": "all runs of a participant, all answers and messages, all keys", "why_tests_cant": "the example has no tests; the claim is about all the sequences of answers of two nodes and a counterparty", "anchors": ["examples/confidential-cross-chain-atomic-swap.py:124-419", "examples/confidential-cross-chain-atomic-swap.py:863-932"]}
{"id": "C88", "title": "Address text reads back as the address, and as nothing else", "statement": "str() of an address of any of the twenty classes of the two chains is read back as that address, whichever classes that include its own are tried and in whatever order (for a bech32 text: unless it is also base58 with a matching checksum); whatever text is read is, in lower case if it is segwit text, the text of the address read; no text is read as two addresses, and no base58 text as of two classes, keys included, but for the secret keys of the two chains.", "quantifier": "all addresses, all strings, all lists of classes", "why_tests_cant": "all payloads and all strings; tests read a few addresses back", "anchors": ["elementstx/wallet.py:296-492", "elementstx/blech32.py:38-155"]}
{"id": "C89", "title": "Reading blech32 text with any class hierarchy", "statement": "CBlech32Data read from text by any class is data of a class that the hierarchy offers, with the version and program of the text; in a complete hierarchy it is the first such class, and a text that no class fits is refused as an unexpected version or length. from_bytes makes data exactly when the versions of class and caller agree and lie in 0 to 16 (and, for wallet classes, the length fits); exactly which data has a text, and when the class that made it reads it back. (False as stated: with a single candidate and no _data_length the refusal itself fails with AttributeError. Proved when every class with one candidate has a length; soundness without conditions.)", "quantifier": "all class hierarchies of any depth, all strings, all byte strings and versions", "why_tests_cant": "the tests use the two hierarchies of the wallet; the claim is about every subclass a user may define and every text", "anchors": ["elementstx/blech32.py:40-155", "elementstx/wallet.py:207-230"]}
{"id": "C90", "title": "Blinding a transaction that lists one object more than once", "statement": "blind() never changes an output (or issuance, or witness) for which no key was given, even if the lists of the transaction hold one object at several positions. (False as stated: an output object listed again at a position without pubkey becomes a commitment there too, without a range proof, and strict success is reported. Proved: if no object is listed twice, blinding is what it is for values; however objects are shared, only objects listed at a position with a key change, positions that held one object still show one, and an output object with a pubkey at two positions makes the call raise instead of reporting success.)", "quantifier": "all transactions, all ways its lists may share objects, all arguments, randomness and answers of the library", "why_tests_cant": "the tests build every output as a new object; the ways of sharing are unbounded and the claim is about the absence of a change anywhere", "anchors": ["elementstx/core/__init__.py:1504-1734"]}
{"id": "C91", "title": "Calls of the native library are made as its prototypes say", "statement": "Every function of libsecp256k1-zkp is declared to ctypes with the parameter and result types of its C prototype, and every call the package makes with arguments of the types it documents is accepted by ctypes, stays inside the buffers passed, writes only to writable ones, and is about exactly the values meant. Blinding and unblinding through ctypes therefore end as with the functions of the library called directly. (False in three ways: range proofs and auxiliary generators that are bytearray pass the type checks and are then refused by ctypes with ArgumentError; an exponent or number of bits outside a C int is silently reduced modulo 2^32; secp256k1_surjectionproof_serialized_size returns size_t and is declared int, which matters from 2^31 bytes on. All other calls reach the library as meant.)", "quantifier": "every declared function, every call site, all argument values of the documented types, all runs of blinding and unblinding", "why_tests_cant": "A wrong declaration or a short buffer is undefined behaviour that often goes unnoticed; tests pass bytes and default parameters, and cannot cover all argument types and sizes at all call sites.", "anchors": ["elementstx/core/secp256k1.py:80-211", "elementstx/core/__init__.py:311-324", "elementstx/core/__init__.py:570-593", "elementstx/core/__init__.py:1278-1403", "elementstx/core/__init__.py:1639-1668", "elementstx/core/__init__.py:1771-1975", "elementstx/core/__init__.py:1995-2108"]}
{"id": "C92", "title": "A blinded transaction passes the amount check of the network", "statement": "Let a transaction be ready for the network: the descriptors open the outputs that are spent, plain amounts are in range, tokens are issued only by new issuances and blinded together with the issued amount or not at all, what is not to be blinded is plain and carries no proofs, and no auxiliary generators are given beyond the inputs. If blind() with is_blind_success_strict succeeds and every output asked for is hidden, then the check a node makes on amounts (Elements' VerifyAmounts: fields, generators, commitments, range proofs with scripts and lower bounds, surjection proofs against all targets, and the tally), made on the transaction as read from the wire, accepts the result if and only if the commitments balance, which they do if amounts balance per asset and keys are given only where something is issued. (False without the conditions: with a key for an input that issues nothing strict success is reported and the node refuses; shown.)", "quantifier": "all transactions, spent outputs, descriptors, keys, randomness, and all libraries whose verification functions accept what the proving functions made", "why_tests_cant": "The test suite has no node; it unblinds its own results with the same library. Whether every result of every shape (issuances, unspendable outputs, plain and hidden inputs mixed) passes the check of another program is a statement about all of them.", "anchors": ["elementstx/core/__init__.py:1184-1768", "elementstx/core/__init__.py:1771-1975"]}
{"id": "C93", "title": "A transaction blinded in turns by several parties passes the amount check of the network", "statement": "Let parties in turn add inputs and plain outputs to a transaction and blind their own outputs with is_blind_success_strict, each with amounts that balance per asset, descriptors that open what they spend, empty descriptors for inputs of others, and the true asset commitments of everything the others spend (before or after) as auxiliary generators, everything asked for being hidden. Then the final transaction, with any signatures added afterwards, read from the wire, passes the check a node makes on amounts, including all surjection proofs made in earlier turns. In particular what the two sides of examples/asset-atomic-swap.py send, and what each of them claims back if the swap fails, passes it, if the last output asked for was hidden.", "quantifier": "all numbers of turns, all transactions, amounts, keys, randomness and libraries whose verification functions accept what the proving functions made", "why_tests_cant": "The example needs two nodes and two processes to run once. That proofs made before the other side's inputs exist verify against the final inputs is a statement about every order and number of turns.", "anchors": ["elementstx/core/__init__.py:1184-1768", "examples/asset-atomic-swap.py:93-388", "examples/asset-atomic-swap.py:392-590", "examples/asset-atomic-swap.py:826-986"]}
{"id": "C94", "title": "What was unblinded can be spent in a way the network accepts", "statement": "The descriptor of an input got by unblinding an output (or written down for a plain output on the chain) opens exactly what the network reads in that output, so a transaction blinded with it can pass the amount check of the network; an output hidden by the library opens again for its recipient in this sense, so that payments can go on. In particular the network accepts the amounts of what examples/spend-to-confidential-address.py prints whenever the spent output is not zero, the fee was paid in its asset and a confidential destination was indeed hidden; of every claim of the cross-chain swap example; and of the reclaim of a deposit of the agreed amount.", "quantifier": "for all outputs, keys, blinding results, transactions read by the example, deposits, parties, random numbers, and every library and verifier that keep the stated promises", "why_tests_cant": "A test spends a few outputs against a node; the claim covers all outputs and factors, and the amount check as a whole, with issuances absent, dummy outputs hidden or left alone, and signatures added after blinding.", "anchors": ["elementstx/core/__init__.py:UnblindingSuccess.get_descriptor", "elementstx/core/__init__.py:unblind_confidential_pair", "elementstx/core/__init__.py:CElementsMutableTransaction.blind", "examples/spend-to-confidential-address.py:86-268", "examples/confidential-cross-chain-atomic-swap.py:365-415", "examples/confidential-cross-chain-atomic-swap.py:482-499", "examples/confidential-cross-chain-atomic-swap.py:562-590", "examples/confidential-cross-chain-atomic-swap.py:649-760"]}
{"id": "C95", "title": "The asset swap can always be made by two honest participants", "statement": "If each participant of examples/asset-atomic-swap.py has the outputs it offers (hidden outputs it holds the key and the blinding factors of, locked by its key in one of the supported ways, with what the wallet reports about them being true), there is enough for the fee, the addresses exchanged are confidential ones whose blinding keys the receiver holds, each was told the true asset commitments of the other, and neither the library, the script check nor the random numbers fail, then nothing the two do can fail: Bob can make the first part, Alice's checks accept it, Alice can complete and sign it, Bob's checks accept that, Bob can sign it, and Alice's last check accepts it. The result spends exactly what both had, with signatures nodes expect, pays to each what the other offered and the change to Alice with everything hidden, can be written and read, and passes the amount check of the network.", "quantifier": "all outputs, kinds of address, amounts, keys, assets, addresses, random numbers, and every library and script check that keeps the stated promises", "why_tests_cant": "The example needs two nodes and two processes to run once with newly issued assets; that no step refuses what the other side honestly made is a statement about all of them.", "anchors": ["examples/asset-atomic-swap.py:93-388", "examples/asset-atomic-swap.py:392-590", "examples/asset-atomic-swap.py:862-911", "elementstx/core/__init__.py:1184-1768"]}
{"id": "C96", "title": "Two honest participants of the asset swap get to the end", "statement": "Run the two processes of examples/asset-atomic-swap.py together, in any order of their steps, for participants as in C95, with a pipe that delivers everything in time and nodes that do what nodes do: a new asset is in one output, keys and addresses are told truly, a transaction is confirmed before sixty questions about it are over, a transaction that spends existing outputs with the owners' signatures and passes the amount check is accepted, and balances are right once the swap is confirmed. Then at any time something can be done or both functions have returned; they cannot go on for ever; and in the end the swap transaction was accepted and confirmed, and each has seen what the other had in its balance.", "quantifier": "all honest participants, all interleavings of the two processes, all answers of the nodes within what is stated, all numbers of attempts until a transaction is confirmed", "why_tests_cant": "A run of the example is one interleaving with one timing of blocks; a deadlock or an exception in another order does not show up. The race between Alice and Bob to publish the same transaction does not either.", "anchors": ["examples/asset-atomic-swap.py:93-389", "examples/asset-atomic-swap.py:392-594", "examples/asset-atomic-swap.py:571-573", "examples/asset-atomic-swap.py:599-724", "examples/asset-atomic-swap.py:749-859"]}
{"id": "C97", "title": "What Alice put into the asset swap can be taken back", "statement": "If Alice's wallet owns hidden outputs of different assets, one of which holds at least twice the fixed fee in the fee asset, the library and the script check work, the new addresses are confidential ones of the wallet, and the drawn strings are usable, then claim_funds_back of examples/asset-atomic-swap.py does not raise: it makes a transaction that spends each of the outputs with the owner's signature, in which the key of each new address finds what was there of one asset (without the fee), and which passes the amount check of the network. So whatever Bob sends, if Bob got Alice's signatures and does not say bye as the last message, then Alice's node accepted a transaction or was given the one that gives everything back.", "quantifier": "all lists of outputs of different assets, all addresses, keys and drawn strings within what is stated, all messages of Bob, all answers of the node to transactions", "why_tests_cant": "A run of the example has three outputs with amounts of the test chain and a Bob that follows the protocol; the path that takes back is entered only if something goes wrong.", "anchors": ["examples/asset-atomic-swap.py:339-372", "examples/asset-atomic-swap.py:919-986"]}
{"id": "C98", "title": "Two honest participants of the cross-chain swap get to the end", "statement": "Run the two processes of examples/confidential-cross-chain-atomic-swap.py together, in any order of their steps, with a pipe that delivers everything in time, keys that are keys and can be added, wallets that can pay, a library and a curve that do what they should, and nodes that do what nodes do: a transaction is confirmed before sixty questions about it are over and stays so for both, a transaction that unlocks the contract with the right amounts is accepted, and a node shows a growing part of one chain in which Bob's claim gets in before Alice's patience and the timeout end. Then at any time something can be done, or both functions have returned and the swap has taken place as C86 says (each has claimed what the other paid, to the own address); they cannot go on for ever; and such a run exists.", "quantifier": "all honest participants, all interleavings of the two processes, all answers of the nodes within what is stated, all numbers of questions until a transaction is confirmed, all chains and places of the claim within the timeout", "why_tests_cant": "A run of the example is one interleaving with one timing of blocks; a deadlock, or an exception in another order of messages and confirmations, does not show up in it.", "anchors": ["examples/confidential-cross-chain-atomic-swap.py:124-301", "examples/confidential-cross-chain-atomic-swap.py:304-419", "examples/confidential-cross-chain-atomic-swap.py:435-762", "examples/confidential-cross-chain-atomic-swap.py:863-932", "examples/confidential-cross-chain-atomic-swap.py:966-1030"]}
{"id": "C99", "title": "The scripts of the cross-chain swap are within the limits of nodes, and what was paid comes back whatever the other side does", "statement": "Bob's claim and Alice's reclaim of the asset and Bob's reclaim of the bitcoins, where they unlock the deposit, do so within the limits that nodes put on scripts (10000 bytes, 520 bytes per push even in skipped branches, 201 operations); spends of the bitcoins also keep to what nodes ask before they pass a transaction on (witness scripts of at most 3600 bytes, at most 100 items, conditions that are nothing or 01). Whatever the other participant says or does: if a participant has paid, their own wallet and node have done what was asked and show the payment in a block, and they stop without the claim, they have sent a transaction that spends exactly that payment back to their address, unlocks it within the limits and, for the asset, passes the amount checks of the network. Alice pays only against bitcoins in a contract that is within the limits.", "quantifier": "all environments: every message of the other participant and every other answer may depend on everything that has happened; all keys, amounts of other outputs, deposits, libraries and verifiers that keep their promises", "why_tests_cant": "The other participant may send any bytes as keys and messages; the limits matter only for keys that no honest participant sends, and only a node would notice.", "anchors": ["examples/confidential-cross-chain-atomic-swap.py:124-301", "examples/confidential-cross-chain-atomic-swap.py:304-419", "examples/confidential-cross-chain-atomic-swap.py:422-560", "examples/confidential-cross-chain-atomic-swap.py:602-760"]}
{"id": "C100", "title": "Inputs and outputs of a blinded transaction do not tell what was hidden", "statement": "Take two requests to blind() that differ only in what is to be hidden: amounts and assets of outputs to be blinded, issued amounts to be blinded, and openings of the spent outputs. If both balance per asset, both are blinded with every output asked for hidden, and the random draws hide in the same points, then inputs and outputs that come out are the same byte for byte, including the output whose factor is computed and not drawn. Draws for one request correspond one to one to draws for the other that do so, with the same ephemeral keys and surjection seeds. With a library that works and requests that make sense both are indeed blinded.", "quantifier": "all transactions with any number of inputs, issuances and outputs, all descriptors, keys and draws, all libraries with Pedersen commitments in a group generated by the base point", "why_tests_cant": "That nothing is revealed is a statement about all other transactions that could have been hidden; a test sees one transaction.", "anchors": ["elementstx/core/__init__.py:1188-1768", "elementstx/core/__init__.py:1771-1846"]}
{"id": "C101", "title": "Signatures made before blinding survive it exactly where they cover nothing that was hidden", "statement": "Whatever blind() returns or raises, a witness v0, legacy or taproot signature hash made before it is the same after it if the outputs and issuances that its hash type covers were not to be hidden. On success a witness v0 or legacy signature that covers an output or an issuance that was changed has another hash afterwards, unless two different hashed strings with equal hashes are at hand (or, for witness v0 with SINGLE, a string whose hash is zero). The same holds of taproot whatever blind() returns, except for ANYONECANPAY with the issued amount of the signed input to be hidden (see C17). Strict success changes every output that it was asked to hide, except a last one that was left as it was.", "quantifier": "all transactions with any number of inputs, issuances and outputs, all blinding requests, all hash types, input indices, scripts and hash functions", "why_tests_cant": "It compares every hash type and every blinding request, including blinding that stops half way with an exception; a test signs a few transactions. That a signature breaks holds for all hash functions only up to collisions, which no run can show.", "anchors": ["elementstx/core/__init__.py:1188-1768", "elementstx/core/script.py:113-191", "elementstx/core/script.py:194-370"]}
{"id": "C102", "title": "What blind() has hidden is never changed again", "statement": "A transaction goes through any number of calls of blind(), made by anyone and ending in any way (success, failure or exception), and of inputs and outputs being appended. An output that some call changed is never changed again, nor is its witness, and every later request that names it is refused without a change to anything. Once an issued amount or its proof was changed, every later call is refused and changes nothing.", "quantifier": "all transactions, all sequences of calls and appendings of any length, all arguments, draws, hash functions and libraries whose asset commitments are marked as such", "why_tests_cant": "It ranges over sequences of calls of any length, including those that stop half way with an exception from the library at every place.", "anchors": ["elementstx/core/__init__.py:1188-1768", "elementstx/core/__init__.py:1771-1818"]}
{"id": "C103", "title": "The number a success of blind() reports is the number of things finished", "statement": "Whenever blind() reports success, strict or not, the number reported is the number of outputs asked for that now carry a surjection proof plus the number of issued amounts and token amounts that are no longer what they were; or it is one more than that, and then some output asked for was left exactly as it was because the blinding factor that would balance it is zero.", "quantifier": "all transactions, arguments, random draws, hash functions and libraries, for inputs whose issuance fields have the sizes a read transaction has", "why_tests_cant": "The count is kept in a counter updated at three places of a loop that can be left at four; equality with what an observer counts from the two transactions has to hold for every mix of missing surjection proofs, skipped issuances and zero factors.", "anchors": ["elementstx/core/__init__.py:1188-1768"]}
{"id": "C104", "title": "The scripts of the cross-chain swap push data in the shortest way", "statement": "Bob's claim and Alice's reclaim of the asset push all data in the shortest way, which nodes ask of transactions they pass on, whatever the other participant has sent. The contracts do so exactly if none of their keys (and not the fixed r) is a single byte that has an opcode of its own, and unlocking scripts exactly if neither the signatures in them nor the contract is.", "quantifier": "all keys and signatures of up to 520 bytes, all nonces r, all deposits and messages of the other participant", "why_tests_cant": "The boundaries of the four kinds of pushes and the bytes with their own opcode are met only by data of particular lengths and values, and a script that pushes otherwise still runs; only the relay rules of a node would notice.", "anchors": ["examples/confidential-cross-chain-atomic-swap.py:435-479", "examples/confidential-cross-chain-atomic-swap.py:649-760"]}
{"id": "C105", "title": "A blinded output opens for its recipient only", "statement": "If unblinding succeeds with a key on the nonce and rangeproof that blind() gave to an output, then the key has the pubkey the output was blinded for and the script is the one the output had, whatever commitments are shown with it; so for an amount in the money range the keys that open the output are exactly those of its pubkey. An issued amount or token amount hidden by blind(), however the call ended, is opened by no key but the one given for it.", "quantifier": "all transactions, arguments and random draws, all keys tried, all commitments and scripts shown; all hash functions (a clash of two particular hashes is named) and all libraries with the promises Keyed and Rewinds", "why_tests_cant": "A wrong key in the wiring of nonce, ephemeral key and pubkey (for example a nonce derived from public data only) still unblinds in every test that uses the right key; that no other key works is a claim about all keys.", "anchors": ["elementstx/core/__init__.py:1188-1768", "elementstx/core/__init__.py:1978-2117"]}
{"id": "C106", "title": "An address names the same script and blinding pubkey to a node", "statement": "What an address class of a chain reads from a text is what an Elements node of that chain reads from it: the same scriptPubKey and the same blinding pubkey or none; every text a node reads as a legacy, version 0 or taproot destination, blinded or not, is read by one of the classes; what str() prints is read by the node of the chain as that address; and no text is read by nodes of both chains, or in two ways.", "quantifier": "all texts, all addresses of the five kinds of both chains, confidential or not, all checksum hashes of 32 bytes and all segwit codecs that keep BIP 173 and BIP 350", "why_tests_cant": "Round trips within the library cannot see a wrong prefix or a swapped order of pubkey and hash, as both directions would be wrong; agreement with the node concerns all payloads.", "anchors": ["elementstx/wallet.py:295-479", "elementstx/blech32.py:40-152"]}
{"id": "C107", "title": "A wallet that keeps one secret opens what is paid to its addresses, and nothing else does", "statement": "If a wallet derives a blinding key from its secret and the script of an address, makes the confidential address of the key's pubkey and gives out its text, then whoever reads the text with whatever classes and blinds an output to script and pubkey of what was read has made an output from whose script the wallet derives the same key, and that key unblinds it to the original asset, amount and the factors reported. A key derived from any other secret or script opens the output only if hashes clash.", "quantifier": "all secrets, addresses of the five kinds and both chains, reading classes, transactions, arguments and random draws; all hash functions, libraries with the promises Formats, Rewinds and Keyed, and segwit codecs that keep BIP 173 and BIP 350", "why_tests_cant": "Four parts of the library have to agree (derivation, address composition, address text and blinding), each tested alone; that nobody else can open the output concerns all keys.", "anchors": ["elementstx/core/__init__.py:2120-2133", "elementstx/wallet.py:72-158", "elementstx/core/__init__.py:1159-1768", "elementstx/core/__init__.py:1978-2117"]}
{"id": "C108", "title": "Segwit addresses without blinding key are the text of BIP 173 and BIP 350", "statement": "A segwit address without blinding key is printed for a human readable part, version and program just if they are in the ranges of BIP 173 and the text has at most 90 characters, and the text is the human readable part, a 1, and BIP 173 letters for the version, the bits of the program five by five with less than five zero bits added, and six symbols that leave the published remainder when the whole is divided by the published polynomial over the field with 32 elements (1 for version 0, the constant of BIP 350 for others). What is read as an address is such a text in one letter case, and every such text is read.", "quantifier": "all human readable parts, versions, programs and strings", "why_tests_cant": "the register works with shifts and xor of constants; agreement with division of polynomials for all words and lengths is not visible in test vectors", "anchors": ["elementstx/wallet.py:296-492", "elementstx/liquid_addr.py:blech32_polymod", "elementstx/liquid_addr.py:blech32_verify_checksum", "elementstx/liquid_addr.py:decode"]}
{"id": "C109", "title": "Up to three wrong letters in a segwit address without blinding key are noticed", "statement": "Two segwit addresses without blinding key of one length that are read under one human readable part with the same checksum variant and differ in more than letter case differ in at least four characters. So an address in which one to three characters are replaced by other letters is refused, unless the version letter moves it to the other variant.", "quantifier": "all human readable parts, addresses and replacements", "why_tests_cant": "the number of ways to change three of ninety letters is beyond testing for even a single address", "anchors": ["elementstx/wallet.py:296-492", "elementstx/liquid_addr.py:blech32_polymod", "elementstx/liquid_addr.py:blech32_verify_checksum", "elementstx/liquid_addr.py:decode"]}
{"id": "C110", "title": "Errors next to each other in an address are noticed", "statement": "If the text of a confidential segwit address is changed, in more than letter case, only within twelve characters in a row, it is not read as an address under the same human readable part, unless the version letter moves it to the other checksum variant. For segwit addresses without blinding key the same holds within six characters in a row.", "quantifier": "all human readable parts, addresses, windows and replacements", "why_tests_cant": "32^12 ways to fill one window of one address", "anchors": ["elementstx/liquid_addr.py:blech32_polymod", "elementstx/liquid_addr.py:blech32_verify_checksum", "elementstx/liquid_addr.py:decode", "elementstx/wallet.py:296-492"]}
{"id": "C111", "title": "One to three wrong letters in a confidential segwit address are always noticed", "statement": "If one, two or three characters of the text of a confidential segwit address are replaced by other letters, the version letter included, the result is not read as an address under the same human readable part. For segwit addresses without blinding key the same holds for one character.", "quantifier": "all human readable parts, versions, addresses and replacements", "why_tests_cant": "31^3 replacements at all triples of places of all addresses, and the two checksum variants together", "anchors": ["elementstx/liquid_addr.py:blech32_polymod", "elementstx/liquid_addr.py:blech32_verify_checksum", "elementstx/liquid_addr.py:decode", "elementstx/wallet.py:296-492"]}
