{
 "claims": [
  {
   "property": "C01",
   "status": "proved",
   "theorems": [
    "Verif.C01_confidential_roundtrip"
   ],
   "note": ""
  },
  {
   "property": "C02",
   "status": "proved",
   "theorems": [
    "Verif.C02_confidential_canonical",
    "Verif.C02_confidential_markers"
   ],
   "note": ""
  },
  {
   "property": "C03",
   "status": "proved",
   "theorems": [
    "Verif.C03_exclusive",
    "Verif.C03_constructor",
    "Verif.C03_invalid_constructible"
   ],
   "note": "C03_invalid_constructible: the constructor accepts content that is not is_valid()."
  },
  {
   "property": "C04",
   "status": "proved",
   "theorems": [
    "Verif.C04_value_from_amount",
    "Verif.C04_value_to_amount",
    "Verif.C04_amount_recovered",
    "Verif.C04_asset_recovered"
   ],
   "note": ""
  },
  {
   "property": "C05",
   "status": "proved",
   "theorems": [
    "Verif.C05_roundtrip",
    "Verif.C05_roundtrip_no_witness",
    "Verif.C05_short_witness_breaks"
   ],
   "note": "Stated as an iff: exactly the well-formed transactions round-trip. C05_short_witness_breaks shows why full-length witness vectors are required."
  },
  {
   "property": "C06",
   "status": "proved",
   "theorems": [
    "Verif.C06_grammar"
   ],
   "note": ""
  },
  {
   "property": "C07",
   "status": "proved",
   "theorems": [
    "Verif.C07_prefix_free",
    "Verif.C07_serialized"
   ],
   "note": ""
  },
  {
   "property": "C08",
   "status": "proved",
   "theorems": [
    "Verif.C08_normal_form",
    "Verif.C08_shortest"
   ],
   "note": ""
  },
  {
   "property": "C09",
   "status": "partial",
   "theorems": [
    "Verif.C09_index_written",
    "Verif.C09_index_roundtrip_partial",
    "Verif.C09_full_false",
    "Verif.C09_exact"
   ],
   "note": "The full claim is false for index 0x3fffffff on a peg-in with an issuance (C09_full_false); C09_index_roundtrip_partial covers every other input."
  },
  {
   "property": "C10",
   "status": "proved",
   "theorems": [
    "Verif.C10_ignores_witness",
    "Verif.C10_txid_commits",
    "Verif.C10_hidden_data"
   ],
   "note": "Collisions are exhibited at the two serializations; C10_hidden_data shows that well-formedness is needed."
  },
  {
   "property": "C100",
   "status": "proved",
   "theorems": [
    "Verif.C100_same",
    "Verif.C100_draws",
    "Verif.C100_goes"
   ],
   "note": "LooksLike says which requests cannot be told apart by what stays public. C100_draws: for any two of them the draws correspond one to one (as scalars), ephemeral keys and seeds being the same, so with uniform draws inputs and outputs are distributed in the same way as far as blinding succeeds. Canonical: a point that the library made has one serialization. What proofs in the witness tell is a matter of the library. C100_toy and an example of C100_goes show concrete cases."
  },
  {
   "property": "C101",
   "status": "proved",
   "theorems": [
    "Verif.C101_keeps_v0",
    "Verif.C101_breaks_v0",
    "Verif.C101_keeps_base",
    "Verif.C101_breaks_base",
    "Verif.C101_keeps_tap",
    "Verif.C101_breaks_tap",
    "Verif.C101_breaks_tap_acp",
    "Verif.C101_strict"
   ],
   "note": "Spares says which requests leave alone what a signature covers, Hit that something covered is no longer what it was. The keeping half has no premise on what blind() does (taproot: complete witness lists). The breaking half is for fields of wire sizes and, for witness v0 and legacy, for success. Collisions are shown and not assumed away. Examples: two outputs hidden, and an issued amount hidden."
  },
  {
   "property": "C102",
   "status": "proved",
   "theorems": [
    "Verif.C102_output",
    "Verif.C102_asked",
    "Verif.C102_issuance"
   ],
   "note": "Later is the transition system: calls of blindTransaction with any environment and arguments, and appending. Formats (asset commitments begin with 10 or 11) is needed of the libraries; value commitments are checked by the code. So an output that was left without proofs, or half written when an exception was raised, can be neither finished nor repaired. Examples: an output without surjection proof, and a hidden issuance."
  },
  {
   "property": "C103",
   "status": "proved",
   "theorems": [
    "Verif.C103_count"
   ],
   "note": "C33 says what a strict success has finished; this counts for every success, strict or not, from the transactions before and after. InputSizes is what deserialization guarantees. The example is a non-strict success with one output left without a proof: 3 asked, 2 reported."
  },
  {
   "property": "C104",
   "status": "proved",
   "theorems": [
    "Verif.CrossSwap.C104_asset",
    "Verif.CrossSwap.C104_coins",
    "Verif.CrossSwap.C104_unlocking",
    "Verif.SwapSpend.C104_claim",
    "Verif.SwapSpend.C104_reclaim"
   ],
   "note": "shortestPush is the rule of BIP 62, written apart from the pushData of the model. The claims about transactions need that signatures are not empty and that the revealing signature has at least two bytes after r. A key of one byte, which the example would take from the other side, makes a contract that is not shortest (shown)."
  },
  {
   "property": "C105",
   "status": "proved",
   "theorems": [
    "Verif.C105_only",
    "Verif.C105_exactly",
    "Verif.C105_issuance"
   ],
   "note": "Keyed is an idealisation of secp256k1-zkp, like the other promises: the real library keeps it up to negligible probability. C105_only also covers an output shown with other commitments or another script. The recipient's pubkey is assumed to belong to a key; nothing is claimed about who knows the keys. Examples: the output of a run is not opened by a different key, and an issued amount is opened by its key and not by another."
  },
  {
   "property": "C106",
   "status": "proved",
   "theorems": [
    "Verif.AddrText.C106_same",
    "Verif.AddrText.C106_all",
    "Verif.AddrText.C106_printed",
    "Verif.AddrText.C106_one"
   ],
   "note": "NodeReads describes DecodeDestination of Elements for the chains liquidv1 and elementsregtest. It does not look at whether the blinding pubkey is a point, and neither does the code when reading. Witness versions above 1 have no class in the code and are left out."
  },
  {
   "property": "C107",
   "status": "proved",
   "theorems": [
    "Verif.Receive.C107_received",
    "Verif.Receive.C107_only"
   ],
   "note": "Given: how the wallet makes the address; Pays: what the payer does with what was read. For C107_only different keys have different pubkeys (hinj). Clashing hashes are named. A whole run in the toy library: three coins paid and found, and the key of another address of the wallet fails."
  },
  {
   "property": "C108",
   "status": "proved",
   "theorems": [
    "Verif.Bech.C108_printed",
    "Verif.Bech.C108_read"
   ],
   "note": "The codec is that of python-bitcointx, a dependency whose source is not in the repository; it is the original from which liquid_addr.py was made and is modelled from BIP 173 and BIP 350, as for C88. Addresses of BIP 173 and BIP 350 are the example."
  },
  {
   "property": "C109",
   "status": "proved",
   "theorems": [
    "Verif.Bech.C109_distance",
    "Verif.Bech.C109_detects"
   ],
   "note": "BIP 173 also promises that four changed letters within 89 are noticed; that rests on a search of the authors and is not claimed here. As for C24, a changed version letter may move a text to the other checksum variant, which is left open. The codec is that of python-bitcointx, as for C88. Examples: an address of BIP 173 with one and with two letters changed."
  },
  {
   "property": "C11",
   "status": "proved",
   "theorems": [
    "Verif.C11_extended_iff",
    "Verif.C11_superfluous_rejected",
    "Verif.C11_wrong_length_refused"
   ],
   "note": ""
  },
  {
   "property": "C110",
   "status": "proved",
   "theorems": [
    "Verif.Bursts.C110_blech",
    "Verif.Bursts.C110_bech",
    "Verif.Bursts.C110_blech_detects",
    "Verif.Bursts.C110_bech_detects"
   ],
   "note": "Texts differ within a window when they have one length and agree, but for letter case, outside it; the window may reach into the human readable part. A changed version letter may move a text to the other checksum variant, as for C24. Examples: six letters of an address of BIP 173 changed, and two addresses that differ within seven in a row, which shows that six is the most."
  },
  {
   "property": "C111",
   "status": "proved",
   "theorems": [
    "Verif.OneTypo.C111_blech",
    "Verif.OneTypo.C111_bech",
    "Verif.OneTypo.C111_blech_refused",
    "Verif.OneTypo.C111_bech_refused"
   ],
   "note": "Closes for one to three letters (one without blinding key) the case that C24 and C109 leave open, in which a changed version letter moves the text to the other checksum variant. Four to six changed letters that include the version letter stay open there. Examples: the version letter changed, alone and with two others."
  },
  {
   "property": "C12",
   "status": "proved",
   "theorems": [
    "Verif.C12_num_issuances"
   ],
   "note": ""
  },
  {
   "property": "C13",
   "status": "proved",
   "theorems": [
    "Verif.C13_v0_all_commits",
    "Verif.C13_v0_all_commits_index",
    "Verif.C13_issuance_ambiguity"
   ],
   "note": "Equal digests give equal content or an exhibited collision."
  },
  {
   "property": "C14",
   "status": "proved",
   "theorems": [
    "Verif.C14_covered",
    "Verif.C14_free",
    "Verif.C14_free_script_witness_pegin",
    "Verif.C14_free_none",
    "Verif.C14_free_single",
    "Verif.C14_free_anyonecanpay",
    "Verif.C14_free_sequences"
   ],
   "note": ""
  },
  {
   "property": "C15",
   "status": "partial",
   "theorems": [
    "Verif.C15_total_partial",
    "Verif.C15_locktime_raises",
    "Verif.C15_statement_false"
   ],
   "note": "The full claim is false: the lock time is packed as a signed int, so locktimes of 2^31 and above raise (C15_locktime_raises). C15_total_partial covers all others."
  },
  {
   "property": "C16",
   "status": "proved",
   "theorems": [
    "Verif.C16_tap_commits"
   ],
   "note": ""
  },
  {
   "property": "C17",
   "status": "partial",
   "theorems": [
    "Verif.C17_tap_acp_commits_partial",
    "Verif.C17_proofs_ambiguous",
    "Verif.C17_proofs_statement_false",
    "Verif.C17_script_ambiguous",
    "Verif.C17_script_statement_false"
   ],
   "note": "Full claim false: script and rangeproofs are written without lengths; the negations are proved with witnesses valid for every hash function. The partial theorem needs equal lengths only when the signed input has an issuance."
  },
  {
   "property": "C18",
   "status": "proved",
   "theorems": [
    "Verif.C18_only_valid",
    "Verif.C18_iff",
    "Verif.C18_single_needs_output"
   ],
   "note": ""
  },
  {
   "property": "C19",
   "status": "proved",
   "theorems": [
    "Verif.C19_error_iff",
    "Verif.C19_hash",
    "Verif.C19_sighash_raises",
    "Verif.C19_sighash_ok",
    "Verif.C19_total",
    "Verif.C19_free"
   ],
   "note": "Non-negative input indices. The algorithm itself lives in python-bitcointx and is modelled from its published behaviour."
  },
  {
   "property": "C20",
   "status": "proved",
   "theorems": [
    "Verif.C20_pegout_iff",
    "Verif.C20_pegout_total",
    "Verif.C20_pegout_unique"
   ],
   "note": ""
  },
  {
   "property": "C21",
   "status": "proved",
   "theorems": [
    "Verif.C21_unspendable",
    "Verif.C21_min_value"
   ],
   "note": ""
  },
  {
   "property": "C22",
   "status": "proved",
   "theorems": [
    "Verif.C22_roundtrip",
    "Verif.C22_encode_iff",
    "Verif.C22_encode_total",
    "Verif.C22_text"
   ],
   "note": "Witness versions are natural numbers; CBlech32Data.from_bytes refuses negative ones."
  },
  {
   "property": "C23",
   "status": "proved",
   "theorems": [
    "Verif.C23_canonical",
    "Verif.C23_unique",
    "Verif.C23_text"
   ],
   "note": ""
  },
  {
   "property": "C24",
   "status": "proved",
   "theorems": [
    "Verif.C24_distance",
    "Verif.C24_raw",
    "Verif.C24_detects",
    "Verif.code_distance"
   ],
   "note": "BCH argument: the register evaluated at six consecutive powers of an element of order 1023, Vandermonde."
  },
  {
   "property": "C25",
   "status": "proved",
   "theorems": [
    "Verif.C25_hrp_unique",
    "Verif.C25_chains"
   ],
   "note": ""
  },
  {
   "property": "C26",
   "status": "proved",
   "theorems": [
    "Verif.C26_strict",
    "Verif.C26_refused"
   ],
   "note": ""
  },
  {
   "property": "C27",
   "status": "proved",
   "theorems": [
    "Verif.C27_nopad_iff",
    "Verif.C27_pad_iff",
    "Verif.C27_refused",
    "Verif.C27_roundtrip"
   ],
   "note": ""
  },
  {
   "property": "C28",
   "status": "partial",
   "theorems": [
    "Verif.C28_sound",
    "Verif.C28_iff_partial",
    "Verif.C28_refused",
    "Verif.C28_made_iff",
    "Verif.C28_exact",
    "Verif.C28_statement_false"
   ],
   "note": "Full claim false: with another chain's parameters selected, a concrete class builds an address of the selected chain (C28_statement_false). For any selected chain: which arguments are accepted (C28_made_iff), and the result turns back into the address exactly if its chain is the selected one (C28_exact). Class dispatch is python-bitcointx's and modelled from its documented behaviour."
  },
  {
   "property": "C29",
   "status": "proved",
   "theorems": [
    "Verif.C29_prefix_free",
    "Verif.C29_base58_unambiguous",
    "Verif.C29_base58_complete",
    "Verif.C29_blech32_chains",
    "Verif.C29_hrps_distinct",
    "Verif.C29_blech32_has_l"
   ],
   "note": "base58 and bech32 decoding are python-bitcointx's; base58 is modelled from the checked payload on."
  },
  {
   "property": "C30",
   "status": "proved",
   "theorems": [
    "Verif.C30_roundtrip",
    "Verif.C30_canonical",
    "Verif.C30_unique"
   ],
   "note": ""
  },
  {
   "property": "C31",
   "status": "partial",
   "theorems": [
    "Verif.C31_confidential",
    "Verif.C31_plain_partial",
    "Verif.C31_plain_statement_false"
   ],
   "note": "Proved for confidential classes. False for unconfidential ones: 32 bytes short of an output with an explicit asset."
  },
  {
   "property": "C32",
   "status": "proved",
   "theorems": [
    "Verif.C32_only_asked",
    "Verif.C32_counts"
   ],
   "note": "For every library behaviour, randomness and way of ending."
  },
  {
   "property": "C33",
   "status": "proved",
   "theorems": [
    "Verif.C33_strict",
    "Verif.C33_formats",
    "Verif.C33_alone"
   ],
   "note": "Strict success, with the exact exception (last output whose balancing factor is zero) part of the statement."
  },
  {
   "property": "C34",
   "status": "partial",
   "theorems": [
    "Verif.C34_balanced_partial",
    "Verif.C34_preserved",
    "Verif.C34_zero",
    "Verif.C34_statement_false",
    "Verif.C34_exact",
    "Verif.C34_exact_outputs"
   ],
   "note": "Full claim false: with a key for an input that issues nothing the last output gets a random factor though strict success is reported. Proved when keys belong to issuances and every requested output ended up committed; C34_zero gives the exact imbalance of the zero-factor case; C34_exact says for every success, strict or not and with any keys, that the result balances exactly if the returned factors add up to those of the inputs. The commitment group and the balancing function are promises of libsecp256k1-zkp (Pedersen)."
  },
  {
   "property": "C35",
   "status": "proved",
   "theorems": [
    "Verif.C35_factors",
    "Verif.C35_issuances"
   ],
   "note": ""
  },
  {
   "property": "C36",
   "status": "proved",
   "theorems": [
    "Verif.C36_unblinds",
    "Verif.C36_strict",
    "Verif.C36_descriptor"
   ],
   "note": "Promises of libsecp256k1-zkp are the hypotheses Formats and Rewinds."
  },
  {
   "property": "C37",
   "status": "proved",
   "theorems": [
    "Verif.C37_success_iff",
    "Verif.C37_asset_commitment",
    "Verif.C37_asset_explicit",
    "Verif.C37_no_asset",
    "Verif.C37_raises"
   ],
   "note": "For every library behaviour; success is characterised, not only bounded."
  },
  {
   "property": "C38",
   "status": "proved",
   "theorems": [
    "Verif.C38_refused",
    "Verif.C38_reported"
   ],
   "note": ""
  },
  {
   "property": "C39",
   "status": "partial",
   "theorems": [
    "Verif.C39_partial",
    "Verif.C39_statement_false"
   ],
   "note": "Full claim false: the missing surjection proof is noticed after the output was overwritten. Proved for everything the checking phase refuses."
  },
  {
   "property": "C40",
   "status": "partial",
   "theorems": [
    "Verif.C40_targets",
    "Verif.C40_targets_partial",
    "Verif.C40_statement_false",
    "Verif.C40_reissued_token_unbound",
    "Verif.C40_verified_partial"
   ],
   "note": "Full claim false: a reissuance with inflation keys uses a token left over from an earlier input. C40_targets says exactly which targets are used for every transaction; C40_targets_partial is the claim for transactions without reissued tokens, as an iff."
  },
  {
   "property": "C41",
   "status": "proved",
   "theorems": [
    "Verif.C41_ids_separated",
    "Verif.C41_ids_exist",
    "Verif.C41_formula",
    "Verif.C41_entropy_size"
   ],
   "note": ""
  },
  {
   "property": "C42",
   "status": "proved",
   "theorems": [
    "Verif.C42_foreign_refused",
    "Verif.C42_deterministic",
    "Verif.C42_script_specific",
    "Verif.C42_key_iff"
   ],
   "note": ""
  },
  {
   "property": "C43",
   "status": "partial",
   "theorems": [
    "Verif.C43_path",
    "Verif.C43_once",
    "Verif.C43_unique",
    "Verif.C43_source",
    "Verif.C43_setPath",
    "Verif.C43_getPath",
    "Verif.C43_single_partial",
    "Verif.C43_statement_false"
   ],
   "note": "Full claim false: when the library loads but creating its context raises, the next call loads it again. Proved for every history in which context creation does not fail that way."
  },
  {
   "property": "C44",
   "status": "partial",
   "theorems": [
    "Verif.C44_layout",
    "Verif.C44_accepts",
    "Verif.C44_refuses",
    "Verif.C44_in_blinding",
    "Verif.C44_statement_false"
   ],
   "note": "Full claim false: the constructor checks the total length of the blinding factor lists only. The layout, what is accepted and the results made by blinding are proved."
  },
  {
   "property": "C45",
   "status": "proved",
   "theorems": [
    "Verif.C45_ok",
    "Verif.C45_class",
    "Verif.C45_failure_new",
    "Verif.C45_success_new",
    "Verif.C45_bool",
    "Verif.C45_blind",
    "Verif.C45_unblind"
   ],
   "note": ""
  },
  {
   "property": "C46",
   "status": "partial",
   "theorems": [
    "Verif.C46_conf",
    "Verif.C46_inwit",
    "Verif.C46_outwit_partial",
    "Verif.C46_statement_false",
    "Verif.C46_exact"
   ],
   "note": "Full claim false: CElementsTxOutWitness keeps the bytearray it is given. Proved for confidential commitments and input witnesses, and for output witnesses made of bytes."
  },
  {
   "property": "C47",
   "status": "proved",
   "theorems": [
    "Verif.C47_content",
    "Verif.C47_serialize",
    "Verif.C47_exact",
    "Verif.C47_null",
    "Verif.C47_succeeds",
    "Verif.C47_updates",
    "Verif.C47_inplace_partial",
    "Verif.C47_inplace_statement_false"
   ],
   "note": "Field updates of any kind, both directions. The extension to bytearrays changed in place is false because of C46 and proved when output witnesses hold bytes."
  },
  {
   "property": "C48",
   "status": "partial",
   "theorems": [
    "Verif.C48_v0_layout_partial",
    "Verif.C48_statement_false",
    "Verif.C48_null_amount",
    "Verif.C48_exact"
   ],
   "note": "Full claim false: lock times of 2^31 and more raise, and a null amount writes nothing where a zero byte is expected. Proved for every other call. The reference layout is written from BIP143 and the Elements source from memory."
  },
  {
   "property": "C49",
   "status": "partial",
   "theorems": [
    "Verif.C49_tap_layout",
    "Verif.C49_tap_layout_partial",
    "Verif.C49_annex_longer",
    "Verif.C49_acp_shorter",
    "Verif.C49_statement_false"
   ],
   "note": "Full claim false with an annex or under ANYONECANPAY: length prefixes are swapped. C49_tap_layout characterises what is hashed for every call; C49_tap_layout_partial is conformance without annex and ANYONECANPAY. The reference layout is written from BIP341/342 and the Elements source from memory."
  },
  {
   "property": "C50",
   "status": "proved",
   "theorems": [
    "Verif.C50_leaf",
    "Verif.C50_commits_script"
   ],
   "note": ""
  },
  {
   "property": "C51",
   "status": "partial",
   "theorems": [
    "Verif.C51_range_partial",
    "Verif.C51_negative_alias",
    "Verif.C51_negative_single",
    "Verif.C51_statement_false"
   ],
   "note": "Full claim false: index -1 signs the last input. Proved for the exact range of refused indices; the alias is characterised."
  },
  {
   "property": "C52",
   "status": "proved",
   "theorems": [
    "Verif.C52_drawn_once",
    "Verif.C52_distinct"
   ],
   "note": ""
  },
  {
   "property": "C53",
   "status": "partial",
   "theorems": [
    "Verif.C53_token_partial",
    "Verif.C53_statement_false",
    "Verif.C53_exact",
    "Verif.C53_credited",
    "Verif.C53_offered"
   ],
   "note": "Full claim false: with a key for the issued amount only, the surjection targets have the token of an explicit issuance but the network credits that of a confidential one. Proved for inputs with both keys or none; C53_exact: for those and no others, unless the other token is itself among the targets."
  },
  {
   "property": "C54",
   "status": "partial",
   "theorems": [
    "Verif.C54_survives_partial",
    "Verif.C54_recipient_partial",
    "Verif.C54_statement_false",
    "Verif.C54_exact",
    "Verif.C54_hidden",
    "Verif.C54_opens"
   ],
   "note": "Full claim false: without an input witness list blinding leaves output witnesses only, which serialize writes and deserialize cannot read. Proved for complete witness lists; C54_exact says which transactions survive at all, C54_hidden which blinded ones do in terms of the arguments, C54_opens that the recipients of every surviving one can unblind."
  },
  {
   "property": "C55",
   "status": "partial",
   "theorems": [
    "Verif.C55_redeem_partial",
    "Verif.C55_script_determines",
    "Verif.C55_pays",
    "Verif.C55_statement_false"
   ],
   "note": "Full claim false: the confidential class returns the scriptPubKey. Proved: it agrees exactly for P2PKH; scripts determine kind and hash, and a node lets exactly the named party spend them."
  },
  {
   "property": "C56",
   "status": "partial",
   "theorems": [
    "Verif.C56_prefix_partial",
    "Verif.C56_unambiguous_partial",
    "Verif.C56_statement_false"
   ],
   "note": "Full claim false: secret keys of both chains have prefix 239. Proved for every other pair of classes."
  },
  {
   "property": "C57",
   "status": "partial",
   "theorems": [
    "Verif.C57_opening",
    "Verif.C57_spend_partial",
    "Verif.C57_stands",
    "Verif.C57_exact",
    "Verif.C57_exact_outputs",
    "Verif.C57_statement_false"
   ],
   "note": "First half in full. Second half false on mere success: hidden inputs spent into explicit outputs only are reported as success. Proved with one output to hide, all asked outputs hidden, keys for issuances only. C57_exact: with amounts that balance, the spend balances against the outputs on the chain exactly if the returned factors add up to those got from unblinding."
  },
  {
   "property": "C58",
   "status": "partial",
   "theorems": [
    "Verif.C58_reads_back_partial",
    "Verif.C58_statement_false"
   ],
   "note": "exact set of objects that read back; the claim is false of explicit assets and issuances"
  },
  {
   "property": "C59",
   "status": "partial",
   "theorems": [
    "Verif.C59_objects",
    "Verif.C59_issuances",
    "Verif.C59_inputs_partial",
    "Verif.C59_same_shape_partial",
    "Verif.C59_outputs",
    "Verif.C59_statement_false"
   ],
   "note": "fields, witnesses, outputs in full; inputs up to the present parts of their issuances; the claim is false of inputs"
  },
  {
   "property": "C60",
   "status": "partial",
   "theorems": [
    "Verif.C60_str_partial",
    "Verif.C60_statement_false"
   ],
   "note": "what str shows of every field; the claim is false of absent fields"
  },
  {
   "property": "C61",
   "status": "proved",
   "theorems": [
    "Verif.C61_got_to",
    "Verif.C61_output_proof",
    "Verif.C61_issuance_proof"
   ],
   "note": "every way of ending, for inputs of regular sizes"
  },
  {
   "property": "C62",
   "status": "partial",
   "theorems": [
    "Verif.C62_blind_partial",
    "Verif.C62_unblind",
    "Verif.C62_blind_statement_false"
   ],
   "note": "unblinding in full; blinding for random sources that return 32 bytes; the claim is false of others"
  },
  {
   "property": "C63",
   "status": "proved",
   "theorems": [
    "Verif.C63_made",
    "Verif.C63_true"
   ],
   "note": "C63_true: with a library that keeps the promises Pedersen and InitMatches"
  },
  {
   "property": "C64",
   "status": "proved",
   "theorems": [
    "Verif.C64_handle",
    "Verif.C64_refines",
    "Verif.C64_calls"
   ],
   "note": ""
  },
  {
   "property": "C65",
   "status": "proved",
   "theorems": [
    "Verif.C65_elements",
    "Verif.C65_bitcoin",
    "Verif.C65_unlock",
    "Verif.C65_witness",
    "Verif.C65_early"
   ],
   "note": "against a specification of the script interpreter for the opcodes used"
  },
  {
   "property": "C66",
   "status": "partial",
   "theorems": [
    "Verif.C66_recovers_partial",
    "Verif.C66_claim",
    "Verif.C66_hidden",
    "Verif.C66_zero",
    "Verif.C66_buried",
    "Verif.C66_statement_false"
   ],
   "note": "recovery for claims of the shape the example makes and every key but one; the claim is false: three ways to claim without revealing"
  },
  {
   "property": "C67",
   "status": "partial",
   "theorems": [
    "Verif.C67_safe_partial",
    "Verif.C67_refund",
    "Verif.C67_bob",
    "Verif.C67_waits",
    "Verif.C67_late",
    "Verif.C67_last",
    "Verif.C67_statement_false"
   ],
   "note": "refund and Bob's side in full; safety for claims that come in time; the claim is false for every choice of timeouts"
  },
  {
   "property": "C68",
   "status": "proved",
   "theorems": [
    "Verif.C68_field",
    "Verif.C68_null",
    "Verif.C68_null_read",
    "Verif.C68_fee_answers",
    "Verif.C68_fee",
    "Verif.C68_exclusive",
    "Verif.C68_in_witness",
    "Verif.C68_out_witness",
    "Verif.C68_witness",
    "Verif.C68_issuance"
   ],
   "note": ""
  },
  {
   "property": "C69",
   "status": "proved",
   "theorems": [
    "Verif.C69_prefix",
    "Verif.C69_rewritten"
   ],
   "note": "for human readable parts of at most five characters, which covers el, lq, ert and tlq"
  },
  {
   "property": "C70",
   "status": "proved",
   "theorems": [
    "Verif.C70_joint",
    "Verif.C70_blocked"
   ],
   "note": ""
  },
  {
   "property": "C71",
   "status": "partial",
   "theorems": [
    "Verif.AssetSwap.C71_alice",
    "Verif.AssetSwap.C71_pays",
    "Verif.AssetSwap.C71_bob_begins",
    "Verif.AssetSwap.C71_bob",
    "Verif.AssetSwap.C71_final",
    "Verif.AssetSwap.C71_fee",
    "Verif.AssetSwap.C71_fee_stops",
    "Verif.AssetSwap.C71_balanced_partial",
    "Verif.AssetSwap.C71_balanced_statement_false",
    "Verif.AssetSwap.C71_claim",
    "Verif.AssetSwap.C71_claim_pays",
    "Verif.AssetSwap.C71_claim_balanced_partial",
    "Verif.AssetSwap.C71_claim_same",
    "Verif.AssetSwap.C71_claim_short",
    "Verif.AssetSwap.C71_checked",
    "Verif.AssetSwap.C71_alice_accepts",
    "Verif.AssetSwap.C71_bob_accepts",
    "Verif.AssetSwap.C71_final_statement_false",
    "Verif.AssetSwap.C71_alice_paid_statement_false",
    "Verif.AssetSwap.C71_bob_paid_statement_false"
   ],
   "note": "all but balance in full; balance if the change (or the last output claimed back) was hidden, without that it is false, see C34. What either side might also expect, that the outputs go to the addresses sent to the other side, is false: no script is checked."
  },
  {
   "property": "C72",
   "status": "partial",
   "theorems": [
    "Verif.SpendAddr.C72_printed",
    "Verif.SpendAddr.C72_recipient",
    "Verif.SpendAddr.C72_refused",
    "Verif.SpendAddr.C72_balanced_partial",
    "Verif.SpendAddr.C72_exact",
    "Verif.SpendAddr.C72_statement_false"
   ],
   "note": "all but balance in full; balance under the two conditions of the statement; without them it is false: the script never compares the fee asset with the asset it spends; C72_exact: with everything hidden that was to be, it balances exactly if the fee is worth the same in both assets"
  },
  {
   "property": "C73",
   "status": "proved",
   "theorems": [
    "Verif.C73_goes"
   ],
   "note": "conditions in Spec/BlindGoes; the promises about the library (Works) are shown to be kept by the toy library"
  },
  {
   "property": "C74",
   "status": "partial",
   "theorems": [
    "Verif.UnblindEx.C74_told_partial",
    "Verif.UnblindEx.C74_ends_partial",
    "Verif.UnblindEx.C74_recipient",
    "Verif.UnblindEx.C74_statement_false"
   ],
   "note": "what is told is right, up to the first output that cannot be told about, with the exact condition; that every output is told about is false: unspendable data has no address"
  },
  {
   "property": "C75",
   "status": "partial",
   "theorems": [
    "Verif.C75_blind_partial",
    "Verif.C75_found",
    "Verif.C75_strict",
    "Verif.C75_unblind",
    "Verif.C75_statement_false"
   ],
   "note": "unblinding in full; blinding in the words of the code; that the number of the input is always told is false: two texts keep a literal %d"
  },
  {
   "property": "C76",
   "status": "proved",
   "theorems": [
    "Verif.SwapSpend.C76_claim",
    "Verif.SwapSpend.C76_reclaim",
    "Verif.SwapSpend.C76_claim_unlocks",
    "Verif.SwapSpend.C76_reclaim_unlocks",
    "Verif.SwapSpend.C76_reveals",
    "Verif.SwapSpend.C76_claim_goes",
    "Verif.SwapSpend.C76_reclaim_goes"
   ],
   "note": "Alice does not check the amount of the deposit: balance of the reclaim is conditional, and SwapSpend.Toy.unbalanced shows that the condition is needed"
  },
  {
   "property": "C77",
   "status": "proved",
   "theorems": [
    "Verif.SwapBtc.C77_checks",
    "Verif.SwapBtc.C77_found",
    "Verif.SwapBtc.C77_claim",
    "Verif.SwapBtc.C77_honest",
    "Verif.SwapBtc.C77_reclaim",
    "Verif.SwapBtc.C77_reclaim_goes"
   ],
   "note": "the signature hash of Bitcoin transactions is abstract; SwapBtc.Toy.swapped is a swap that goes through"
  },
  {
   "property": "C78",
   "status": "partial",
   "theorems": [
    "Verif.SwapWatch.C78_first",
    "Verif.SwapWatch.C78_finds_partial",
    "Verif.SwapWatch.C78_statement_false"
   ],
   "note": "what is found is the first transaction that spends any output of the deposit transaction; that it spends the contract output is false: the change of Alice's own wallet is enough to mislead"
  },
  {
   "property": "C79",
   "status": "partial",
   "theorems": [
    "Verif.SwapRun.C79_alice",
    "Verif.SwapRun.C79_bob",
    "Verif.SwapRun.C79_alice_ends",
    "Verif.SwapRun.C79_bob_ends",
    "Verif.SwapRun.C79_alice_why",
    "Verif.SwapRun.C79_bob_why",
    "Verif.SwapRun.C79_back_partial",
    "Verif.SwapRun.C79_back_bob_partial",
    "Verif.SwapRun.C79_backed_false",
    "Verif.SwapRun.C79_backed_bob_false",
    "Verif.SwapRun.C79_statement_false"
   ],
   "note": "that whoever has paid and stops has sent the reclaim is false while the deposit is not in a block: the last wish then raises KeyError and is not tried again; proved when the answers carry confirmations"
  },
  {
   "property": "C80",
   "status": "partial",
   "theorems": [
    "Verif.AssetRun.C80_alice",
    "Verif.AssetRun.C80_bob",
    "Verif.AssetRun.C80_alice_ends",
    "Verif.AssetRun.C80_bob_ends",
    "Verif.AssetRun.C80_back_partial",
    "Verif.AssetRun.C80_statement_false"
   ],
   "note": "that Alice takes everything back when Bob has the signatures and the swap does not come about is false if Bob's last message is 'bye!': recv calls sys.exit and SystemExit is not caught by 'except Exception'; proved for all other last messages"
  },
  {
   "property": "C81",
   "status": "partial",
   "theorems": [
    "Verif.Opcodes.C81_reads_partial",
    "Verif.Opcodes.C81_apart_partial",
    "Verif.Opcodes.C81_iterates",
    "Verif.Opcodes.C81_exact",
    "Verif.Opcodes.C81_one_reading",
    "Verif.Opcodes.C81_written",
    "Verif.Opcodes.C81_statement_false"
   ],
   "note": "false for OP_DETERMINISTICRANDOM, which has the value of OP_CHECKSIGFROMSTACK; proved for all scripts without it"
  },
  {
   "property": "C82",
   "status": "proved",
   "theorems": [
    "Verif.ChainParams.C82_datadir",
    "Verif.ChainParams.C82_liquid_named",
    "Verif.ChainParams.C82_apart",
    "Verif.ChainParams.C82_registered"
   ],
   "note": "registration of the classes and NAME are those of python-bitcointx"
  },
  {
   "property": "C83",
   "status": "proved",
   "theorems": [
    "Verif.SwapRun.C83_bob_pays",
    "Verif.SwapRun.C83_alice_pays",
    "Verif.SwapRun.C83_bob_claims",
    "Verif.SwapRun.C83_alice_claims",
    "Verif.SwapRun.C83_done"
   ],
   "note": "the pipe delivers only what was sent; nothing is assumed about order or about the nodes"
  },
  {
   "property": "C84",
   "status": "proved",
   "theorems": [
    "Verif.AssetRun.C84_bob_signs",
    "Verif.AssetRun.C84_bob_publishes",
    "Verif.AssetRun.C84_alice_publishes",
    "Verif.AssetRun.C84_alice_done",
    "Verif.AssetRun.C84_bob_done"
   ],
   "note": "the pipe delivers only what was sent; both use the same library, whose commitments and proofs have the sizes of the wire format; output indices below 2^30"
  },
  {
   "property": "C85",
   "status": "proved",
   "theorems": [
    "Verif.AssetPair.C85_bob_signs",
    "Verif.AssetPair.C85_bob_publishes",
    "Verif.AssetPair.C85_alice_publishes",
    "Verif.AssetPair.C85_alice_done",
    "Verif.AssetPair.C85_bob_done",
    "Verif.AssetPair.C85_ends",
    "Verif.AssetPair.C85_goes"
   ],
   "note": "as C84, for every reachable state of the two processes"
  },
  {
   "property": "C86",
   "status": "proved",
   "theorems": [
    "Verif.SwapPair.C86_bob_pays",
    "Verif.SwapPair.C86_alice_pays",
    "Verif.SwapPair.C86_bob_claims",
    "Verif.SwapPair.C86_alice_claims",
    "Verif.SwapPair.C86_done",
    "Verif.SwapPair.C86_ends",
    "Verif.SwapPair.C86_goes"
   ],
   "note": "as C83, for every reachable state of the two processes; the two unbounded loops of the code have any finite number of turns in the model"
  },
  {
   "property": "C87",
   "status": "partial",
   "theorems": [
    "Verif.SwapRun.C87_bob_partial",
    "Verif.SwapRun.C87_alice_partial",
    "Verif.SwapRun.C87_bob_done",
    "Verif.SwapRun.C87_alice_done",
    "Verif.SwapRun.C87_bob_order",
    "Verif.SwapRun.C87_alice_order",
    "Verif.SwapRun.Toy.C87_statement_false"
   ],
   "note": "false if the claim is accepted but not seen confirmed: the last wish takes back too; proved when it is seen confirmed, and that nobody claims after taking back"
  },
  {
   "property": "C88",
   "status": "proved",
   "theorems": [
    "Verif.AddrText.C88_encode",
    "Verif.AddrText.C88_decode",
    "Verif.AddrText.C88_base58",
    "Verif.AddrText.C88_prints",
    "Verif.AddrText.C88_apart",
    "Verif.AddrText.C88_one",
    "Verif.AddrText.C88_reads",
    "Verif.AddrText.C88_classes",
    "Verif.Bech.C88_standard",
    "Verif.Bech.C88_all"
   ],
   "note": "base58 and bech32 of python-bitcointx are modelled (C88_standard is what the other theorems ask of bech32), the hash of the checksum is any function to 32 bytes"
  },
  {
   "property": "C89",
   "status": "partial",
   "theorems": [
    "Verif.BlechClass.C89_from_bytes",
    "Verif.BlechClass.C89_reads_partial",
    "Verif.BlechClass.C89_sound",
    "Verif.BlechClass.C89_str",
    "Verif.BlechClass.C89_back",
    "Verif.BlechClass.C89_wallet",
    "Verif.BlechClass.C89_statement_false"
   ],
   "note": "with one candidate and no _data_length the refusal of an unexpected version ends in AttributeError; whether a class of the wallet comes to this depends on the class dispatch of python-bitcointx"
  },
  {
   "property": "C90",
   "status": "partial",
   "theorems": [
    "Verif.C90_distinct",
    "Verif.C90_reached_partial",
    "Verif.C90_one",
    "Verif.C90_twice",
    "Verif.C90_statement_false"
   ],
   "note": "an output object listed again at a position without pubkey is changed there too; proved that only objects listed at a position with a key change, and that an object with keys at two positions makes the call raise (no issuance being blinded)"
  },
  {
   "property": "C91",
   "status": "partial",
   "theorems": [
    "Verif.Ffi.C91_declared",
    "Verif.Ffi.C91_results_partial",
    "Verif.Ffi.C91_results_statement_false",
    "Verif.Ffi.C91_size",
    "Verif.Ffi.C91_exact",
    "Verif.Ffi.C91_statement_false",
    "Verif.Ffi.C91_refused",
    "Verif.Ffi.C91_wraps",
    "Verif.Ffi.C91_blind",
    "Verif.Ffi.C91_unblind",
    "Verif.Ffi.C91_bits"
   ],
   "note": "The full statements are refuted: the result type of secp256k1_surjectionproof_serialized_size (C91_results_statement_false) and bytearray arguments (C91_statement_false). C91_exact says exactly which calls reach the library as meant, at every call site; C91_declared covers the parameters of all declared functions, C91_results_partial the results of all but that one, C91_size from which size on it matters. C91_blind and C91_unblind: whole runs with every call made through ctypes are those with the functions called directly, together with the buffer sizes of C62; C91_bits and C91_wraps say what happens to exponents and bit counts that do not fit a C int."
  },
  {
   "property": "C92",
   "status": "partial",
   "theorems": [
    "Verif.C92_exact",
    "Verif.C92_goes",
    "Verif.C92_accepted_partial",
    "Verif.C92_statement_false"
   ],
   "note": "The full statement is refuted by a stray issuance key (C92_statement_false). C92_exact: for a ready transaction, strictly blinded, with every requested output hidden, the node accepts exactly what balances; C92_accepted_partial adds the conditions of C34 under which it does balance; C92_goes goes from the arguments alone to a hidden and accepted transaction, for sensible arguments and a working library. The node is a specification (Spec/Node.lean) written after VerifyAmounts of Elements, which is not part of /repo."
  },
  {
   "property": "C93",
   "status": "proved",
   "theorems": [
    "Verif.C93_joint",
    "Verif.AssetSwap.C93_swap",
    "Verif.AssetSwap.C93_claim"
   ],
   "note": "Turns are those of C70 (C70_joint); Offered adds that everybody was told the true asset commitments of what the others spend. C93_swap and C93_claim apply it to the model of examples/asset-atomic-swap.py; the condition that the change is hidden is that of C71 and C34. The node is the specification of C92."
  },
  {
   "property": "C94",
   "status": "proved",
   "theorems": [
    "Verif.C94_spent",
    "Verif.C94_again",
    "Verif.SpendAddr.C94_spend",
    "Verif.SwapSpend.C94_claim",
    "Verif.SwapSpend.C94_reclaim"
   ],
   "note": "RewindExact: rewinding ends with making the commitment anew and comparing, as the C library does. The conditions of C94_spend are those C72 shows the code not to check (fee asset) and that of C34. The node is the specification of C92."
  },
  {
   "property": "C95",
   "status": "proved",
   "theorems": [
    "Verif.AssetSwap.C95_made",
    "Verif.AssetSwap.C95_accepted"
   ],
   "note": "Owned, Receives, AllWorks and the Lucky conditions (random numbers are usable and none equals an asset blinding factor of an input; the selection for each surjection proof finds the asset) say what is assumed. C95_made composes C73 (blinding goes through), C71 (checks accept) and totality of signing; C95_accepted adds C93."
  },
  {
   "property": "C96",
   "status": "partial",
   "theorems": [
    "Verif.AssetPair.C96_goes_partial",
    "Verif.AssetPair.C96_swaps_partial",
    "Verif.AssetPair.C96_ends",
    "Verif.AssetPair.C96_real",
    "Verif.AssetPair.C96_race",
    "Verif.AssetPair.C96_statement_false"
   ],
   "note": "The full claim is false of the code: Bob sends the final transaction to Alice before giving it to the node (lines 571-573), and the exception of a node that has it in the chain already is not caught; C96_race constructs such a run for every honest pair and C96_statement_false instantiates it. The _partial theorems assume that a good transaction is never refused. C96_real is what holds with real nodes: Alice always finishes with the swap confirmed, and Bob finishes or stops with that exception."
  },
  {
   "property": "C97",
   "status": "proved",
   "theorems": [
    "Verif.AssetSwap.C97_made",
    "Verif.AssetSwap.C97_accepted",
    "Verif.AssetRun.C97_back"
   ],
   "note": "That Bob does not say bye instead of sending the final transaction is part of the claim: recv then exits and nothing is taken back, see C80_statement_false."
  },
  {
   "property": "C98",
   "status": "proved",
   "theorems": [
    "Verif.SwapPair.C98_always",
    "Verif.SwapPair.C98_ends",
    "Verif.SwapPair.C98_swaps"
   ],
   "note": "Scene.Honest and Scene.node say what is assumed of participants, library, chain and nodes. What is confirmed for one node is so for the other (a node that lags behind would make Alice or Bob stop, as the code takes the unconfirmed transaction for a failure). C98_always with C98_ends: every maximal run is finite and ends with the swap done."
  },
  {
   "property": "C99",
   "status": "partial",
   "theorems": [
    "Verif.CrossSwap.C99_coins",
    "Verif.CrossSwap.C99_asset",
    "Verif.CrossSwap.C99_relayed",
    "Verif.SwapSpend.C99_claim_unlocks",
    "Verif.SwapSpend.C99_reclaim_unlocks",
    "Verif.SwapBtc.C99_back_unlocks",
    "Verif.SwapBtc.C99_coins_unlock",
    "Verif.SwapRun.C99_alice",
    "Verif.SwapRun.C99_bob",
    "Verif.SwapRun.C99_pays_partial",
    "Verif.SwapRun.C99_statement_false"
   ],
   "note": "that Alice pays only against bitcoins that can be claimed is false: Bob's exit key is put into the contract without a check, and with 521 bytes or more (up to the 10000 of a contract) no node lets anybody spend; proved for at most 520 bytes, with the exact condition. Taking back is proved for both against any counterparty. Relayed is what nodes ask of witness scripts before they pass a transaction on (3600 bytes, 100 items, MINIMALIF)"
  }
 ]
}