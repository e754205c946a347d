{
 "claims": [
  {
   "property": "C01",
   "status": "proved",
   "theorems": [
    "Berts.Props.C01_iteration_inverts_utf16",
    "Berts.Props.C01_iteration_repairs",
    "Berts.Props.C01_iteration_skips",
    "Berts.Props.C01_units_lossless"
   ],
   "note": "full"
  },
  {
   "property": "C02",
   "status": "partial",
   "theorems": [
    "Berts.Props.C02_eq_iff",
    "Berts.Props.C02_cmp_lexicographic",
    "Berts.Props.C02_cmp_agrees_with_eq",
    "Berts.Props.C02_cmp_swap",
    "Berts.Props.C02_cmp_trans",
    "Berts.Props.C02_equal_hash",
    "Berts.Props.C02_default_counterexample"
   ],
   "note": "Order, equality and hash laws proved for every initialised string. Refuted for default-constructed strings: their size field is never initialised (unicode.cpp:41), so == and <=> on them are undefined behaviour."
  },
  {
   "property": "C03",
   "status": "proved",
   "theorems": [
    "Berts.Props.C03_plus",
    "Berts.Props.C03_plusAssign",
    "Berts.Props.C03_copyAssign",
    "Berts.Props.C03_moveAssign"
   ],
   "note": "full, for initialised strings (see C02)"
  },
  {
   "property": "C04",
   "status": "partial",
   "theorems": [
    "Berts.Props.C04_counterexample",
    "Berts.Props.C04_startsWith_exact",
    "Berts.Props.C04_startsWith_partial",
    "Berts.Props.C04_endsWith_exact",
    "Berts.Props.C04_endsWith_partial"
   ],
   "note": "Refuted: memcmp is given a unit count as a byte count (unicode.cpp:463,471). Exact behaviour of starts_with characterised; completeness (true prefixes/suffixes are recognised) proved."
  },
  {
   "property": "C05",
   "status": "partial",
   "theorems": [
    "Berts.Props.C05_case_mapping_always_fails",
    "Berts.Props.C05_empty_counterexample",
    "Berts.Props.C05_case_mapping_partial"
   ],
   "note": "refuted for every string: C05_case_mapping_always_fails (non-empty) and C05_empty_counterexample (empty); the partial theorem covers only a mapping that deletes every character"
  },
  {
   "property": "C06",
   "status": "proved",
   "theorems": [
    "Berts.Props.C06_lstrip",
    "Berts.Props.C06_rstrip"
   ],
   "note": "full"
  },
  {
   "property": "C07",
   "status": "proved",
   "theorems": [
    "Berts.Props.C07_utf8_round_trip",
    "Berts.Props.C07_utf8_valid",
    "Berts.Props.C07_utf8_injective",
    "Berts.Props.C07_utf8_invalid"
   ],
   "note": "full; ICU's strict UTF-8 decoding is modelled by the standard definition"
  },
  {
   "property": "C08",
   "status": "proved",
   "theorems": [
    "Berts.Props.C08_split_partition",
    "Berts.Props.C08_split_matches",
    "Berts.Props.C08_split_exact"
   ],
   "note": "full, for any ordered non-overlapping match list"
  },
  {
   "property": "C09",
   "status": "proved",
   "theorems": [
    "Berts.Props.C09_lookup_entry",
    "Berts.Props.C09_lookup_other",
    "Berts.Props.C09_lookup_bytes",
    "Berts.Props.C09_search_string"
   ],
   "note": "full, for vocabularies of at most 2^32-1 entries (ids are 32-bit); on byte strings C09_search_string (ill-formed texts find nothing)"
  },
  {
   "property": "C10",
   "status": "proved",
   "theorems": [
    "Berts.Props.C10_prefix_search_fails",
    "Berts.Props.C10_prefix_search_longest"
   ],
   "note": "full"
  },
  {
   "property": "C11",
   "status": "partial",
   "theorems": [
    "Berts.Props.C11_split_concat",
    "Berts.Props.C11_split_exact",
    "Berts.Props.C11_split_partial",
    "Berts.Props.C11_counterexample",
    "Berts.Props.C11_string_partial",
    "Berts.Props.C11_string_counterexample"
   ],
   "note": "Refuted: found/rest are cut where the walk through the trie ends, not at the last match (trie.cpp:85-106). Exact condition proved (C11_split_exact); holds for prefix-closed vocabularies. On byte strings the cut is made between 16-bit units: where it falls inside a character, found and rest are empty strings (C11_string_counterexample, C11_string_partial)."
  },
  {
   "property": "C12",
   "status": "proved",
   "theorems": [
    "Berts.Props.C12_words",
    "Berts.Props.C12_split_at_blank",
    "Berts.Props.C12_removed",
    "Berts.Props.C12_one_word",
    "Berts.Props.C12_no_space",
    "Berts.Props.C12_no_basic_counterexample"
   ],
   "note": "full for the basic mode; in any mode words are non-empty and contain no space. Outside the property: without the basic mode unprintable characters above U+FFFF are truncated to 16 bits (C12_no_basic_counterexample)."
  },
  {
   "property": "C13",
   "status": "proved",
   "theorems": [
    "Berts.Props.C13_ideograph",
    "Berts.Props.C13_punct_separate",
    "Berts.Props.C13_punct_cut",
    "Berts.Props.C13_cut_unique"
   ],
   "note": "full: ideographs, separation of punctuation under all options, exact cut when folding is off (the cut is unique)."
  },
  {
   "property": "C14",
   "status": "partial",
   "theorems": [
    "Berts.Props.C14_reference_functional",
    "Berts.Props.C14_greedy_partial",
    "Berts.Props.C14_prefix_closed_partial",
    "Berts.Props.C14_unknown_partial",
    "Berts.Props.C14_code_exact",
    "Berts.Props.C14_no_hashes",
    "Berts.Props.C14_overshoot_counterexample",
    "Berts.Props.C14_unknown_tail_counterexample"
   ],
   "note": "Refuted: (a) the rest of the word is cut where the trie walk ends, not after the match (C14_overshoot_counterexample); (b) a word that fails in its middle keeps its first pieces (C14_unknown_tail_counterexample). Proved for words where the look-ahead never overshoots, for all words if the vocabulary is prefix closed (then only (b) differs), and for words without a first piece. C14_code_exact describes exactly, for every vocabulary and list of words, what the code returns."
  },
  {
   "property": "C15",
   "status": "partial",
   "theorems": [
    "Berts.Props.C15_independent_partial",
    "Berts.Props.C15_leak_counterexample",
    "Berts.Props.C15_texts_partial"
   ],
   "note": "Refuted: the trie node is not reset after a failed word (C15_leak_counterexample). Proved for lists in which no word fails in its middle. For texts: independent if the first does not end with the unknown token."
  },
  {
   "property": "C16",
   "status": "partial",
   "theorems": [
    "Berts.Props.C16_valid_framed_partial",
    "Berts.Props.C16_special_in_range",
    "Berts.Props.C16_metadata_counterexample",
    "Berts.Props.C16_defined"
   ],
   "note": "Refuted for metadata ids, which the loader does not range check (C16_metadata_counterexample). Proved whenever cls/sep/unk are in range, which holds if they come from the vocabulary (C16_special_in_range). Also: tokenization of valid UTF-8 is defined."
  },
  {
   "property": "C17",
   "status": "partial",
   "theorems": [
    "Berts.Props.C17_words_lost_counterexample",
    "Berts.Props.C17_counterexample",
    "Berts.Props.C17_text_kept_partial",
    "Berts.Props.C17_accents_partial"
   ],
   "note": "Refuted for every text: with do_lower_case every unprotected word is dropped, because to_lower always fails (see C05) after the word was moved away. Proved: with folding off no text is dropped; accent stripping without lower-casing gives exactly the composed rest of the decomposed word."
  },
  {
   "property": "C18",
   "status": "partial",
   "theorems": [
    "Berts.Props.C18_protected",
    "Berts.Props.C18_own_id",
    "Berts.Props.C18_leak_counterexample"
   ],
   "note": "Pre-tokenization part proved in full (C18_protected); own id proved for the token alone (C18_own_id). Refuted in context: after a word that fails in its middle the special token is looked up in the wrong node (C18_leak_counterexample)."
  },
  {
   "property": "C19",
   "status": "partial",
   "theorems": [
    "Berts.Props.C19_terminates",
    "Berts.Props.C19_linear_partial",
    "Berts.Props.C19_linear_counterexample"
   ],
   "note": "Termination proved for everything (bound 9*len^2 iterations). The linear bound is proved without dropout (3*(len-1)) and refuted with dropout: skipped entries are pushed back after every accepted one (bpe.cpp:332-344)."
  },
  {
   "property": "C20",
   "status": "partial",
   "theorems": [
    "Berts.Props.C20_lossless_partial",
    "Berts.Props.C20_lossless_text_partial",
    "Berts.Props.C20_alias_counterexample"
   ],
   "note": "Proved for vocabularies with distinct ids, any dropout, any random stream. Refuted when two tokens share an id (load_vocab accepts that)."
  },
  {
   "property": "C21",
   "status": "proved",
   "theorems": [
    "Berts.Props.C21_normal"
   ],
   "note": "full, for every table and every queue behaviour"
  },
  {
   "property": "C22",
   "status": "partial",
   "theorems": [
    "Berts.Props.C22_reference_partial",
    "Berts.Props.C22_reference_unique",
    "Berts.Props.C22_deterministic_partial",
    "Berts.Props.C22_strings_partial",
    "Berts.Props.C22_alias_counterexample"
   ],
   "note": "Proved for vocabularies with distinct ids (also end to end on strings). Refuted when two tokens share an id: an outdated queue entry passes the new_id check (bpe.cpp:361-370)."
  },
  {
   "property": "C23",
   "status": "proved",
   "theorems": [
    "Berts.Props.C23_cache_invisible",
    "Berts.Props.C23_uncached",
    "Berts.Props.C23_cache_any_queue_partial"
   ],
   "note": "full; the variant with a different tie-breaking in each call additionally needs distinct ids"
  },
  {
   "property": "C24",
   "status": "proved",
   "theorems": [
    "Berts.Props.C24_full_dropout",
    "Berts.Props.C24_reachable",
    "Berts.Props.C24_full_dropout_tokens"
   ],
   "note": "full"
  },
  {
   "property": "C25",
   "status": "proved",
   "theorems": [
    "Berts.Props.C25_lookup",
    "Berts.Props.C25_success",
    "Berts.Props.C25_entries",
    "Berts.Props.C25_token_pairs"
   ],
   "note": "full, for vocabularies with distinct ids and lists of at most 2^32 pairs"
  },
  {
   "property": "C26",
   "status": "partial",
   "theorems": [
    "Berts.Props.C26_clear_partial",
    "Berts.Props.C26_clear_counterexample",
    "Berts.Props.C26_stale_load_counterexample"
   ],
   "note": "Lookups by token, merges and tokenization are cleared. Refuted for lookups by id: vocab_r is not cleared (bpe.cpp:115-118), and a later load can succeed because of it."
  },
  {
   "property": "C27",
   "status": "partial",
   "theorems": [
    "Berts.Props.C27_each",
    "Berts.Props.C27_fused_partial",
    "Berts.Props.C27_dropped",
    "Berts.Props.C27_merges_keep_unknown",
    "Berts.Props.C27_fused_counterexample"
   ],
   "note": "Non-fused, dropped and fused cases proved; the fused case needs that no text character has the unknown id (otherwise refuted: last_is compares ids, bpe.cpp:466)."
  },
  {
   "property": "C28",
   "status": "proved",
   "theorems": [
    "Berts.Props.C28_table",
    "Berts.Props.C28_alphabet",
    "Berts.Props.C28_recoverable"
   ],
   "note": "full"
  },
  {
   "property": "C29",
   "status": "partial",
   "theorems": [
    "Berts.Props.C29_id_to_token_iff",
    "Berts.Props.C29_id_to_token_partial",
    "Berts.Props.C29_token_to_id_partial",
    "Berts.Props.C29_round_trip_partial",
    "Berts.Props.C29_decode_counterexample"
   ],
   "note": "Exact characterisation: id_to_token is right iff all bytes are outside {0x7f, 0x80-0xa0, 0xad}; elsewhere refuted (roberta.cpp:109-117 keeps the low byte of the character instead of inverting the table). token_to_id proved for unsigned char, or ASCII with signed char."
  },
  {
   "property": "C30",
   "status": "partial",
   "theorems": [
    "Berts.Props.C30_encode_iff",
    "Berts.Props.C30_token_to_id_iff",
    "Berts.Props.C30_tokenize_partial",
    "Berts.Props.C30_signed_counterexample"
   ],
   "note": "Exact condition for the table lookups (unsigned char, or ASCII). tokenize defined under that condition for ASCII special tokens. Refuted for signed char: negative index (roberta.cpp:122, 337)."
  },
  {
   "property": "C31",
   "status": "partial",
   "theorems": [
    "Berts.Props.C31_split_partial",
    "Berts.Props.C31_order",
    "Berts.Props.C31_terminates_iff",
    "Berts.Props.C31_hang_counterexample"
   ],
   "note": "Proved whenever the empty string is not a special token, and the condition is shown necessary. Refuted end to end: metadata with an unknown pad id makes the empty string special; tokenize never returns."
  },
  {
   "property": "C32",
   "status": "partial",
   "theorems": [
    "Berts.Props.C32_spelled_partial",
    "Berts.Props.C32_lossless_partial",
    "Berts.Props.C32_lossy_counterexample"
   ],
   "note": "The entries of the ids spell the text in the byte alphabet (signed char: ASCII texts). The strings from id_to_token concatenate to the text for safe bytes, refuted for 0x7f (consequence of C29)."
  },
  {
   "property": "C33",
   "status": "partial",
   "theorems": [
    "Berts.Props.C33_positions_partial",
    "Berts.Props.C33_length",
    "Berts.Props.C33_distinct_partial",
    "Berts.Props.C33_wrap_counterexample",
    "Berts.Props.C33_iff",
    "Berts.Props.C33_exact"
   ],
   "note": "Exact condition (C33_iff): positions are right iff pad_id + number of non-pad tokens < 2^31 (or only pads); what is computed otherwise is C33_exact (modulo 2^32, signed). Refuted for pad_id 2^31-1 (int32 conversion)."
  },
  {
   "property": "C34",
   "status": "partial",
   "theorems": [
    "Berts.Props.C34_bert_iff",
    "Berts.Props.C34_roberta_iff",
    "Berts.Props.C34_rows_partial",
    "Berts.Props.C34_token_counterexample",
    "Berts.Props.C34_position_counterexample"
   ],
   "note": "Refuted: token ids are not checked (both architectures) and RoBERTa positions exceed the table for inputs of max_tokens. Exact iff characterisation per architecture; the partial theorem holds when tokens are in the vocabulary and RoBERTa inputs leave room for the padding offset. At most 44 layers (C86)."
  },
  {
   "property": "C35",
   "status": "proved",
   "theorems": [
    "Berts.Props.C35_ids_in_order",
    "Berts.Props.C35_inverse",
    "Berts.Props.C35_unknown",
    "Berts.Props.C35_add"
   ],
   "note": "full, for histories of fewer than 2^32 calls"
  },
  {
   "property": "C36",
   "status": "partial",
   "theorems": [
    "Berts.Props.C36_vocab_round_trip_partial",
    "Berts.Props.C36_empty_token_counterexample",
    "Berts.Props.C36_iff",
    "Berts.Props.C36_too_long"
   ],
   "note": "Exact condition (C36_iff): of the lists of distinct tokens of at most 256 bytes those without the empty token can be loaded again (length byte 0 means 256); the vocabulary then is the list. Longer tokens are refused (C36_too_long)."
  },
  {
   "property": "C37",
   "status": "partial",
   "theorems": [
    "Berts.Props.C37_strict",
    "Berts.Props.C37_reject",
    "Berts.Props.C37_memory_safe_partial",
    "Berts.Props.C37_counterexample",
    "Berts.Props.C37_ub_iff",
    "Berts.Props.C37_excess"
   ],
   "note": "Strictness proved for all blobs. Memory safety refuted: the token is copied before any bounds check (model_base.hpp:238); proved when the lengths fit the data; exactly when it reads outside: C37_ub_iff."
  },
  {
   "property": "C38",
   "status": "partial",
   "theorems": [
    "Berts.Props.C38_roberta_ids_valid_partial",
    "Berts.Props.C38_get_token_id",
    "Berts.Props.C38_bert_success_iff",
    "Berts.Props.C38_bert_values",
    "Berts.Props.C38_roberta_values",
    "Berts.Props.C38_roberta_success_iff",
    "Berts.Props.C38_bert_ids_valid_partial",
    "Berts.Props.C38_range_counterexample"
   ],
   "note": "Resolution order and success condition proved for BERT and RoBERTa; ids in range for both if the metadata ids are. Refuted: metadata ids are not checked against the vocabulary size."
  },
  {
   "property": "C39",
   "status": "proved",
   "theorems": [
    "Berts.Props.C39_converter_tokens",
    "Berts.Props.C39_converter_succeeds"
   ],
   "note": "full; also that the inner search loop terminates"
  },
  {
   "property": "C40",
   "status": "proved",
   "theorems": [
    "Berts.Props.C40_size",
    "Berts.Props.C40_reject",
    "Berts.Props.C40_dry",
    "Berts.Props.C40_no_overflow",
    "Berts.Props.C40_api"
   ],
   "note": "full; the size is 64-bit arithmetic on 32-bit hyperparameters"
  },
  {
   "property": "C41",
   "status": "partial",
   "theorems": [
    "Berts.Props.C41_accept_partial",
    "Berts.Props.C41_reject_partial",
    "Berts.Props.C41_from_front",
    "Berts.Props.C41_from_back",
    "Berts.Props.C41_min_counterexample"
   ],
   "note": "Proved for every layer except INT64_MIN, whose negation is undefined behaviour (counterexample). At most 44 layers (C86)."
  },
  {
   "property": "C42",
   "status": "partial",
   "theorems": [
    "Berts.Props.C42_dry_run_partial",
    "Berts.Props.C42_layer_counterexample"
   ],
   "note": "Refuted: a dry run ignores the layer. Proved when the layer is in range (non-empty inputs with existing rows). At most 44 layers (C86)."
  },
  {
   "property": "C43",
   "status": "partial",
   "theorems": [
    "Berts.Props.C43_dry",
    "Berts.Props.C43_reject",
    "Berts.Props.C43_api",
    "Berts.Props.C43_zero_counterexample",
    "Berts.Props.C43_all_partial",
    "Berts.Props.C43_topk_iff",
    "Berts.Props.C43_topk_partial",
    "Berts.Props.C43_vocab_counterexample",
    "Berts.Props.C43_capacity_counterexample"
   ],
   "note": "Refuted: with top_k > 0 the passed capacity is ignored (exact iff: undefined behaviour iff a buffer is shorter than top_k per token), and top_k above the vocabulary size is always undefined behaviour. Proved for top_k <= 0, and for 0 < top_k <= vocabulary with large enough buffers. Rejected calls (wrong length, one null buffer, no head, null arguments) leave everything as it was. Hidden size 0 is undefined behaviour."
  },
  {
   "property": "C44",
   "status": "partial",
   "theorems": [
    "Berts.Props.C44_topk_partial",
    "Berts.Props.C44_all_counterexample",
    "Berts.Props.C44_mismatch_counterexample"
   ],
   "note": "Proved for 0 < top_k <= vocabulary under the argsort contract. Refuted for top_k <= 0: ids are sorted, probabilities are left in vocabulary order."
  },
  {
   "property": "C45",
   "status": "proved",
   "theorems": [
    "Berts.Props.C45_bert_memory"
   ],
   "note": "full for non-empty inputs: success iff the pool has at least the estimated size, filled exactly; weights shaped as the hyperparameters say, inputs whose rows exist"
  },
  {
   "property": "C46",
   "status": "proved",
   "theorems": [
    "Berts.Props.C46_roberta_memory"
   ],
   "note": "as C45"
  },
  {
   "property": "C47",
   "status": "proved",
   "theorems": [
    "Berts.Props.C47_lm_memory"
   ],
   "note": "full for non-empty inputs, both architectures; top_k does not influence the graph"
  },
  {
   "property": "C48",
   "status": "partial",
   "theorems": [
    "Berts.Props.C48_sufficient_partial",
    "Berts.Props.C48_tight",
    "Berts.Props.C48_wrap_counterexample"
   ],
   "note": "Proved (exact, not only sufficient) unless the size_t sum wraps around; counterexample for the wrap."
  },
  {
   "property": "C49",
   "status": "partial",
   "theorems": [
    "Berts.Props.C49_no_model_partial",
    "Berts.Props.C49_token_to_id_counterexample",
    "Berts.Props.C49_eval",
    "Berts.Props.C49_eval_lm"
   ],
   "note": "Refuted for berts_token_to_id, which returns 0 (berts.cpp:142). All other calls proved, including the evaluation calls."
  },
  {
   "property": "C50",
   "status": "proved",
   "theorems": [
    "Berts.Props.C50_id_to_token",
    "Berts.Props.C50_tokenize",
    "Berts.Props.C50_tokenize_dry_run",
    "Berts.Props.C50_id_to_token_dry_run",
    "Berts.Props.C50_tokenize_second_call",
    "Berts.Props.C50_tokenize_failure",
    "Berts.Props.C50_tokenize_no_special"
   ],
   "note": "full, for buffers that have the announced size"
  },
  {
   "property": "C51",
   "status": "partial",
   "theorems": [
    "Berts.Props.C51_load",
    "Berts.Props.C51_free_partial",
    "Berts.Props.C51_leak_counterexample",
    "Berts.Props.C51_failed_load_counterexample"
   ],
   "note": "Refuted: the gguf and weight contexts are never freed once the berts_context exists, neither by berts_free nor by a failing load. Proved: exact account of what is freed for every outcome, nothing twice."
  },
  {
   "property": "C52",
   "status": "proved",
   "theorems": [
    "Berts.Props.C52_safe",
    "Berts.Props.C52_exactly_once",
    "Berts.Props.C52_only_acquired",
    "Berts.Props.C52_effects",
    "Berts.Props.C52_pair",
    "Berts.Props.C52_regex"
   ],
   "note": "full: all histories of operations on the handles, including the pair built by the gguf handle"
  },
  {
   "property": "C53",
   "status": "partial",
   "theorems": [
    "Berts.Props.C53_plain_partial",
    "Berts.Props.C53_formatted_partial",
    "Berts.Props.C53_formatted_error",
    "Berts.Props.C53_error_counterexample",
    "Berts.Props.C53_exact",
    "Berts.Props.C53_percent_counterexample",
    "Berts.Props.C53_disabled",
    "Berts.Props.C53_when",
    "Berts.Props.C53_levels",
    "Berts.Props.C53_format",
    "Berts.Props.C53_history_partial"
   ],
   "note": "fails: the formatted error overload tests the INFO level; messages with % are undefined behaviour; proved: all other combinations, exact behaviour everywhere"
  },
  {
   "property": "C54",
   "status": "partial",
   "theorems": [
    "Berts.Props.C54_convert_partial",
    "Berts.Props.C54_reject",
    "Berts.Props.C54_no_input",
    "Berts.Props.C54_newline_counterexample",
    "Berts.Props.C54_leftover_counterexample"
   ],
   "note": "Proved for names without line terminators ('.' of the regex does not match them; counterexample). A failing conversion leaves a partial file."
  },
  {
   "property": "C55",
   "status": "partial",
   "theorems": [
    "Berts.Props.C55_layout_partial",
    "Berts.Props.C55_complete_partial",
    "Berts.Props.C55_alignment_counterexample"
   ],
   "note": "Proved for the alignment the writer uses. Refuted for sources with another general.alignment: it is copied to the metadata but not used."
  },
  {
   "property": "C56",
   "status": "partial",
   "theorems": [
    "Berts.Props.C56_complete_partial",
    "Berts.Props.C56_exact_partial",
    "Berts.Props.C56_truncated_counterexample"
   ],
   "note": "Refuted for the last tensor of the directory, whose read is never checked. Proved for all others, as an iff."
  },
  {
   "property": "C57",
   "status": "partial",
   "theorems": [
    "Berts.Props.C57_supported",
    "Berts.Props.C57_exact",
    "Berts.Props.C57_long_name_counterexample"
   ],
   "note": "soundness for every file, and exact condition for complete files with names of at most 63 bytes; longer names are undefined behaviour (counterexample)"
  },
  {
   "property": "C58",
   "status": "partial",
   "theorems": [
    "Berts.Props.C58_accept_iff",
    "Berts.Props.C58_ub_iff",
    "Berts.Props.C58_reject_partial",
    "Berts.Props.C58_roundtrip",
    "Berts.Props.C58_print",
    "Berts.Props.C58_range_counterexample",
    "Berts.Props.C58_main"
   ],
   "note": "acceptance characterised exactly; fails (undefined behaviour) exactly for bytes 128..254, the empty string and numbers outside int"
  },
  {
   "property": "C59",
   "status": "partial",
   "theorems": [
    "Berts.Props.C59_iff",
    "Berts.Props.C59_reads_partial",
    "Berts.Props.C59_counterexample",
    "Berts.Props.C59_mask",
    "Berts.Props.C59_bert_partial",
    "Berts.Props.C59_roberta_partial"
   ],
   "note": "Exact condition: fails iff there are more tokens than bytes in the prompt (refuted e.g. for prompts of one byte). For BERT and RoBERTa models the condition is derived from the mask occurring in the prompt; for BERT under the assumption that composing the prompt (NFC) does not give more UTF-16 units than it has bytes."
  },
  {
   "property": "C60",
   "status": "proved",
   "theorems": [
    "Berts.Props.C60_slice",
    "Berts.Props.C60_index"
   ],
   "note": "full, for initialised strings"
  },
  {
   "property": "C61",
   "status": "proved",
   "theorems": [
    "Berts.Props.C61_attention",
    "Berts.Props.C61_hidden_states"
   ],
   "note": "full: attention sub-graph, and the whole encoder against a reference encoder; exact arithmetic (scalar operations are parameters); beyond 44 layers there is no output (C86)"
  },
  {
   "property": "C62",
   "status": "proved",
   "theorems": [
    "Berts.Props.C62_pooling",
    "Berts.Props.C62_none"
   ],
   "note": "full, on top of C61"
  },
  {
   "property": "C63",
   "status": "proved",
   "theorems": [
    "Berts.Props.C63_ids_valid"
   ],
   "note": "full"
  },
  {
   "property": "C64",
   "status": "partial",
   "theorems": [
    "Berts.Props.C64_reference_partial",
    "Berts.Props.C64_pad_counterexample"
   ],
   "note": "Proved for tokens that are not pads; refuted for every pad token with pad id > 0 (position 0 instead of padding_idx, roberta.cpp:618)."
  },
  {
   "property": "C65",
   "status": "partial",
   "theorems": [
    "Berts.Props.C65_special_ids_partial",
    "Berts.Props.C65_nonascii_counterexample"
   ],
   "note": "Proved for ASCII special tokens that are vocabulary entries; for signed char only ASCII texts (C30). Refuted for special tokens that are not ASCII: id_to_token keeps the low byte of each character, so the text of the token cannot be tokenized (C65_nonascii_counterexample)."
  },
  {
   "property": "C66",
   "status": "partial",
   "theorems": [
    "Berts.Props.C66_best_tokens_partial",
    "Berts.Props.C66_long_name_counterexample"
   ],
   "note": "end to end for prompts with at least as many bytes as tokens and names up to 256 bytes; longer names stop the program"
  },
  {
   "property": "C67",
   "status": "partial",
   "theorems": [
    "Berts.Props.C67_k",
    "Berts.Props.C67_exact",
    "Berts.Props.C67_numbers_partial",
    "Berts.Props.C67_range_counterexample",
    "Berts.Props.C67_text_counterexample"
   ],
   "note": "fails: exceptions of stoi are not caught, trailing text is accepted"
  },
  {
   "property": "C68",
   "status": "partial",
   "theorems": [
    "Berts.Props.C68_status_counterexample",
    "Berts.Props.C68_usage_partial"
   ],
   "note": "fails: status 0 after a failed quantization; usage errors give 1"
  },
  {
   "property": "C69",
   "status": "partial",
   "theorems": [
    "Berts.Props.C69_written_partial",
    "Berts.Props.C69_full_disk_counterexample"
   ],
   "note": "Refuted: write errors are not checked. Proved: with enough room the file is complete."
  },
  {
   "property": "C70",
   "status": "partial",
   "theorems": [
    "Berts.Props.C70_cased",
    "Berts.Props.C70_uncased",
    "Berts.Props.C70_no_basic_partial",
    "Berts.Props.C70_no_basic_counterexample"
   ],
   "note": "Defaults of all keys proved. Refuted for do_basic_tokenize off on its own: lower-casing, accent stripping and CJK splitting stay on (bert.cpp:143-173). With those keys off too, the words are exactly the stretches between blanks, except for unprintable characters above U+FFFF, which are truncated."
  },
  {
   "property": "C71",
   "status": "partial",
   "theorems": [
    "Berts.Props.C71_reference_partial",
    "Berts.Props.C71_unique"
   ],
   "note": "Proved for all texts, vocabularies and merge lists, with uniqueness of the reference ids, under: special tokens non-empty ASCII entries, alphabet of the text in the vocabulary, ASCII text where char is signed (otherwise undefined behaviour, C30). The regular expression engine is an oracle with a contract; C109 replaces it by a model of the engine and says what the words are. C116 removes the assumption about the alphabet."
  },
  {
   "property": "C72",
   "status": "partial",
   "theorems": [
    "Berts.Props.C72_bert",
    "Berts.Props.C72_bert_specials",
    "Berts.Props.C72_bert_metadata",
    "Berts.Props.C72_roberta_partial",
    "Berts.Props.C72_roberta_specials",
    "Berts.Props.C72_roberta_tokenize",
    "Berts.Props.C72_roberta_framed_partial",
    "Berts.Props.C72_arch"
   ],
   "note": "BERT in full. RoBERTa: id_to_token only for tokens of safe bytes and token_to_id of non-ASCII strings only with unsigned char (counterexamples under C29, C30)."
  },
  {
   "property": "C73",
   "status": "partial",
   "theorems": [
    "Berts.Props.C73_consistent_partial",
    "Berts.Props.C73_load_eval_partial",
    "Berts.Props.C73_unchecked_counterexample"
   ],
   "note": "Proved for every consistent file (shapes as the hyperparameters say, heads dividing the hidden size, enough rows), from the bytes of the file to the values. Refuted without consistency, which the loader does not check (four counterexample files). At most 44 layers (C86)."
  },
  {
   "property": "C74",
   "status": "partial",
   "theorems": [
    "Berts.Props.C74_text_partial",
    "Berts.Props.C74_unchecked_counterexample"
   ],
   "note": "Proved for BERT and RoBERTa for every consistent file whose metadata ids are in range and whose token table has a row per vocabulary entry. Refuted otherwise (two counterexample files). At most 44 layers (C86)."
  },
  {
   "property": "C75",
   "status": "partial",
   "theorems": [
    "Berts.Props.C75_bert_partial",
    "Berts.Props.C75_roberta_partial",
    "Berts.Props.C75_unique",
    "Berts.Props.C75_activation_counterexample",
    "Berts.Props.C75_narrow_counterexample"
   ],
   "note": "Proved for BERT and RoBERTa sources with parameters named and shaped as transformers does, dimensions at least 2, activation gelu, tokens of 1 to 256 bytes, all special ids set. Refuted for RoBERTa with another activation (converted, then refused by the loader) and for hidden size 1 (shapes squeezed)."
  },
  {
   "property": "C76",
   "status": "partial",
   "theorems": [
    "Berts.Props.C76_bert_partial",
    "Berts.Props.C76_roberta_partial",
    "Berts.Props.C76_position_counterexample"
   ],
   "note": "Proved under the hypotheses of C75, for RoBERTa also pad id + number of ids < number of positions. Refuted without that condition. At most 44 layers (C86)."
  },
  {
   "property": "C77",
   "status": "partial",
   "theorems": [
    "Berts.Props.C77_ids_partial",
    "Berts.Props.C77_order_counterexample"
   ],
   "note": "Proved for ranks listed in increasing order; signed char only with ASCII texts; ASCII special tokens. Refuted for ranks in another order: the loader ignores the rank column and uses the order of the file."
  },
  {
   "property": "C78",
   "status": "partial",
   "theorems": [
    "Berts.Props.C78_bert_partial",
    "Berts.Props.C78_roberta_partial"
   ],
   "note": "Proved for BERT and RoBERTa under the hypotheses of C75/C76 and C59; a BERT without lower-casing option or with accents kept (see C17: lower-casing loses every unprotected word, the statement is about the ids the code delivers); RoBERTa names are code points modulo 256 (C32); token names of at most 256 bytes. At most 44 layers (C86)."
  },
  {
   "property": "C79",
   "status": "partial",
   "theorems": [
    "Berts.Props.C79_alone_partial",
    "Berts.Props.C79_lower_partial",
    "Berts.Props.C79_words",
    "Berts.Props.C79_glued_counterexample",
    "Berts.Props.C79_stop_counterexample"
   ],
   "note": "Proved for tokens between blanks after a text that does not end with the unknown token; with lower-casing exactly the special words remain. Refuted for every other neighbour: with punctuation splitting (the default) a special token is found only as a whitespace-delimited word, e.g. '[MASK].' is four unknown tokens."
  },
  {
   "property": "C80",
   "status": "partial",
   "theorems": [
    "Berts.Props.C80_load_partial",
    "Berts.Props.C80_eval_partial",
    "Berts.Props.C80_program_partial",
    "Berts.Props.C80_status",
    "Berts.Props.C80_alignment_counterexample"
   ],
   "note": "Proved for every loadable source with distinct metadata keys and alignment 32 (what the reader of ggml delivers for the written header is a contract). Refuted for another general.alignment: the new file is then read at the wrong place (C80_alignment_counterexample). At most 44 layers (C86)."
  },
  {
   "property": "C81",
   "status": "partial",
   "theorems": [
    "Berts.Props.C81_classes",
    "Berts.Props.C81_category",
    "Berts.Props.C81_words_partial",
    "Berts.Props.C81_separator_counterexample",
    "Berts.Props.C81_order_counterexample",
    "Berts.Props.C81_compose_counterexample",
    "Berts.Props.C81_special_counterexample"
   ],
   "note": "Character classes and categories agree completely. The words agree for models that keep the case, for texts without U+2028/U+2029 whose normalisation commutes with cleaning; with accent stripping, if stripped words are composed and no special tokens. Refuted outside of these conditions (four counterexamples); lower-casing loses all words (C17)."
  },
  {
   "property": "C82",
   "status": "partial",
   "theorems": [
    "Berts.Props.C82_reference_functional",
    "Berts.Props.C82_entry_simple",
    "Berts.Props.C82_wordpiece_partial",
    "Berts.Props.C82_ids_partial",
    "Berts.Props.C82_length_counterexample",
    "Berts.Props.C82_surrogate_counterexample",
    "Berts.Props.C82_converted_partial"
   ],
   "note": "Proved for the texts of C81 if each word has at most 100 characters and is cut up without look-ahead beyond the match or has no matching beginning; down to the C interface of a converted model. Refuted: no limit of 100 characters; look-ahead by 16-bit units drops half of a surrogate pair; further deviations in C14, C15."
  },
  {
   "property": "C83",
   "status": "proved",
   "theorems": [
    "Berts.Props.C83_status",
    "Berts.Props.C83_failures",
    "Berts.Props.C83_no_head"
   ],
   "note": "full, for every run that ends by itself (an argument that is not a number is an uncaught exception, C67)"
  },
  {
   "property": "C84",
   "status": "proved",
   "theorems": [
    "Berts.Props.C84_table"
   ],
   "note": "full"
  },
  {
   "property": "C85",
   "status": "proved",
   "theorems": [
    "Berts.Props.C85_same",
    "Berts.Props.C85_no_segments",
    "Berts.Props.C85_reject",
    "Berts.Props.C85_default",
    "Berts.Props.C85_default_lm",
    "Berts.Props.C85_null"
   ],
   "note": "full; the number of threads is not modelled"
  },
  {
   "property": "C86",
   "status": "partial",
   "theorems": [
    "Berts.Props.C86_needed",
    "Berts.Props.C86_counts",
    "Berts.Props.C86_expand",
    "Berts.Props.C86_partial",
    "Berts.Props.C86_counterexample",
    "Berts.Props.C86_lm",
    "Berts.Props.C86_eval",
    "Berts.Props.C86_eval_counterexample"
   ],
   "note": "Exact numbers of operations for every model and pooling; the expansion succeeds exactly if they fit. With the size of ggml_new_graph (2048) up to 44 layers fit; from 45 layers on every evaluation ends the process (C86_counterexample)."
  },
  {
   "property": "C87",
   "status": "partial",
   "theorems": [
    "Berts.Props.C87_values",
    "Berts.Props.C87_defined",
    "Berts.Props.C87_illegal",
    "Berts.Props.C87_buffers",
    "Berts.Props.C87_partial",
    "Berts.Props.C87_leak",
    "Berts.Props.C87_counterexample",
    "Berts.Props.C87_unsized_counterexample"
   ],
   "note": "Values, absence of double release and of use after release, and release of all buffers are proved for every history (C87_values, C87_defined, C87_buffers, C87_partial). ~ustr never deletes its ustr_impl: exactly one object per constructed string is leaked (C87_leak, C87_counterexample); moving a default-constructed string reads an indeterminate size."
  },
  {
   "property": "C88",
   "status": "partial",
   "theorems": [
    "Berts.Props.C88_bert_counterexample",
    "Berts.Props.C88_bert_partial",
    "Berts.Props.C88_call_counterexample",
    "Berts.Props.C88_roberta_counterexample",
    "Berts.Props.C88_roberta_ub_counterexample",
    "Berts.Props.C88_roberta_partial"
   ],
   "note": "Violated. BERT: undefined exactly for the ill-formed texts (C88_bert_counterexample, C88_bert_partial, C88_call_counterexample). RoBERTa: an ill-formed text is never tokenized, and is undefined if it contains no special token (C88_roberta_counterexample, C88_roberta_ub_counterexample); well-formed texts are handled where char is unsigned (C88_roberta_partial)."
  },
  {
   "property": "C89",
   "status": "partial",
   "theorems": [
    "Berts.Props.C89_report_partial",
    "Berts.Props.C89_status_counterexample",
    "Berts.Props.C89_exception_counterexample",
    "Berts.Props.C89_assertions"
   ],
   "note": "The report and the counts are proved (C89_report_partial, C89_assertions). Violated: the exit status is 0 whatever fails, because the cases run in the destructor of a static object after main has returned (C89_status_counterexample); an exception other than runtime_error calls std::exit during static destruction, undefined (C89_exception_counterexample)."
  },
  {
   "property": "C90",
   "status": "partial",
   "theorems": [
    "Berts.Props.C90_test_partial",
    "Berts.Props.C90_test_counterexample",
    "Berts.Props.C90_split_partial",
    "Berts.Props.C90_split_counterexample",
    "Berts.Props.C90_not_open"
   ],
   "note": "Violated: nothing is found in the empty text, not even by an expression that matches it (C90_test_counterexample); if the engine gives up, split returns 0 although it appended pieces, and the rest of the text is lost (C90_split_counterexample). Otherwise both hold (C90_test_partial, C90_split_partial, C90_not_open)."
  },
  {
   "property": "C91",
   "status": "partial",
   "theorems": [
    "Berts.Props.C91_bert_partial",
    "Berts.Props.C91_roberta_partial",
    "Berts.Props.C91_other_keys",
    "Berts.Props.C91_bos_counterexample",
    "Berts.Props.C91_cls_counterexample",
    "Berts.Props.C91_bert_bos_counterexample"
   ],
   "note": "Violated: bos and eos of a RoBERTa model default to \"<s>\" and \"</s>\" before cls and sep (C91_bos_counterexample); \"[CLS]\" is not tried for RoBERTa (C91_cls_counterexample); a BERT model ignores both keys and has neither (C91_bert_bos_counterexample). Everything else holds for every file that loads (C91_bert_partial, C91_roberta_partial); keys that are not in the list, among them berts.never_split, change nothing (C91_other_keys)."
  },
  {
   "property": "C92",
   "status": "partial",
   "theorems": [
    "Berts.Props.C92_values",
    "Berts.Props.C92_accepted",
    "Berts.Props.C92_same_partial",
    "Berts.Props.C92_header",
    "Berts.Props.C92_comment_counterexample",
    "Berts.Props.C92_blank_counterexample",
    "Berts.Props.C92_escape_counterexample"
   ],
   "note": "Violated for headers other than that of the repository: a comment behind a value stops the converter (C92_comment_counterexample), a blank behind the # hides a definition silently (C92_blank_counterexample), escape sequences are not interpreted (C92_escape_counterexample). Proved: which headers are accepted and what they define (C92_accepted, C92_values), that such definitions without backslashes mean the same in C (C92_same_partial), and that the header of the repository has all keys of the loader (C92_header)."
  },
  {
   "property": "C93",
   "status": "partial",
   "theorems": [
    "Berts.Props.C93_graph_modulo",
    "Berts.Props.C93_head_modulo",
    "Berts.Props.C93_graph_partial",
    "Berts.Props.C93_head_partial",
    "Berts.Props.C93_wrap_aborts",
    "Berts.Props.C93_wrap_counterexample"
   ],
   "note": "Violated for very long inputs: with 2^31-1 tokens of a well-formed model the estimate wraps around and evaluation is stopped by an assertion (C93_wrap_counterexample; C93_wrap_aborts in general). Proved: the words hold the exact sizes modulo 2^64 (C93_graph_modulo, C93_head_modulo), hence exactly for models within generous bounds and at most 65536 tokens (C93_graph_partial, C93_head_partial)."
  },
  {
   "property": "C94",
   "status": "partial",
   "theorems": [
    "Berts.Props.C94_exact",
    "Berts.Props.C94_partial",
    "Berts.Props.C94_truncated_counterexample",
    "Berts.Props.C94_closed_counterexample"
   ],
   "note": "Violated: tokenization reports success whatever the engine does, with the ids of the text up to the place where the engine stops in each plain piece (C94_exact, C94_truncated_counterexample), or of the special tokens alone if the expression cannot be compiled (C94_closed_counterexample). With an engine that never fails it is the tokenization of C32, C65 and C71 (C94_partial)."
  },
  {
   "property": "C95",
   "status": "partial",
   "theorems": [
    "Berts.Props.C95_shows_partial",
    "Berts.Props.C95_missing",
    "Berts.Props.C95_mixed",
    "Berts.Props.C95_numbers",
    "Berts.Props.C95_written_partial",
    "Berts.Props.C95_lm_counterexample",
    "Berts.Props.C95_percent_counterexample",
    "Berts.Props.C95_key"
   ],
   "note": "Violated by one call: the debug message of eval_lm has a comma too many and shows the wrong values (C95_lm_counterexample). All other calls show their arguments whatever they are (C95_shows_partial); they reach the log if the texts have no percent signs or NULs (C95_written_partial), otherwise the behaviour is undefined (C95_percent_counterexample, a path with %). The one computed format, the keys of the layers, is right (C95_key). That the arguments' types admit the specifications (04x, .1f, .3f) is a hypothesis; the compiler is not modelled."
  },
  {
   "property": "C96",
   "status": "partial",
   "theorems": [
    "Berts.Props.C96_total",
    "Berts.Props.C96_type",
    "Berts.Props.C96_distinct",
    "Berts.Props.C96_named",
    "Berts.Props.C96_exact",
    "Berts.Props.C96_quantized_partial",
    "Berts.Props.C96_quantized_counterexample",
    "Berts.Props.C96_converted"
   ],
   "note": "Violated: the quantizer records the number of the tensor type as file type, and type_to_str uses the same table; the name is right for F32, F16, Q4_0, Q4_1, Q2_K, Q3_K and wrong for all others (C96_exact, C96_quantized_partial, C96_quantized_counterexample). Converted files are right (C96_converted); the table is total below 19 and has no name twice (C96_total, C96_distinct)."
  },
  {
   "property": "C97",
   "status": "partial",
   "theorems": [
    "Berts.Props.C97_exact",
    "Berts.Props.C97_reports",
    "Berts.Props.C97_ids_partial",
    "Berts.Props.C97_silent",
    "Berts.Props.C97_default_partial",
    "Berts.Props.C97_percent_counterexample",
    "Berts.Props.C97_text_counterexample",
    "Berts.Props.C97_duplicate_counterexample"
   ],
   "note": "Violated: unknown text is passed to fprintf as a format, at the default level, so a word with a single percent sign that the vocabulary cannot finish makes tokenizing undefined (C97_percent_counterexample, C97_text_counterexample: 100% with a vocabulary without %); the same when a vocabulary repeats a token with a percent sign (C97_duplicate_counterexample). C97_exact describes every state of the log and every well-formed text (all lines of all levels, and when the behaviour is undefined); C97_ids_partial covers words without %, C97_silent a log that is off, C97_default_partial the default level. Assumes that ICU's NFC maps the text to well-formed text; writing to the log file succeeds."
  },
  {
   "property": "C98",
   "status": "partial",
   "theorems": [
    "Berts.Props.C98_unused_partial",
    "Berts.Props.C98_used",
    "Berts.Props.C98_file_partial",
    "Berts.Props.C98_merges_counterexample",
    "Berts.Props.C98_numbers"
   ],
   "note": "The merges of a RoBERTa model are called unused though they are used (counterexample). Otherwise proved: what is listed has no influence on hyperparameters, vocabulary and weights (for tensor lists and for files), everything else in the directory is needed, the numbers in the list are those of the directory."
  },
  {
   "property": "C99",
   "status": "partial",
   "theorems": [
    "Berts.Props.C99_exact",
    "Berts.Props.C99_default_partial",
    "Berts.Props.C99_success",
    "Berts.Props.C99_quiet",
    "Berts.Props.C99_percent_counterexample",
    "Berts.Props.C99_repeat_counterexample"
   ],
   "note": "Messages are fprintf formats: a percent sign in the metadata at level INFO, or in a repeated token at the default level, makes loading undefined (counterexamples). Otherwise proved: exact lines of a successful load, same outcome at the default level, no undefined behaviour and no word for a file that defines its special tokens. All levels; the text of a double and the addresses of contexts are parameters."
  },
  {
   "property": "C100",
   "status": "partial",
   "theorems": [
    "Berts.Props.C100_reported_partial",
    "Berts.Props.C100_merges",
    "Berts.Props.C100_missing_counterexample",
    "Berts.Props.C100_unknown_counterexample"
   ],
   "note": "Formatted errors are not written at the default level: a missing file, another activation and an unknown architecture are rejected in silence (counterexamples). Otherwise proved: the last line in the log is one of five errors, at the level DEBUG followed by the contexts freed."
  },
  {
   "property": "C101",
   "status": "partial",
   "theorems": [
    "Berts.Props.C101_default",
    "Berts.Props.C101_info",
    "Berts.Props.C101_failure",
    "Berts.Props.C101_ids_partial",
    "Berts.Props.C101_silent_counterexample",
    "Berts.Props.C101_percent_counterexample"
   ],
   "note": "Messages are fprintf formats: at level DEBUG a text with a percent sign is undefined behaviour (C101_percent_counterexample); at the default level the messages about a failed call are not written (C101_silent_counterexample). Otherwise proved: C101_default (any text and outcome from WARN on), C101_info and C101_failure (exact lines at INFO), C101_ids_partial (every level, texts without %)."
  },
  {
   "property": "C102",
   "status": "partial",
   "theorems": [
    "Berts.Props.C102_trace",
    "Berts.Props.C102_reference_partial",
    "Berts.Props.C102_unique",
    "Berts.Props.C102_cached"
   ],
   "note": "C102_trace holds for every queue, dropout and text (exact lines, and when they cannot be printed); C102_cached for texts that are empty or in the cache. The textbook order (C102_reference_partial, unique by C102_unique) needs that different tokens have different ids, as C22."
  },
  {
   "property": "C103",
   "status": "proved",
   "theorems": [
    "Berts.Props.C103_eval",
    "Berts.Props.C103_lm",
    "Berts.Props.C103_unique",
    "Berts.Props.C103_lm_unique",
    "Berts.Props.C103_berts_eval",
    "Berts.Props.C103_berts_eval_lm"
   ],
   "note": "C103_eval, C103_lm: any model, any log, all outcomes; C103_berts_eval(_lm) for the C interface; C103_unique: the end of a call is determined by the input. The messages under the macros BERTS_DEBUG and GGML_PERF are not modelled."
  },
  {
   "property": "C104",
   "status": "partial",
   "theorems": [
    "Berts.Props.C104_reason",
    "Berts.Props.C104_lm_reason",
    "Berts.Props.C104_info_partial",
    "Berts.Props.C104_lm_info_partial",
    "Berts.Props.C104_default",
    "Berts.Props.C104_lm_default",
    "Berts.Props.C104_silent_counterexample",
    "Berts.Props.C104_null_counterexample"
   ],
   "note": "True at INFO and DEBUG (C104_info_partial, C104_lm_info_partial). At the default level five of six reasons of eval and one of four of the head are not written (C104_default, C104_lm_default, C104_silent_counterexample: formatted errors are dropped above INFO); without settings or a place for the size nothing is written at any level (C104_null_counterexample)."
  },
  {
   "property": "C105",
   "status": "proved",
   "theorems": [
    "Berts.Props.C105_warns",
    "Berts.Props.C105_iff",
    "Berts.Props.C105_roberta",
    "Berts.Props.C105_roberta_fails",
    "Berts.Props.C105_bert",
    "Berts.Props.C105_no_special",
    "Berts.Props.C105_not_sufficient"
   ],
   "note": "C105_warns: exact result and log for any tokenizer with messages; C105_iff: the length is refused by every call iff it is above max_tokens; C105_roberta: complete log at the default level. C105_not_sufficient: a RoBERTa text without a warning can still be too long (C34). The ids RoBERTa appends before a failure are an arbitrary list."
  },
  {
   "property": "C106",
   "status": "proved",
   "theorems": [
    "Berts.Props.C106_refines",
    "Berts.Props.C106_refines_lm",
    "Berts.Props.C106_eval",
    "Berts.Props.C106_lm",
    "Berts.Props.C106_shapes_needed",
    "Berts.Props.C106_pooler_needed"
   ],
   "note": "C106_eval, C106_lm: equality of the two builds for every call on a model of the right shapes (with a head of the right shapes or none); C106_refines, C106_refines_lm: any model. Shapes are needed: C106_shapes_needed, C106_pooler_needed are models the ordinary build evaluates and the debug build stops at. The message before the stop is not modelled."
  },
  {
   "property": "C107",
   "status": "partial",
   "theorems": [
    "Berts.Props.C107_dry_partial",
    "Berts.Props.C107_counterexample",
    "Berts.Props.C107_api_counterexample",
    "Berts.Props.C107_lm_counterexample"
   ],
   "note": "Refuted: no token passes every check, and then ggml divides by the number of rows while adding the embeddings (C107_counterexample, C107_api_counterexample: every model of the right shapes, layer, pooling and buffer); likewise the head (C107_lm_counterexample). Only the dry run is defined (C107_dry_partial). The division is in ggml_can_repeat of the ggml of that time, which is not in the repository."
  },
  {
   "property": "C108",
   "status": "proved",
   "theorems": [
    "Berts.Props.C108_bpe",
    "Berts.Props.C108_roberta",
    "Berts.Props.C108_bert",
    "Berts.Props.C108_roberta_buffer",
    "Berts.Props.C108_bert_buffer",
    "Berts.Props.C108_evaluate",
    "Berts.Props.C108_sharp"
   ],
   "note": "The RoBERTa bound needs only the contract of the regular expression engine and holds for arbitrary bytes. For BERT the normaliser is a parameter: stripping accents must not give more characters (AccentsShrink), composing must not give more characters than the text has bytes (buffer bound), lower-casing must not empty a word. C108_evaluate combines it with C74."
  },
  {
   "property": "C109",
   "status": "partial",
   "theorems": [
    "Berts.Props.C109_opens",
    "Berts.Props.C109_contract",
    "Berts.Props.C109_words",
    "Berts.Props.C109_unique",
    "Berts.Props.C109_blanks",
    "Berts.Props.C109_reference_partial"
   ],
   "note": "Proved in full: the pattern text is parsed and run by a model of a backtracking engine, the contract assumed by C30, C71 and C108 holds for every expression, the words are those of an independent description. Partial is the combination with C71 (C109_reference_partial), which needs the hypotheses of C71. Which characters are letters, digits and blanks is a parameter (ICU's tables); the time and stack limits of ICU are not modelled (see C90, C94 for a failing engine)."
  },
  {
   "property": "C110",
   "status": "partial",
   "theorems": [
    "Berts.Props.C110_exact",
    "Berts.Props.C110_default_partial",
    "Berts.Props.C110_success"
   ],
   "note": "C110_exact: outcome and all lines at every level (messages that cannot be printed are undefined behaviour, as for C99); C110_success: at the default level a successful conversion writes the vocabulary warnings only. C110_default_partial needs repeated tokens without a percent sign. The addresses of contexts and the texts of floating-point numbers are parameters."
  },
  {
   "property": "C111",
   "status": "partial",
   "theorems": [
    "Berts.Props.C111_reported_partial",
    "Berts.Props.C111_silent_counterexample"
   ],
   "note": "true at INFO and DEBUG (there followed by the contexts freed) (C111_reported_partial); false at the default level (C111_silent_counterexample): the errors are formatted and log.hpp:61 treats them as INFO."
  },
  {
   "property": "C112",
   "status": "partial",
   "theorems": [
    "Berts.Props.C112_same",
    "Berts.Props.C112_report_partial",
    "Berts.Props.C112_total_counterexample"
   ],
   "note": "true except for the 'quantized size' (C112_report_partial), which also counts the bias of the head that is not written: C112_total_counterexample, for every head bias of at least 26215 elements. Texts of doubles and of never_split are parameters; no blanks at the ends of the texts of special tokens and of the keys (EnvOk), because strip() would remove them."
  },
  {
   "property": "C113",
   "status": "proved",
   "theorems": [
    "Berts.Props.C113_completed",
    "Berts.Props.C113_vocab",
    "Berts.Props.C113_merge"
   ],
   "note": "C113_completed, C113_vocab, C113_merge, for every rendering of the texts."
  },
  {
   "property": "C114",
   "status": "partial",
   "theorems": [
    "Berts.Props.C114_directory",
    "Berts.Props.C114_stored_exact",
    "Berts.Props.C114_stored_partial",
    "Berts.Props.C114_head_counterexample"
   ],
   "note": "Directory lines and the exact list of stored tensors proved; false for the language-model head, whose missing tensors are said to be stored (C114_head_counterexample)."
  },
  {
   "property": "C115",
   "status": "partial",
   "theorems": [
    "Berts.Props.C115_quantizer_partial",
    "Berts.Props.C115_eval",
    "Berts.Props.C115_eval_lm",
    "Berts.Props.C115_header_counterexample"
   ],
   "note": "True for the model and the new gguf context of the quantizer and for the contexts of the evaluation; false for the header's ggml context, which a successful load frees but never announces (C115_header_counterexample)."
  },
  {
   "property": "C116",
   "status": "partial",
   "theorems": [
    "Berts.Props.C116_total_partial",
    "Berts.Props.C116_log_partial",
    "Berts.Props.C116_table_unique",
    "Berts.Props.C116_jobs_unique",
    "Berts.Props.C116_told_unique",
    "Berts.Props.C116_words_partial",
    "Berts.Props.C116_words_log_partial",
    "Berts.Props.C116_words_unique"
   ],
   "note": "C116_total_partial (ids, every text in UTF-8, no assumption on the alphabet) and C116_log_partial (log at every level, texts without %, which is undefined behaviour otherwise: C101_percent_counterexample); both need special tokens that are non-empty ASCII entries, and ASCII texts where char is signed (C30_signed_counterexample). C116_told_unique, C116_jobs_unique and C116_table_unique: lines and ids are determined. C116_words_partial and C116_words_log_partial are the same without an oracle for the regular expression: the words are the GPT-2 words of C109 (determined, C116_words_unique)."
  },
  {
   "property": "C117",
   "status": "proved",
   "theorems": [
    "Berts.Props.C117_topk",
    "Berts.Props.C117_all"
   ],
   "note": "Exact real arithmetic (Spec.Exact; an instance is real_exact): rounding, overflow and the 16-bit tables of ggml are not modelled. For top_k <= 0 the probabilities are in the order of the vocabulary (C44). top_k at most the vocabulary, buffers large enough (C43)."
  },
  {
   "property": "C118",
   "status": "proved",
   "theorems": [
    "Berts.Props.C118_hidden_states",
    "Berts.Props.C118_pooled"
   ],
   "note": "Exact real arithmetic (Spec.Exact; an instance is real_exact): rounding, overflow and the 16-bit tables of ggml are not modelled. The epsilon of the model is positive. With more than 44 layers evaluation ends the process (C86)."
  },
  {
   "property": "C119",
   "status": "proved",
   "theorems": [
    "Berts.Props.C119_between"
   ],
   "note": "Exact real arithmetic (Spec.Exact; an instance is real_exact): rounding, overflow and the 16-bit tables of ggml are not modelled."
  },
  {
   "property": "C120",
   "status": "proved",
   "theorems": [
    "Berts.Props.C120_hidden_states",
    "Berts.Props.C120_pooled"
   ],
   "note": "Exact real arithmetic (Spec.Exact; an instance is real_exact). The rearranged input is evaluated with another position table, in which the embeddings of the positions have moved along. Pooling by average and maximum is assumed not to depend on the order. With more than 44 layers evaluation ends the process (C86)."
  },
  {
   "property": "C121",
   "status": "proved",
   "theorems": [
    "Berts.Props.C121_twins",
    "Berts.Props.C121_pads"
   ],
   "note": "Any arithmetic, also floating point. With more than 44 layers evaluation ends the process (C86)."
  },
  {
   "property": "C122",
   "status": "partial",
   "theorems": [
    "Berts.Props.C122_embeddings_partial",
    "Berts.Props.C122_counterexample"
   ],
   "note": "Violated: there is no attention mask, so padding takes part in the attention of all tokens; a model (BERT and RoBERTa) and a text whose hidden state changes its sign (C122_counterexample, exact arithmetic). True for the embeddings, output layer 0, in any arithmetic (C122_embeddings_partial)."
  },
  {
   "property": "C123",
   "status": "proved",
   "theorems": [
    "Berts.Props.C123_text",
    "Berts.Props.C123_bad_text",
    "Berts.Props.C123_bad_token",
    "Berts.Props.C123_eval",
    "Berts.Props.C123_eval_refused",
    "Berts.Props.C123_eval_bad",
    "Berts.Props.C123_eval_throws",
    "Berts.Props.C123_lm",
    "Berts.Props.C123_bad_lm",
    "Berts.Props.C123_lm_ub"
   ],
   "note": "The model of the C calls with pointers (none = null, otherwise the readable memory) is reduced to that with lists when the inputs are as declared (C123_text, C123_eval, C123_lm); exact characterisation of what happens otherwise. Null text, token, tokens and hidden states are not checked, unlike the other pointers (finding); a token count of 2^61 or more is an exception instead of an error."
  },
  {
   "property": "C124",
   "status": "partial",
   "theorems": [
    "Berts.Props.C124_scores_partial"
   ],
   "note": "Proved for prompts whose ids fit into the array of the program (C59, C108), positions and ids within the model (C34) and names of at most 256 bytes (C66); these are the conditions of C66, where the code violates the claim otherwise. Real numbers instead of floating point (Exact)."
  },
  {
   "property": "C125",
   "status": "proved",
   "theorems": [
    "Berts.Props.C125_prefix",
    "Berts.Props.C125_all",
    "Berts.Props.C125_alone"
   ],
   "note": "For 0 < top_k <= vocabulary size on buffers that are large enough (others: C43, C44); argsort is trusted to sort (ArgsortSpec)."
  },
  {
   "property": "C126",
   "status": "partial",
   "theorems": [
    "Berts.Props.C126_bert_partial",
    "Berts.Props.C126_roberta_partial"
   ],
   "note": "Sources as in C75 (gelu, dimensions at least 2, special ids set) whose matrices ggml_quantize_chunk accepts; what the reader of ggml delivers for the written header is a contract, as in C80 (shown in C127); evaluation for at most 44 layers (C86)."
  },
  {
   "property": "C127",
   "status": "partial",
   "theorems": [
    "Berts.Props.C127_read",
    "Berts.Props.C127_cut_partial",
    "Berts.Props.C127_quantized_partial",
    "Berts.Props.C127_bert_partial",
    "Berts.Props.C127_roberta_partial"
   ],
   "note": "The format is the published one (GGUF 3); ggml's reader is modelled from its description. Chain: as C126, and ggml accepts the tensors' types and shapes. Cut files: not for the last tensor of the directory, which the loader does not check (C56); C55's alignment 32."
  },
  {
   "property": "C128",
   "status": "partial",
   "theorems": [
    "Berts.Props.C128_exact",
    "Berts.Props.C128_unambiguous",
    "Berts.Props.C128_rewrite_partial",
    "Berts.Props.C128_load",
    "Berts.Props.C128_quantized_partial"
   ],
   "note": "Which files are read is exact, for the published format and the reader of ggml as modelled (entry limits and NUL in keys left out). Quantizing any file: alignment 32, distinct keys and names, as C80; values of every type in the metadata are allowed."
  },
  {
   "property": "C129",
   "status": "partial",
   "theorems": [
    "Berts.Props.C129_exact",
    "Berts.Props.C129_writes",
    "Berts.Props.C129_any_path",
    "Berts.Props.C129_usual_partial",
    "Berts.Props.C129_dash_counterexample",
    "Berts.Props.C129_help",
    "Berts.Props.C129_exception",
    "Berts.Props.C129_refused",
    "Berts.Props.C129_required"
   ],
   "note": "Exact for argparse of Python 3.11.10 as modelled. Every path can be given as --output-path=PATH; that -o PATH works for every path is refuted (a path beginning with a dash is taken as an option), C129_usual_partial covers the others. Printed texts are left out, and what an exception in convert leaves behind."
  },
  {
   "property": "C130",
   "status": "partial",
   "theorems": [
    "Berts.Props.C130_bert_partial",
    "Berts.Props.C130_roberta_partial",
    "Berts.Props.C130_others",
    "Berts.Props.C130_room"
   ],
   "note": "As C78 (1 to 44 layers, one mask, the tokenizer's restrictions, exact arithmetic) and C127 (ggml accepts types and shapes, matrices can be quantized). The quantizer's file is assumed to be stored and decoded as written (second Disk premise), which the example does not exhibit. C130_room and C130_others are complete."
  },
  {
   "property": "C131",
   "status": "partial",
   "theorems": [
    "Berts.Props.C131_outcomes_partial",
    "Berts.Props.C131_failed_counterexample",
    "Berts.Props.C131_room",
    "Berts.Props.C131_twice_counterexample",
    "Berts.Props.C131_lost"
   ],
   "note": "Violated: a model with a matrix that is neither F16 nor F32 (for example one quantized before) makes the quantizer replace the output, which may be the model itself, by a file that is no model file, with status 0 (C131_failed_counterexample, C131_twice_counterexample); so does a full disk (C131_room). Exact otherwise: C131_outcomes_partial says that every run that ends leaves everything as it was, the complete file, or such a file. What a process stopped by an assertion of ggml leaves is not modelled."
  },
  {
   "property": "C132",
   "status": "partial",
   "theorems": [
    "Berts.Props.C132_again_partial",
    "Berts.Props.C132_counterexample"
   ],
   "note": "Proved, byte for byte, for the types F16 and F32 (C132_again_partial; conversion of what was converted must lose nothing; files as for C128). Violated for every other type: the second run leaves a file that is no model file (C132_counterexample; in general C131_twice_counterexample)."
  },
  {
   "property": "C133",
   "status": "partial",
   "theorems": [
    "Berts.Props.C133_detour_partial",
    "Berts.Props.C133_programs_partial",
    "Berts.Props.C133_f32",
    "Berts.Props.C133_counterexample",
    "Berts.Props.C133_iff"
   ],
   "note": "Proved, byte for byte, by way of F32 if F32 keeps all numbers (C133_f32), and by way of F16 for models whose numbers F16 keeps as far as the other type can tell (C133_detour_partial); files as for C128. C133_programs_partial says the same of the programs, for all paths and ways to name the types. Violated for F16 in general: it rounds, and the numbers are quantized after rounding (C133_counterexample, with a rounding conversion). The exact condition, if and only if, is C133_iff."
  }
 ]
}