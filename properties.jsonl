{"id": "C01", "title": "Code-point iteration inverts UTF-16 and repairs lone surrogates", "statement": "Iterating a string by code point yields, for the UTF-16 encoding of any sequence of Unicode scalar values, exactly that sequence; for an arbitrary sequence of 16-bit units it yields the standard maximal-pair decoding in which every unpaired surrogate is reported as U+FFFD (or is dropped when the caller asks to skip invalid units) and every other unit is reported once, in order.", "quantifier": "every sequence of Unicode scalar values, and every sequence of 16-bit code units of any length (well formed or not), with skip_invalid on or off", "why_tests_cant": "the space of unit sequences is infinite and the surrogate state machine carries state between units; tests only try a few strings", "anchors": ["berts/models/unicode.hpp: ustr::each_cp, cp", "berts/models/unicode.cpp: ustr::each, ustr::operator[]"]}
{"id": "C02", "title": "String comparison is a total order that agrees with equality and hashing", "statement": "Comparing two strings is lexicographic by 16-bit code unit: it is reflexive, antisymmetric, transitive and total, answers 'equal' exactly when the two strings have the same units, agrees with operator==, and equal strings always hash equally (so the strings can be used as keys of ordered and unordered containers). Strings that have never been assigned should compare as empty.", "quantifier": "all pairs and triples of strings of any length, including default-constructed ones", "why_tests_cant": "transitivity and totality quantify over all triples; a default-constructed string reads an uninitialised field, which tests see only by luck", "anchors": ["berts/models/unicode.cpp: ustr::operator==, ustr::operator<=>, ustr_impl", "berts/models/unicode.hpp: std::hash<ustr>"]}
{"id": "C03", "title": "String concatenation and copying are exact and alias-safe", "statement": "a + b has exactly the units of a followed by those of b; a += b leaves in a exactly that value, also when a and b are the same object; copying yields an equal string, moving transfers the value and leaves the source empty; no other string changes.", "quantifier": "all pairs of strings of any length, including the aliased pair", "why_tests_cant": "aliasing and length combinations are unbounded", "anchors": ["berts/models/unicode.cpp: ustr::operator+, ustr::operator+=, ustr_impl copy/move"]}
{"id": "C04", "title": "starts_with / ends_with mean prefix / suffix", "statement": "s.starts_with(p) is true exactly when the units of p are an initial segment of the units of s, and s.ends_with(p) exactly when they are a final segment.", "quantifier": "all pairs of strings", "why_tests_cant": "a byte-count/unit-count mix-up is invisible unless the differing unit lies in the unexamined half; all pairs are needed", "anchors": ["berts/models/unicode.cpp: ustr::starts_with, ustr::ends_with"]}
{"id": "C05", "title": "Case mapping returns the mapped string", "statement": "to_lower (to_upper) succeeds on every valid non-empty string and stores in the output the case mapping that ICU computes for the input, leaving the input usable.", "quantifier": "every non-empty string and every ICU case mapping that obeys ICU's documented preflight contract", "why_tests_cant": "depends on the error-code protocol of an external library for all inputs; the repository has no test of these functions and all shipped tests use cased models", "anchors": ["berts/models/unicode.cpp: unicode::to_lower, unicode::to_upper"]}
{"id": "C06", "title": "lstrip / rstrip remove exactly the blank margin", "statement": "lstrip returns the longest suffix of the text (as code points) that does not begin with a blank character, rstrip the longest prefix that does not end with one; nothing else is removed or altered.", "quantifier": "every text and every classification of characters as blank", "why_tests_cant": "all lengths of margins and all texts", "anchors": ["berts/models/unicode.cpp: ustr::lstrip, ustr::rstrip"]}
{"id": "C07", "title": "UTF-8 conversion round-trips and invalid bytes give the empty string", "statement": "Constructing a string from the UTF-8 encoding of any sequence of scalar values and encoding it back gives the original bytes; distinct valid byte strings give distinct strings; a byte string that is not valid UTF-8 gives a string that is empty().", "quantifier": "all byte strings", "why_tests_cant": "infinitely many byte strings, most of them ill-formed", "anchors": ["berts/models/unicode.cpp: ustr::ustr(const char*, size_t), ustr::encode"]}
{"id": "C08", "title": "Regex splitting partitions the text", "statement": "regex.split returns pieces which, concatenated in order, are exactly the input text; every match is one piece, every maximal gap between matches is one piece, and the return value is the number of pieces added.", "quantifier": "every text and every sequence of ordered, non-overlapping matches a regex engine can report", "why_tests_cant": "all texts and all patterns", "anchors": ["berts/models/unicode.cpp: regex::split"]}
{"id": "C09", "title": "Vocabulary trie is an exact dictionary", "statement": "After building the trie from a vocabulary list, looking up a string returns the index of its (last) occurrence in the list if it is a non-empty entry, and 'invalid' otherwise.", "quantifier": "every vocabulary list of any size (duplicates, prefixes of one another and empty entries included) and every query string", "why_tests_cant": "all vocabularies and all queries, incl. keys that share prefixes", "anchors": ["berts/models/trie.cpp: trie::build_trie, add_vocab, search_trie"]}
{"id": "C10", "title": "Prefix search reports the longest vocabulary prefix", "statement": "Searching a text for a vocabulary prefix returns the id of the longest vocabulary entry that is a prefix of the text, and 'invalid' exactly when no entry is a prefix of it.", "quantifier": "every vocabulary and every text", "why_tests_cant": "all combinations of overlapping keys", "anchors": ["berts/models/trie.cpp: search_trie_substr, find_substr"]}
{"id": "C11", "title": "Prefix search splits the text at the match it reports", "statement": "When the prefix search succeeds, the reported 'found' part is exactly the vocabulary entry whose id is returned, and 'rest' is exactly the remaining text, so no character is skipped or consumed twice.", "quantifier": "every vocabulary and every text", "why_tests_cant": "fails only when the text follows a longer vocabulary entry past the match and then leaves it: a relation between text and whole vocabulary", "anchors": ["berts/models/trie.cpp: find_substr, search_trie_substr"]}
{"id": "C12", "title": "Whitespace splitting of the BERT pre-tokenizer", "statement": "The words produced by text cleaning contain no space and are never empty; in the basic mode they contain no NUL, no U+FFFD and no control character; concatenated in order they are exactly the text with blanks, NULs, U+FFFD and control characters removed.", "quantifier": "every text, every character classification", "why_tests_cant": "all texts and all Unicode classification tables", "anchors": ["berts/models/bert.cpp: clean_text_and_split"]}
{"id": "C13", "title": "CJK and punctuation characters become separate words", "statement": "With the CJK option every CJK ideograph is a word of its own after cleaning; after the basic tokenizer every punctuation character outside protected words is a word of its own and no other produced word contains punctuation; splitting at punctuation loses and reorders nothing.", "quantifier": "every text, every punctuation/ideograph classification", "why_tests_cant": "all texts", "anchors": ["berts/models/bert.cpp: clean_text_and_split, basic_tokenize"]}
{"id": "C14", "title": "WordPiece is greedy longest-match-first", "statement": "Each word is replaced by the pieces of the reference WordPiece algorithm: repeatedly take the longest vocabulary entry that is a prefix of what is left of the word (prefixed by '##' after the first piece); if at some point none matches, the word yields the unknown token.", "quantifier": "every vocabulary that has a '##' entry, every list of words", "why_tests_cant": "the difference shows only for particular combinations of vocabulary and text", "anchors": ["berts/models/bert.cpp: wordpiece_tokenize", "berts/models/trie.cpp: search_trie_substr"]}
{"id": "C15", "title": "WordPiece treats words independently", "statement": "The tokens produced for a word do not depend on the words before it: tokenizing a list of words gives the concatenation of tokenizing each word alone.", "quantifier": "every vocabulary, every list of words", "why_tests_cant": "state leaks from one word to the next only after particular failures; needs all histories of words", "anchors": ["berts/models/bert.cpp: wordpiece_tokenize (root)"]}
{"id": "C16", "title": "BERT tokenization returns valid ids framed by [CLS] and [SEP]", "statement": "If berts_tokenize succeeds on a BERT model, the id list starts with the CLS id, ends with the SEP id, and every id is smaller than the vocabulary size.", "quantifier": "every vocabulary accepted by the loader, every text", "why_tests_cant": "all vocabularies and texts; ids that come from model metadata are involved", "anchors": ["berts/models/bert.cpp: model::tokenize, tokenize, vocab::init", "berts/berts.cpp: berts_tokenize"]}
{"id": "C17", "title": "Lower-casing models keep the text", "statement": "With do_lower_case the words given to WordPiece are the lower-cased words of the text: tokenizing does not silently drop words.", "quantifier": "every text, with do_lower_case on", "why_tests_cant": "all texts; no test in the repository covers an uncased model", "anchors": ["berts/models/bert.cpp: basic_tokenize", "berts/models/unicode.cpp: unicode::to_lower"]}
{"id": "C18", "title": "Protected special tokens survive pre-tokenization", "statement": "A word that is literally one of the special tokens is passed on unchanged (never lower-cased, never split at its brackets), and so is mapped to its own id.", "quantifier": "every text, every set of special tokens, all option settings", "why_tests_cant": "all texts and option combinations", "anchors": ["berts/models/bert.cpp: basic_tokenize (never_split)"]}
{"id": "C19", "title": "BPE merging terminates", "statement": "Tokenizing a word with BPE terminates for every vocabulary, merge table, dropout probability and sequence of random draws, within a number of queue operations that is bounded linearly in the length of the word.", "quantifier": "every merge table, every text, every stream of random numbers, every dropout value", "why_tests_cant": "non-termination cannot be observed by a finite test; the skip list re-fills the queue", "anchors": ["berts/models/bpe.cpp: merge_all"]}
{"id": "C20", "title": "BPE is lossless", "statement": "If every character of the text is in the vocabulary and no word prefix/suffix is configured, the produced token strings concatenate to exactly the text, whatever merges happen and whatever the dropout.", "quantifier": "every vocabulary loaded successfully, every text, every dropout/random stream", "why_tests_cant": "all texts, all merge tables and all schedules of random skips", "anchors": ["berts/models/bpe.cpp: merge_word, merge_all, word_to_tokens, load_vocab"]}
{"id": "C21", "title": "BPE leaves no applicable merge", "statement": "With dropout 0 no two adjacent symbols of the result are a pair of the merge table.", "quantifier": "every merge table, every text", "why_tests_cant": "completeness of the priority queue must hold along all merge orders", "anchors": ["berts/models/bpe.cpp: merge_all"]}
{"id": "C22", "title": "BPE equals the reference merge algorithm", "statement": "With dropout 0 the result equals that of the textbook algorithm: as long as some adjacent pair is in the merge table, merge the pair of lowest rank (leftmost first).", "quantifier": "every vocabulary and merge list accepted by load_vocab, every text, every tie-breaking of the priority queue", "why_tests_cant": "stale queue entries and index links must be right for all histories; the reference is quadratic and only agrees if invariants hold", "anchors": ["berts/models/bpe.cpp: merge_all, merge_word", "berts/models/bpe.hpp: merge_t"]}
{"id": "C23", "title": "The BPE cache is invisible", "statement": "With dropout 0, tokenizing any sequence of texts with a shared cache that starts empty gives for each text the same result as without a cache.", "quantifier": "every sequence of tokenize calls sharing a cache", "why_tests_cant": "quantifies over call histories", "anchors": ["berts/models/bpe.cpp: bpe::tokenize_bpe, tokenize"]}
{"id": "C24", "title": "Full dropout performs no merge", "statement": "With dropout 1 every character stays its own token, and for every dropout value the result is a segmentation reachable from the characters by merges of the table only.", "quantifier": "every text, merge table, random stream with values in [0,1)", "why_tests_cant": "all random streams", "anchors": ["berts/models/bpe.cpp: merge_all"]}
{"id": "C25", "title": "Loading a BPE vocabulary records exactly the given merges", "statement": "load_vocab succeeds exactly when each pair's two ids and the id of the concatenated token are known; afterwards a pair of ids has a merge entry iff it is in the list, its rank is the position of its last occurrence and its result is the id of the concatenation.", "quantifier": "every vocabulary and list of pairs", "why_tests_cant": "all lists, with repeated pairs and missing tokens", "anchors": ["berts/models/bpe.cpp: bpe::load_vocab"]}
{"id": "C26", "title": "Clearing a BPE tokenizer forgets everything", "statement": "After clear() every lookup by token or by id fails until a vocabulary is loaded again.", "quantifier": "every history of load_vocab and clear calls", "why_tests_cant": "histories of calls", "anchors": ["berts/models/bpe.hpp: bpe::clear", "berts/models/bpe.cpp: id_to_token, token_to_id"]}
{"id": "C27", "title": "Unknown characters are covered by unknown tokens", "statement": "Characters outside the vocabulary yield the unknown token: with fuse_unk each maximal run of them yields exactly one, without it exactly one each; if no unknown token is configured (or it is not in the vocabulary) they are dropped and nothing else is.", "quantifier": "every vocabulary and text", "why_tests_cant": "all runs of known and unknown characters", "anchors": ["berts/models/bpe.cpp: merge_word"]}
{"id": "C28", "title": "The byte alphabet is injective and printable", "statement": "The byte-to-character table maps the 256 bytes to 256 different characters, maps printable bytes to themselves and never produces a blank or control character, so byte strings can be recovered from their encoding.", "quantifier": "all byte strings (via all 256 bytes)", "why_tests_cant": "injectivity lifted to all strings", "anchors": ["berts/models/roberta.cpp: byte_encoder"]}
{"id": "C29", "title": "RoBERTa id_to_token returns the bytes the token stands for", "statement": "For each id, id_to_token returns the byte string whose byte-level encoding is the vocabulary entry, and token_to_id maps it back to the id.", "quantifier": "every vocabulary of byte-level tokens and every id", "why_tests_cant": "the decoder is right for ASCII and most of Latin-1, so sampled tests pass", "anchors": ["berts/models/roberta.cpp: vocab::id_to_token, vocab::token_to_id"]}
{"id": "C30", "title": "RoBERTa tokenization is defined for every UTF-8 text", "statement": "Tokenizing any UTF-8 text (and looking up any token string) never reads outside the byte table, on every platform.", "quantifier": "every text, both signedness choices of plain char", "why_tests_cant": "undefined behaviour may look right on the test platform; depends on the platform's char signedness", "anchors": ["berts/models/roberta.cpp: tokenize (byte_encoder[c]), vocab::token_to_id"]}
{"id": "C31", "title": "Special-token splitting terminates and loses nothing", "statement": "Splitting the text at special tokens terminates and its pieces concatenate to the text; each piece is either a special token or contains none starting at a scan position; for any order in which the set of special tokens is visited.", "quantifier": "every text, every set of special tokens reachable through model metadata, every iteration order of the hash set", "why_tests_cant": "non-termination and iteration order of an unordered container", "anchors": ["berts/models/roberta.cpp: tokenize (step 1)"]}
{"id": "C32", "title": "RoBERTa tokenization is lossless", "statement": "For a text without special tokens, the strings of the produced ids (via id_to_token) concatenate to the text.", "quantifier": "every text, every byte-complete vocabulary, every regex splitting", "why_tests_cant": "all texts, vocabularies and merge tables", "anchors": ["berts/models/roberta.cpp: tokenize, vocab::id_to_token", "berts/models/bpe.cpp: tokenize_bpe"]}
{"id": "C33", "title": "RoBERTa position ids", "statement": "The position of the k-th non-pad token is pad_id + k (k from 1), pads get position 0; positions of distinct non-pad tokens differ.", "quantifier": "every token sequence and pad id", "why_tests_cant": "all token sequences", "anchors": ["berts/models/roberta.cpp: build_graph (positions)"]}
{"id": "C34", "title": "Every accepted input addresses existing embedding rows", "statement": "If eval accepts an input, all row indices it looks up (token, position, segment) are inside the respective embedding tables.", "quantifier": "every token list, segment list and model shape", "why_tests_cant": "out-of-range lookups need boundary lengths and ids; failure is memory-unsafe, not a test failure", "anchors": ["berts/models/model_berts.hpp: eval", "berts/models/roberta.cpp: build_graph", "berts/models/bert.cpp: build_graph"]}
{"id": "C35", "title": "Vocabulary ids and tokens are in bijection", "statement": "After any sequence of additions, ids are 0..count-1 in order of first insertion, id_to_token and token_to_id are mutually inverse, duplicates are rejected without any change, unknown tokens give 'invalid' and unknown ids the empty string; clear empties it.", "quantifier": "every history of add/clear operations", "why_tests_cant": "quantifies over histories", "anchors": ["berts/models/model_base.hpp: vocab_base2"]}
{"id": "C36", "title": "Vocabulary file round trip", "statement": "The vocabulary read by the loader from what the converter wrote is exactly the original token list, for every list of distinct tokens of at most 256 bytes.", "quantifier": "every list of distinct byte strings of at most 256 bytes", "why_tests_cant": "all lists; the length encoding wraps at 256", "anchors": ["berts/models/convert_hf_to_gguf.py: write_vocab", "berts/models/model_base.hpp: init_vocab"]}
{"id": "C37", "title": "Loading a vocabulary blob is memory safe and strict", "statement": "init_vocab never reads outside the vocabulary data and succeeds only if the lengths exactly cover the data and tokens are distinct.", "quantifier": "every pair of length and data blobs (arbitrary, possibly corrupt files)", "why_tests_cant": "corrupt files are unbounded; out-of-bounds reads need not crash", "anchors": ["berts/models/model_base.hpp: init_vocab"]}
{"id": "C38", "title": "Special token ids are resolved by key, then by fallback tokens", "statement": "Loading a BERT/RoBERTa vocabulary succeeds only if all required special ids are determined; each is the metadata value if present, else the id of the first fallback token in the vocabulary (for RoBERTa bos/cls and eos/sep substitute each other); all special ids then are valid vocabulary ids.", "quantifier": "every metadata and vocabulary", "why_tests_cant": "all combinations of present/absent keys and tokens", "anchors": ["berts/models/model_base.hpp: get_token_id", "berts/models/bert.cpp: vocab::init", "berts/models/roberta.cpp: vocab::init"]}
{"id": "C39", "title": "The converter fills vocabulary holes with unique tokens", "statement": "The converter's token list has no gap and no duplicate: every id missing from the tokenizer's vocabulary gets a fresh placeholder name.", "quantifier": "every partial vocabulary", "why_tests_cant": "collisions with existing [unusedN] tokens depend on the whole vocabulary", "anchors": ["berts/models/convert_hf_to_gguf.py: write_vocab"]}
{"id": "C40", "title": "eval reports the needed size and never overruns the caller's buffer", "statement": "On success berts_eval sets out_count to hidden_dim (or hidden_dim times the number of tokens without pooling) and writes exactly the first min(given, needed) values into the buffer; with a null buffer it writes nothing and reports the size; the size computation does not overflow.", "quantifier": "every model shape, input length, pooling and capacity", "why_tests_cant": "all sizes incl. 64-bit wrap-around", "anchors": ["berts/models/model_berts.hpp: eval", "berts/berts.cpp: berts_eval"]}
{"id": "C41", "title": "Layer selection accepts exactly -n..n", "statement": "A real (non dry-run) eval accepts output_layer exactly when -n_layers <= L <= n_layers; 0 denotes the embedding output, negative values count from the last layer (-1 the last, -n_layers the first).", "quantifier": "all 64-bit values of output_layer and all layer counts", "why_tests_cant": "2^64 values; INT64_MIN negation is undefined behaviour", "anchors": ["berts/models/model_berts.hpp: eval"]}
{"id": "C42", "title": "A successful dry run predicts the real run's size and acceptance", "statement": "If a dry run (null output) succeeds with size s then the real run with the same arguments and a buffer of size s is accepted and reports the same s.", "quantifier": "all inputs", "why_tests_cant": "relates two calls for all arguments", "anchors": ["berts/models/model_berts.hpp: eval"]}
{"id": "C43", "title": "eval_lm never overruns the caller's buffers", "statement": "berts_eval_lm writes at most out_count entries (the value passed in) to each output buffer and reads only existing probability entries.", "quantifier": "every top_k, capacity, vocabulary size and token count", "why_tests_cant": "overflow needs top_k or capacity boundary values", "anchors": ["berts/models/model_berts.hpp: eval_lm"]}
{"id": "C44", "title": "eval_lm returns matching ids and probabilities in descending order", "statement": "The i-th returned probability is the probability of the i-th returned token of that position, ids are a permutation (all) or the k best, in descending order of probability.", "quantifier": "every probability matrix, every top_k", "why_tests_cant": "all matrices", "anchors": ["berts/models/model_berts.hpp: eval_lm"]}
{"id": "C45", "title": "BERT graph memory estimate is exact", "statement": "The buffer size computed before evaluating a BERT model equals the memory consumed by building the graph, for every input length, pooling and number of layers run, so building never runs out of memory.", "quantifier": "every model shape (heads dividing the hidden size), input length, pooling, layer count", "why_tests_cant": "all shapes; an under-estimate aborts the process only for some sizes (alignment)", "anchors": ["berts/models/bert.cpp: get_context_buffer_size, build_graph", "berts/models/ggml.hpp"]}
{"id": "C46", "title": "RoBERTa graph memory estimate is exact", "statement": "Same as the BERT estimate, for RoBERTa.", "quantifier": "every model shape, input length, pooling, layer count", "why_tests_cant": "all shapes", "anchors": ["berts/models/roberta.cpp: get_context_buffer_size, build_graph", "berts/models/ggml.hpp"]}
{"id": "C47", "title": "LM-head memory estimate is exact", "statement": "The buffer size computed before berts_eval_lm equals the memory consumed by building the LM graph (BERT and RoBERTa), with and without top-k.", "quantifier": "every model shape, token count, top_k", "why_tests_cant": "all shapes", "anchors": ["berts/models/bert.cpp: get_context_buffer_size_for_lm, build_lm_graph", "berts/models/roberta.cpp: get_context_buffer_size_for_lm, build_lm_graph"]}
{"id": "C48", "title": "Weight memory estimate suffices", "statement": "The weight context allocated while loading a model is large enough for all tensors of the file, whatever their number, types and shapes.", "quantifier": "every list of tensors", "why_tests_cant": "all lists of tensor sizes", "anchors": ["berts/models/gguf.cpp: init_gg"]}
{"id": "C49", "title": "Calls without a loaded model fail cleanly", "statement": "With a null or model-less context every id accessor and token_to_id returns the invalid id, size is 0, arch is unknown, boolean calls return false and output arguments are untouched.", "quantifier": "every argument combination with a null/unloaded context", "why_tests_cant": "all argument combinations", "anchors": ["berts/berts.cpp"]}
{"id": "C50", "title": "The output-length protocol of berts_tokenize and berts_id_to_token", "statement": "With capacity c and result length n the functions write exactly the first min(c,n) elements, nothing beyond, and set the length to n (truncation is detectable); with a null buffer they only report n; a second call with capacity n returns the whole result.", "quantifier": "every capacity, every text/id", "why_tests_cant": "all capacities and result lengths", "anchors": ["berts/berts.cpp: berts_tokenize, berts_id_to_token"]}
{"id": "C51", "title": "Everything acquired by loading is released", "statement": "After berts_free, or after a load that fails at any point, every context acquired during loading has been released exactly once.", "quantifier": "every failure point of loading", "why_tests_cant": "crash/failure points inside external calls are not reachable by tests", "anchors": ["berts/models/gguf.cpp: load_from_file, load_model", "berts/models/internal.cpp", "berts/models/utils.hpp"]}
{"id": "C52", "title": "Owning handles free exactly once", "statement": "Under every sequence of construction, move construction, (self-)move assignment, release, dispose and destruction of owning handles, each wrapped resource is freed at most once, never while another handle owns it, and exactly once unless it was released.", "quantifier": "every history of handle operations", "why_tests_cant": "histories of moves", "anchors": ["berts/models/utils.hpp: unique_ctx"]}
{"id": "C53", "title": "Messages at or above the configured level are written", "statement": "A message of severity s is written iff the configured level is at most s and a log file is set, whichever overload (plain, formatted, lazy) is used.", "quantifier": "every level, severity and overload", "why_tests_cant": "per-overload gating must hold for all combinations; messages containing % are data-dependent UB", "anchors": ["berts/models/log.hpp", "berts/models/log.cpp"]}
{"id": "C54", "title": "Quantizer converts exactly the 2-D weights", "statement": "The quantizer re-encodes exactly those tensors whose name ends in 'weight' and that have two dimensions, copies all others byte for byte, and fails if such a weight is not F16/F32.", "quantifier": "every list of tensors", "why_tests_cant": "all lists of names and shapes", "anchors": ["berts/models/quantize.cpp: quantize_model_file"]}
{"id": "C55", "title": "Quantized file layout is consistent", "statement": "Each tensor's data starts in the output at the data offset plus the offset recorded for it in the metadata, is aligned, does not overlap others, and metadata exactly fills the reserved header.", "quantifier": "every list of tensors and alignment", "why_tests_cant": "all lists of sizes", "anchors": ["berts/models/quantize.cpp: quantize_model_file"]}
{"id": "C56", "title": "Truncated model files are rejected", "statement": "load_from_file returns a context only if every tensor's bytes were completely present in the file.", "quantifier": "every file length (crash point of the writer) and tensor layout", "why_tests_cant": "all truncation points", "anchors": ["berts/models/gguf.cpp: load_from_file"]}
{"id": "C57", "title": "Only supported models are loaded", "statement": "A model is returned only for GELU BERT/RoBERTa models with all required tensors and metadata; each rejected file yields null (or an abort for missing mandatory metadata), never a half-initialised context.", "quantifier": "every metadata/tensor directory", "why_tests_cant": "all subsets of missing keys and tensors", "anchors": ["berts/models/gguf.cpp: load_from_file", "berts/models/bert.cpp: weights::init", "berts/models/roberta.cpp: weights::init"]}
{"id": "C58", "title": "Quantization type names parse back", "statement": "The command line accepts each type by its name (any letter case) or number and nothing else; printing and parsing are inverse.", "quantifier": "every argument string", "why_tests_cant": "all strings incl. out-of-range numbers", "anchors": ["berts/examples/quant.cpp: parse_ftype"]}
{"id": "C59", "title": "The fill-mask example reads only tokens it received", "statement": "The example program only reads token ids that berts_tokenize stored.", "quantifier": "every prompt", "why_tests_cant": "short prompts make the token count exceed the buffer", "anchors": ["berts/examples/fill_mask.cpp"]}
{"id": "C60", "title": "Slicing and indexing strings by code point", "statement": "Indexing outside the string gives U+FFFD and never reads out of bounds; slicing [b, b+n) returns exactly the code points at these positions.", "quantifier": "all strings and indices", "why_tests_cant": "all strings/indices", "anchors": ["berts/models/unicode.cpp: ustr::operator[]", "berts/models/bpe.cpp: slice"]}
{"id": "C61", "title": "The attention sub-graph computes multi-head attention", "statement": "The sequence of reshapes, permutations and matrix products of a layer computes, for each head and token, the softmax-weighted sum of the value vectors of that head, laid out as the concatenation of heads (over exact arithmetic).", "quantifier": "all sizes, all weights, all inputs", "why_tests_cant": "index arithmetic of 4-D permutations over all shapes; tests compare against one reference output only", "anchors": ["berts/models/bert.cpp: build_graph", "berts/models/roberta.cpp: build_graph"]}
{"id": "C62", "title": "Pooling selects what its name says", "statement": "CLS pooling feeds the first token's row to the pooler, AVG the mean, MAX the maximum over tokens of each feature; NONE returns all rows unchanged.", "quantifier": "all inputs and sizes", "why_tests_cant": "all inputs", "anchors": ["berts/models/bert.cpp: build_graph (pooler)", "berts/models/roberta.cpp: build_graph (pooler)"]}
{"id": "C63", "title": "RoBERTa tokenization only produces ids of the vocabulary", "statement": "Every id that RoBERTa tokenization produces is the id of a vocabulary entry, so it can be handed to id_to_token and to the embedding lookup.", "quantifier": "every text, vocabulary, metadata and platform", "why_tests_cant": "quantifies over corrupt metadata and all texts", "anchors": ["berts/models/roberta.cpp: tokenize"]}
{"id": "C64", "title": "RoBERTa positions are those of the reference implementation", "statement": "The position index of each token is the one the original model was trained with: padding_idx for pads, padding_idx + k for the k-th other token.", "quantifier": "every token sequence and pad id", "why_tests_cant": "all sequences; a wrong row of the position table only shifts numbers", "anchors": ["berts/models/roberta.cpp: build_graph (positions)"]}
{"id": "C65", "title": "Special tokens written in a RoBERTa text get their own ids", "statement": "A text is cut at special tokens; each special token becomes exactly its id, and the ids of the text between them spell that text (without the blanks directly before the mask token).", "quantifier": "every text with any number of special tokens, every vocabulary", "why_tests_cant": "all mixtures of text and special tokens, all set iteration orders", "anchors": ["berts/models/roberta.cpp: tokenize"]}
{"id": "C66", "title": "The fill-mask example prints the best tokens", "statement": "For a prompt with exactly one mask, the program prints k different tokens with their names and probabilities, in descending order of the probability the model gives them at the mask, and no other token is more probable.", "quantifier": "every model, vocabulary, prompt and k", "why_tests_cant": "depends on all offsets of hidden states and of the result arrays for every prompt length, mask position and k", "anchors": ["berts/examples/fill_mask.cpp: main"]}
{"id": "C67", "title": "The fill-mask example validates k", "statement": "The argument k is accepted iff it is a positive number that fits an int; everything else is answered with an error message and exit status 1.", "quantifier": "every argument string", "why_tests_cant": "all strings; exceptions of the number parser", "anchors": ["berts/examples/fill_mask.cpp: main"]}
{"id": "C68", "title": "The quantizer program reports failure", "statement": "The exit status of the quantizer program is 0 iff the quantized model was written.", "quantifier": "every argument list and outcome of the library call", "why_tests_cant": "failures inside external calls", "anchors": ["berts/examples/quant.cpp: main"]}
{"id": "C69", "title": "A successful quantization means a complete file", "statement": "The quantizer returns true only if the whole output file (metadata and data of all tensors) has been written.", "quantifier": "every source model and every amount of space on the output device", "why_tests_cant": "write failures at every byte position", "anchors": ["berts/models/quantize.cpp: berts_model_quantize"]}
{"id": "C70", "title": "Tokenizer options have the meaning of the reference tokenizer", "statement": "A metadata key that is absent has the default of the reference tokenizer (lower-casing, basic tokenization and CJK splitting on; accents stripped iff lower-casing is on), and with do_basic_tokenize off the text is only cut at whitespace.", "quantifier": "every combination of present/absent keys, every text, every behaviour of ICU", "why_tests_cant": "keys combine with each other and with every text", "anchors": ["berts/models/bert.cpp: tokenizer_info_basic, tokenizer_info_no_basic, vocab::init, basic_tokenize"]}
{"id": "C71", "title": "RoBERTa ids are those of reference byte-level BPE", "statement": "For a loaded RoBERTa vocabulary and merge list, the ids of a text are those of the reference tokenizer: the text is cut at the special tokens, each remaining piece (without the blanks before a mask token) at the matches of the GPT-2 regular expression, each word is written in the byte alphabet, merged by textbook BPE with the merges of the file in file order, and the resulting tokens are looked up.", "quantifier": "every vocabulary, merge list, text, special tokens, hash iteration order", "why_tests_cant": "depends on every interplay of splitting, byte alphabet, merge ranks and cache over all texts and merge lists", "anchors": ["berts/models/roberta.cpp: vocab::init, tokenize, model::tokenize", "berts/models/bpe.cpp"]}
{"id": "C72", "title": "The C interface shows the loaded vocabulary", "statement": "For a loaded model, berts_arch is its architecture, berts_vocab_size the number of its tokens, berts_token_to_id and berts_id_to_token are the two directions of its vocabulary (failing on unknown tokens and ids), the special-id accessors report the tokens with the conventional names when the file does not say otherwise, and berts_tokenize frames the ids of the text with CLS and SEP.", "quantifier": "every vocabulary, token, id and buffer", "why_tests_cant": "all vocabularies and ids", "anchors": ["berts/berts.cpp", "berts/models/model_base.hpp: model_base", "berts/models/bert.cpp: vocab", "berts/models/roberta.cpp: vocab"]}
{"id": "C73", "title": "A loaded model can be evaluated", "statement": "If berts_load_from_file returns a context, berts_eval on it accepts every token list within the limits of the model and returns the reference hidden states or pooled vectors of the weights in the file; it never fails, aborts or reads out of bounds.", "quantifier": "every file that loads, every accepted input, layer and pooling", "why_tests_cant": "depends on the shapes of all tensors and all hyperparameters of arbitrary files", "anchors": ["berts/models/gguf.cpp: load_from_file", "berts/models/bert.cpp: init_weight", "berts/models/model_berts.hpp: eval"]}
{"id": "C74", "title": "The ids of every tokenized text can be evaluated", "statement": "Whatever ids berts_tokenize delivers for a text (not more than the model allows), berts_eval of the same context with null segments succeeds on them and returns the reference result.", "quantifier": "every file that loads, every text, every behaviour of ICU, layer and pooling", "why_tests_cant": "links vocabulary, special ids and embedding tables of arbitrary files with arbitrary texts", "anchors": ["berts/berts.cpp: berts_tokenize, berts_eval", "berts/models/model_base.hpp: init_vocab, get_token_id", "berts/models/model_berts.hpp: eval"]}
{"id": "C75", "title": "A converted model loads as the model it was made from", "statement": "The converter succeeds on a BERT or RoBERTa model, and berts_load_from_file of the file it writes returns a context with the same hyperparameters, the same vocabulary (id by id), the same special tokens, the same tokenizer options, and every weight rounded to the stored type, under the same name and with the same shape.", "quantifier": "every source model: configuration, tokenizer, parameters; both file types", "why_tests_cant": "ties a Python writer to a C++ reader over all configurations, vocabularies and parameters", "anchors": ["berts/models/convert_hf_to_gguf.py", "berts/models/gguf.cpp: load_from_file", "berts/models/model_base.hpp: init_vocab", "berts/models/bert.cpp", "berts/models/roberta.cpp"]}
{"id": "C76", "title": "Evaluating a converted model computes the source model", "statement": "Converting a model, loading the file, tokenizing any text and evaluating the ids gives the reference hidden states or pooled vector for the configuration and the (rounded) parameters of the source.", "quantifier": "every source model, text, layer and pooling; every behaviour of ICU and arithmetic", "why_tests_cant": "the whole pipeline over all models and texts", "anchors": ["berts/models/convert_hf_to_gguf.py", "berts/berts.cpp: berts_tokenize, berts_eval", "berts/models/model_berts.hpp: eval"]}
{"id": "C77", "title": "A converted RoBERTa model tokenizes like its source", "statement": "The ids a converted and loaded RoBERTa model gives a text are those of reference byte-level BPE with the vocabulary and the bpe_ranks of the source tokenizer.", "quantifier": "every source tokenizer, every text, every hash iteration order", "why_tests_cant": "merge priorities pass through a file written by one program and read by another; all merge lists and texts", "anchors": ["berts/models/convert_hf_to_gguf.py: write_merge", "berts/models/roberta.cpp: vocab::init", "berts/models/bpe.cpp: load_vocab"]}
{"id": "C78", "title": "Fill-mask prints the best tokens of the source model", "statement": "Convert a masked language model and give the file to the fill-mask program together with a number n and a text that contains the mask once: the program exits with 0 and prints the n tokens with the highest reference probabilities, for the configuration and the (rounded) parameters of the source, at the position of the mask, in descending order, with their names and probabilities.", "quantifier": "every source model with a language model head, every text with one mask, every n; every behaviour of ICU, hashing and arithmetic", "why_tests_cant": "composes a Python writer, the loader, both tokenizers, the graph, sorting and the command line over all models and texts", "anchors": ["berts/models/convert_hf_to_gguf.py", "berts/examples/fill_mask.cpp: main", "berts/berts.cpp: berts_tokenize, berts_eval_lm", "berts/models/model_berts.hpp: eval_lm"]}
{"id": "C79", "title": "Special tokens in a BERT text are recognised wherever they stand", "statement": "A special token such as [MASK] written in a text gets its own id, whatever stands before and behind it, and what is before and behind it is tokenized as if it were alone (as in the reference tokenizer, which cuts the text at special tokens first).", "quantifier": "every text, special token, vocabulary, option and behaviour of ICU", "why_tests_cant": "all neighbours of the token in all texts", "anchors": ["berts/models/bert.cpp: tokenize, basic_tokenize, clean_text_and_split, wordpiece_tokenize"]}
{"id": "C80", "title": "A quantized model is its source with converted weights", "statement": "If a model can be loaded and its matrices are F32 or F16, berts_model_quantize (and the quant program) writes a file that berts_load_from_file loads as the same model: same hyperparameters, vocabulary, special tokens and tokenizer options; every two-dimensional weight is the source's weight converted to the new type and all other tensors are unchanged. It tokenizes every text as the source does and evaluates every input of the source to the reference value for the converted weights.", "quantifier": "every source file, every type, every conversion by ggml, every text and input", "why_tests_cant": "a writer and a reader have to agree on layout and metadata for all files", "anchors": ["berts/models/quantize.cpp: berts_model_quantize", "berts/models/gguf.cpp: load_from_file", "berts/examples/quant.cpp: main"]}
{"id": "C81", "title": "BERT words are those of the Python BasicTokenizer", "statement": "basic_tokenize cuts a text into the same words as BasicTokenizer.tokenize of the transformers package does with the same options: the classes of characters (white space, control, punctuation, ideographs, accents) are the same, and so are cleaning, normalising, splitting and the treatment of special tokens.", "quantifier": "every text, set of special tokens, option and Unicode data", "why_tests_cant": "the reference is in another language with another Unicode library; all characters and texts", "anchors": ["berts/models/bert.cpp: clean_text_and_split, basic_tokenize", "berts/models/unicode.cpp: category, is_category, is_whitespace, is_control, is_punct"]}
{"id": "C82", "title": "A converted BERT model tokenizes like its source", "statement": "The ids that a converted and loaded BERT model gives a text through the C interface are those of the transformers tokenizer (BasicTokenizer, then WordpieceTokenizer) with the vocabulary and options of the source, between CLS and SEP.", "quantifier": "every source tokenizer, vocabulary, option and text", "why_tests_cant": "a vocabulary and options pass through a file written by one program and read by another; all vocabularies and texts", "anchors": ["berts/models/convert_hf_to_gguf.py", "berts/models/bert.cpp: vocab::init, tokenize, wordpiece_tokenize", "berts/berts.cpp: berts_tokenize"]}
{"id": "C83", "title": "The exit status of fill-mask tells whether results were printed", "statement": "Whenever the fill-mask program ends by itself, either its status is 0 and it printed as many results as it was asked for, after being given three arguments, a positive number not above the vocabulary size, a model that loads, and a text with exactly one mask; or its status is 1 and it printed no result. Every one of these conditions that fails, and a model without language model head, gives status 1.", "quantifier": "every command line, every file, every text; every behaviour of ICU, hashing and arithmetic", "why_tests_cant": "all command lines and files; failures in the middle of the program", "anchors": ["berts/examples/fill_mask.cpp: main"]}
{"id": "C84", "title": "The table of fill-mask shows each result on a line", "statement": "The output has a line per result, in order, numbered from 0, with the name of the token filled up with blanks to the length of the longest name, its id in parentheses, and its probability.", "quantifier": "every list of results and every formatting of numbers", "why_tests_cant": "all names and lengths", "anchors": ["berts/examples/fill_mask.cpp: main"]}
{"id": "C85", "title": "The C++ interface and the default settings agree with the C interface", "statement": "berts::eval with a vector of tokens (with or without segments) does what berts_eval does with the same arguments; no segments means segment 0 for every token. The default settings of berts_init_eval_info evaluate all layers with pooling of the first token, those of berts_init_eval_lm_info ask for the whole vocabulary.", "quantifier": "every context, input, setting and buffer", "why_tests_cant": "two interfaces over all arguments, null pointers and buffer sizes", "anchors": ["berts/berts.cpp: berts_init_eval_info, berts_init_eval_lm_info, eval, berts_eval", "berts/models/internal.cpp: eval"]}
{"id": "C86", "title": "The graph of operations fits the graph of ggml", "statement": "For every model, layer and pooling the graph built by build_graph fits the graph that ggml_new_graph allocates; ggml_build_forward_expand puts every operation into it once, after its sources, and nothing that is not needed for the output is computed.", "quantifier": "every number of layers, output layer and pooling", "why_tests_cant": "the limit is reached only by models larger than those tested; all numbers of layers", "anchors": ["berts/models/bert.cpp: build_graph, build_lm_graph", "berts/models/roberta.cpp: build_graph, build_lm_graph", "berts/models/model_berts.hpp: eval, eval_lm"]}
{"id": "C87", "title": "Strings own their memory", "statement": "Whatever a program does with strings (construct, copy, move, assign, join, append to themselves, clear, destroy), each string keeps the value it should have; nothing is released twice or used after its release; and when all strings are destroyed everything that was allocated for them has been released.", "quantifier": "every sequence of operations on any number of strings", "why_tests_cant": "all histories; leaks and accesses after release do not change what a test sees", "anchors": ["berts/models/unicode.cpp: ustr_impl, ustr::ustr, ustr::~ustr, dispose, operator=, operator+, operator+="]}
{"id": "C88", "title": "Tokenizing a text that is not valid UTF-8", "statement": "Tokenizing is defined for every byte string: with a loaded model, berts_tokenize either delivers tokens or returns false for every text, also for texts that are not valid UTF-8.", "quantifier": "every model, every text (byte string), every output buffer", "why_tests_cant": "all byte strings; undefined behaviour often looks like an empty result in a test", "anchors": ["berts/models/unicode.cpp: ustr::ustr(const char*, size_t), normalize_nfc", "berts/models/bert.cpp: basic_tokenize, safe_norm_nfc", "berts/models/roberta.cpp: tokenize"]}
{"id": "C89", "title": "A test program tells whether its tests passed", "statement": "A program written with tests.hpp runs every registered test case once, reports exactly those as OK whose assertions all hold and the first failing assertion of the others, counts both, and ends with a status that tells whether all tests passed.", "quantifier": "every set of tests, every outcome of the cases", "why_tests_cant": "the programs of the repository are the tests; nothing tests their driver", "anchors": ["berts/tests/tests.hpp: __test_driver, __add_test, ~__test_driver, berts_assert_, __test_fail"]}
{"id": "C90", "title": "Regular expressions report what the engine found", "statement": "regex::test tells whether the expression matches somewhere in the text; regex::split returns the number of pieces it appended, and 0 only if there was nothing to split.", "quantifier": "every expression, every text, every behaviour of the engine including failures in the middle of a text", "why_tests_cant": "failures of the engine cannot be provoked in a test; all texts", "anchors": ["berts/models/unicode.cpp: regex::test, regex::split", "berts/models/roberta.cpp: tokenize"]}
{"id": "C91", "title": "A missing optional key means its documented default", "statement": "When a model file lacks an optional metadata key, the loaded model behaves as if the key had the default documented in keys.h (2 segments, epsilon 1e-12, range 0.02, lower-casing, basic tokenizing and splitting at Chinese characters on, stripping of accents as lower-casing, ids of the conventional tokens, bos and eos as cls and sep); a key that is present has the value in the file; keys that are not listed there mean nothing.", "quantifier": "every file that loads, every combination of present and absent keys", "why_tests_cant": "2^15 combinations of optional keys, times values and vocabularies", "anchors": ["berts/models/keys.h", "berts/models/gguf.cpp: load_from_file", "berts/models/gguf.hpp: gguf_u32, gguf_f64, gguf_bool, gguf_str", "berts/models/bert.cpp: vocab::init", "berts/models/roberta.cpp: vocab::init"]}
{"id": "C92", "title": "The converter and the library use the same keys", "statement": "load_keys gives the converter, for every macro of the header keys.h, the value the macro has in C++, and stops with a complaint if it cannot.", "quantifier": "every header", "why_tests_cant": "all texts of headers; the only header the script ever saw is the one in the repository", "anchors": ["berts/models/convert_hf_to_gguf.py: load_keys", "berts/models/keys.h"]}
{"id": "C93", "title": "Sizes computed in size_t are the sizes meant", "statement": "The sizes of the memory pools for evaluating a model and its language model head, which are computed with 64-bit words, are the exact sizes (those of C45 to C47): no sum, product or padding wraps around, for any model and any input that is accepted.", "quantifier": "every model shape, number of layers, pooling and input length", "why_tests_cant": "the numbers needed for a wrap-around are far beyond any test; all shapes", "anchors": ["berts/models/ggml.hpp: get_data_size, get_tensor_size, ggml_size_info", "berts/models/bert.cpp: get_context_buffer_size, get_context_buffer_size_for_lm", "berts/models/roberta.cpp: get_context_buffer_size, get_context_buffer_size_for_lm"]}
{"id": "C94", "title": "RoBERTa tokenization notices failures of the regular expression engine", "statement": "If RoBERTa tokenization reports success, the ids stand for the whole text; if the regular expression cannot be compiled or the engine gives up on a text, tokenization reports failure.", "quantifier": "every text, every vocabulary, every behaviour of the engine including failures in the middle of a text", "why_tests_cant": "failures of the engine (limits of time, stack and memory) cannot be provoked in a test; all texts", "anchors": ["berts/models/roberta.cpp: tokenize, model::tokenize", "berts/models/unicode.cpp: regex::regex, regex::split"]}
{"id": "C95", "title": "Messages show their arguments", "statement": "Formatting a message never throws, whatever the arguments are, and the message shows every argument once, in order, in its place in the format; it reaches the log file as formatted.", "quantifier": "every call with a format in the library, every value of the arguments, every state of the log", "why_tests_cant": "most messages are never looked at by a test, and those of errors are hard to provoke; all values (paths, names from files)", "anchors": ["berts/models/fmt.hpp: fmt", "berts/models/log.hpp: debug, info, warn, error", "berts/models/model_berts.hpp: eval_lm", "berts/models/gguf.cpp: load_from_file", "berts/models/quantize.cpp: berts_model_quantize"]}
{"id": "C96", "title": "The type shown and recorded for a file is the type of its tensors", "statement": "The type recorded in a converted or quantized file, and shown when it is loaded, says the type its matrices were converted to; every type has a name and no two share one.", "quantifier": "every type the quantizer offers, every source file, both settings of the converter", "why_tests_cant": "the names are only printed; a test would have to read the log", "anchors": ["berts/models/gguf.cpp: ftype, type_to_str, init_gg", "berts/models/quantize.cpp: berts_model_quantize, quantize_tensor", "berts/models/convert_hf_to_gguf.py: convert"]}
{"id": "C97", "title": "Messages do not disturb tokenization", "statement": "Tokenizing with the BERT tokenizer gives the same ids at every log level and with every log file, never fails because of a message, and changes nothing but the end of the log file; at the default level exactly the unknown parts of words are reported, one line each, in order.", "quantifier": "every text, vocabulary and option, every state of the log", "why_tests_cant": "tests run with one level and do not read the log; the texts that break a message are rare", "anchors": ["berts/models/bert.cpp: clean_text_and_split, basic_tokenize, wordpiece_tokenize, tokenize", "berts/models/log.hpp: when, debug, warn", "berts/models/log.cpp: write", "berts/models/model_base.hpp: id_to_token, add_token"]}
{"id": "C98", "title": "The log names exactly the tensors that are not used", "statement": "While a model is loaded, the log lists the tensors of the file that are not used: the contents of a listed tensor have no influence on the loaded model, and every tensor that is not listed is needed (for the model or its language model head).", "quantifier": "every model file, every set of tensors, both architectures", "why_tests_cant": "a test checks few files and does not vary the contents of every tensor; nobody reads the list", "anchors": ["berts/models/bert.cpp: weights::init", "berts/models/model_base.hpp: init_vocab", "berts/models/roberta.cpp: vocab::init"]}
{"id": "C99", "title": "Messages do not disturb loading", "statement": "Loading a model has the same outcome at every log level and with every log file, never fails because of a message, and changes nothing but the end of the log file, to which the lines about the file, the hyperparameters, the vocabulary and the weights are added; a file that defines its special tokens is loaded without a word at the default level.", "quantifier": "every model file, every file name, every state of the log", "why_tests_cant": "tests load few files at one level and do not read the log; metadata that break a message are rare", "anchors": ["berts/models/gguf.cpp: init_gg, load_from_file", "berts/models/model_base.hpp: init_vocab, get_token_id, add_token", "berts/models/bert.cpp: vocab::init, weights::init", "berts/models/roberta.cpp: vocab::init", "berts/models/internal.cpp: berts_context::create", "berts/models/log.cpp: write"]}
{"id": "C100", "title": "A failed load is reported", "statement": "If loading a model returns null, the reason is written to the log at the default level.", "quantifier": "every file and file name, every way in which loading can fail, every state of the log with level up to ERROR", "why_tests_cant": "tests check that null is returned, not what is written; some failures are hard to provoke", "anchors": ["berts/models/gguf.cpp: load_from_file", "berts/models/log.hpp: error", "berts/models/internal.cpp: berts_context::create"]}
{"id": "C101", "title": "Messages do not disturb RoBERTa tokenization", "statement": "Tokenizing with the RoBERTa tokenizer has the same outcome at every log level and with every log file and changes nothing but the end of the log file; a call that fails says which token is missing from the vocabulary.", "quantifier": "every text, vocabulary and engine, every state of the log", "why_tests_cant": "tests run with one level and do not read the log; the texts that break a message are rare", "anchors": ["berts/models/roberta.cpp: tokenize, model::tokenize", "berts/models/bpe.cpp: tokenize", "berts/models/model_base.hpp: id_to_token, token_to_id", "berts/models/log.hpp: when, debug, error", "berts/models/log.cpp: write"]}
{"id": "C102", "title": "The log of byte pair encoding is a derivation", "statement": "At level DEBUG the log shows the ids of the characters of a text and the merges done; replaying the merges on the ids gives exactly the ids of the tokens returned, every merge is in the merge table, and without dropout the merges are those of the textbook algorithm, until nothing can be merged.", "quantifier": "every text, merge table, priority queue, dropout and random numbers", "why_tests_cant": "tests look at the tokens, not at the steps; all texts and tables", "anchors": ["berts/models/bpe.cpp: word::merge_all, tokenize", "berts/models/log.hpp: when, debug"]}
{"id": "C103", "title": "Messages do not disturb evaluation", "statement": "Evaluating and computing the language model head have the same outcome at every log level and with every log file and change nothing but the end of the log file, to which the lines for the way the call ended are added as they are.", "quantifier": "every model, input, setting and buffer, every state of the log, failures included", "why_tests_cant": "tests run with one level and do not read the log; all inputs and models", "anchors": ["berts/models/model_berts.hpp: eval, eval_lm", "berts/models/bert.cpp: build_graph, build_lm_graph, get_context_buffer_size_for_lm", "berts/berts.cpp: berts_eval, berts_eval_lm", "berts/models/log.hpp: when, debug, info, error", "berts/models/log.cpp: write"]}
{"id": "C104", "title": "A refused evaluation is reported", "statement": "If an evaluation or the computation of the language model head returns false, the reason is written to the log at the default level.", "quantifier": "every call that is refused, every state of the log with level up to ERROR", "why_tests_cant": "tests check that false is returned, not what is written", "anchors": ["berts/models/model_berts.hpp: eval, eval_lm", "berts/berts.cpp: berts_eval, berts_eval_lm", "berts/models/log.hpp: error"]}
{"id": "C105", "title": "berts_tokenize warns about texts that cannot be evaluated", "statement": "berts_tokenize writes a warning at the default level iff every call of berts_eval refuses the ids it returns for their number, and the warning changes nothing about what it returns.", "quantifier": "every text, tokenizer and model, every buffer, every state of the log", "why_tests_cant": "the boundary has to be hit exactly; tests do not read the log", "anchors": ["berts/berts.cpp: berts_tokenize, berts_eval", "berts/models/model_berts.hpp: eval", "berts/models/log.hpp: warn"]}
{"id": "C106", "title": "The debug build computes the same", "statement": "In the build with BERTS_DEBUG, evaluating and computing the language model head do exactly what the ordinary build does, for every call, if the weights have the shapes of the hyperparameters: the estimate of the memory is exact after the embeddings, after the layers, after the pooler, after the head and after the graph has been made. For any other model the debug build does the same or stops.", "quantifier": "every model, input, layer, pooling, top_k and buffer", "why_tests_cant": "the checks are only compiled into one build; all shapes and lengths", "anchors": ["berts/models/ggml.hpp: ggml_context_for_debug, ggml_size_info", "berts/models/bert.cpp: build_graph, build_lm_graph, get_context_buffer_size", "berts/models/roberta.cpp: build_graph, build_lm_graph, get_context_buffer_size", "berts/models/model_berts.hpp: eval, eval_lm"]}
{"id": "C107", "title": "Evaluation of nothing is defined", "statement": "Evaluating an empty list of tokens, or computing the head for the hidden states of no token, is refused or gives the empty result.", "quantifier": "every model, layer, pooling, top_k and buffer", "why_tests_cant": "nobody tests the empty input; all models", "anchors": ["berts/berts.cpp: berts_eval, berts_eval_lm", "berts/models/model_berts.hpp: eval, eval_lm", "berts/models/bert.cpp: build_graph, build_lm_graph", "berts/models/roberta.cpp: build_graph, build_lm_graph"]}
{"id": "C108", "title": "The number of tokens is bounded by the length of the text", "statement": "Byte pair encoding gives at most as many tokens as the text has characters, the RoBERTa tokenizer at most as many as the text has bytes, the BERT tokenizer at most as many as the composed text has characters. So an output array with two elements more than the text has bytes is always large enough for berts_tokenize, this cannot be improved, and a text with at most max_tokens - 2 bytes is never too long to be evaluated.", "quantifier": "every text, vocabulary, merge table, cache state and option", "why_tests_cant": "all texts and vocabularies; the callers in the repository use arrays of other sizes that happen to suffice", "anchors": ["berts/models/bpe.cpp: tokenize", "berts/models/roberta.cpp: tokenize, split_text", "berts/models/bert.cpp: tokenize, basic_tokenize, wordpiece_tokenize", "berts/berts.cpp: berts_tokenize"]}
{"id": "C109", "title": "The RoBERTa tokenizer cuts texts into GPT-2 words", "statement": "The regular expression of the RoBERTa tokenizer is well formed, and splitting a text by it gives the words of GPT-2: a contraction ('s 't 're 've 'm 'll 'd), a longest run of letters, of digits or of other characters with at most one space before it, or blanks, the last of several blanks being left to the word that follows. Every text has exactly one list of words, none is empty, and together they are the text. So the ids of a text are those of the reference tokenizer without any assumption on the matches.", "quantifier": "every Unicode text, every assignment of characters to the classes that keeps letters, digits and blanks apart", "why_tests_cant": "a handful of sentences cannot exercise every order of alternatives, backtracking and lookahead", "anchors": ["berts/models/roberta.cpp: tokenize", "berts/models/unicode.cpp: regex::regex, regex::split"]}
{"id": "C110", "title": "Messages of the quantizer do not change what it does, and report every tensor", "statement": "Quantizing with messages has the outcome of quantizing without, unless a message that is written cannot be printed. The lines of a successful conversion are those of loading, then one for each tensor in the order of the directory with the right name, number of dimensions and sizes and whether it was quantized, then the totals and the histogram summed over the quantized tensors. At the default level only the warnings about the vocabulary are written.", "quantifier": "every source file, destination type, log level, and conversion arithmetic", "why_tests_cant": "all files and all levels; the messages have never been compared with the conversion", "anchors": ["berts/models/quantize.cpp: quantize, berts_model_quantize", "berts/models/log.hpp"]}
{"id": "C111", "title": "A failed quantization says why", "statement": "When berts_model_quantize returns false, the last line of the log is the reason: the file cannot be loaded, the output cannot be opened, or a tensor has a type other than f16 or f32.", "quantifier": "every source file, destination and log level", "why_tests_cant": "all failures at all levels; fails at the default level, where formatted errors are dropped", "anchors": ["berts/models/quantize.cpp: quantize, berts_model_quantize", "berts/models/log.hpp:61"]}
{"id": "C112", "title": "The converter reports what it writes", "statement": "The messages of the converter do not change the file. On success they show the metadata, special tokens and tokenizer options stored in the file, the numbers of tokens, used and unused ids and merges, then one message for each weight in the order of the file (name, whether it is stored in half precision, number of dimensions, sizes before and after rounded to a tenth), then the total sizes of the weights before and after, then the end.", "quantifier": "every model and tokenizer that can be converted, both precisions", "why_tests_cant": "all models; the output is read by people and never compared with the file", "anchors": ["berts/models/convert_hf_to_gguf.py: convert, write_bert, write_roberta, write_vocab, write_merge"]}
{"id": "C113", "title": "The converter says how far it got", "statement": "The converter prints 'quantization completed' if and only if the file was written, as its last line; a token id beyond the vocabulary size stops it at 'writing vocab...', a merge of unknown tokens at 'writing bpe merges...'.", "quantifier": "every source model", "why_tests_cant": "all failures of all models", "anchors": ["berts/models/convert_hf_to_gguf.py: convert, write_vocab, write_merge"]}
{"id": "C114", "title": "The log at the level DEBUG describes the file", "statement": "At the level DEBUG a successful load writes, for each tensor of the directory, a line with its number, name, number of dimensions, size, padded size and offset; and the tensors it says it stores are exactly those of the architecture, each of which is in the file.", "quantifier": "every model file that can be loaded, every file name, every state of the log", "why_tests_cant": "nobody compares the debug output with the file; fails for models without a language-model head, which are said to be stored", "anchors": ["berts/models/gguf.cpp: init_gg", "berts/models/bert.cpp: tensor, weights::init"]}
{"id": "C115", "title": "What is freed was announced", "statement": "At the level DEBUG every context that is said to be freed was announced before with the same address, and contexts are freed in the reverse order.", "quantifier": "every model file and conversion, every assignment of addresses", "why_tests_cant": "addresses differ from run to run; the header's context is freed without having been announced", "anchors": ["berts/models/utils.hpp: unique_ctx", "berts/models/gguf.cpp: init_gg, load_from_file", "berts/models/quantize.cpp: berts_model_quantize"]}
{"id": "C116", "title": "The log of RoBERTa's tokenizer tells the whole story", "statement": "Every text in UTF-8 is tokenized, also one with characters outside the vocabulary, and at the level DEBUG the log consists of the start, the pieces of the text (special tokens marked), then for each special token its name and id and for each word its bytes, the ids of its characters with runs of unknown ones fused, and the merges of the textbook algorithm, a word that occurs again being only named, and the end; the ids returned are those the story leads to, and the story is determined by the text.", "quantifier": "every vocabulary, merge list, text, regular expression engine within its contract and state of the log", "why_tests_cant": "composition of splitting, stripping, word matching, cache, merging and logging; the order of merges depends on the whole history of the queue; undefined for texts with a percent sign", "anchors": ["berts/models/roberta.cpp: tokenize, model::tokenize", "berts/models/bpe.cpp: tokenize"]}
{"id": "C117", "title": "eval_lm returns probabilities", "statement": "In exact arithmetic the numbers eval_lm returns for a token are exp(z) divided by the sum of exp(z) over the vocabulary, z being the output of the decoder for the id returned beside them; they are positive, the k best add up to at least k/vocabulary and at most 1, and all together to 1.", "quantifier": "every model with a head, hidden states, number of tokens and number of results", "why_tests_cant": "floating point tests can only compare with tolerances on a few inputs; relates softmax, argsort, buffer layout and the head", "anchors": ["berts/models/model_berts.hpp: eval_lm", "berts/models/bert.cpp: build_lm_graph", "berts/models/roberta.cpp: build_lm_graph"]}
{"id": "C118", "title": "Outputs are bounded by the last normalisation", "statement": "In exact arithmetic every hidden state returned by eval is bias + gain * x of the last layer normalisation with |x| < sqrt(hidden size), the x of a token adding up to 0 and their squares to less than the hidden size, whatever the text and the weights of earlier layers; every pooled output is strictly between -1 and 1.", "quantifier": "every model of the right shapes, input, layer and pooling", "why_tests_cant": "a statement about all weights and inputs; a wrong axis of the normalisation or a missing one only shows on particular inputs", "anchors": ["berts/models/model_berts.hpp: eval", "berts/models/bert.cpp: build_graph", "berts/models/roberta.cpp: build_graph"]}
{"id": "C119", "title": "Attention averages", "statement": "In exact arithmetic each feature of the result of the attention sub-graph lies between the smallest and the largest value of that feature over the tokens of the text.", "quantifier": "every number and size of heads, every text length, all weights", "why_tests_cant": "a softmax over the wrong axis gives weights that do not add up to one per query, which only shows as slightly different numbers", "anchors": ["berts/models/bert.cpp: build_graph", "berts/models/roberta.cpp: build_graph"]}
{"id": "C120", "title": "Order enters through the positions only", "statement": "In exact arithmetic, if the tokens of an input are rearranged together with their segments and the embeddings of their positions, the hidden states returned by eval are rearranged in the same way, and the outputs pooled by average or maximum stay the same.", "quantifier": "every model of the right shapes, input, rearrangement, layer", "why_tests_cant": "a wrong stride, an accidental mask or a position counted twice changes results only slightly; there is no reference value for random weights", "anchors": ["berts/models/model_berts.hpp: eval", "berts/models/bert.cpp: build_graph", "berts/models/roberta.cpp: build_graph"]}
{"id": "C121", "title": "Equal tokens at equal positions have equal hidden states", "statement": "In every arithmetic, two tokens of an input with the same id, segment and position have the same hidden states; in particular all padding tokens of a segment of a RoBERTa input, wherever they are.", "quantifier": "every arithmetic, model of the right shapes, input and layer", "why_tests_cant": "quantifies over all weights, inputs and ways of rounding", "anchors": ["berts/models/model_berts.hpp: eval", "berts/models/roberta.cpp: eval, build_graph", "berts/models/bert.cpp: build_graph"]}
{"id": "C122", "title": "Padding does not change the other tokens", "statement": "Padding tokens behind a text do not change the hidden states of the tokens of the text.", "quantifier": "every model, text and number of padding tokens", "why_tests_cant": "the tests evaluate unpadded texts only; the influence depends on the weights", "anchors": ["berts/models/bert.cpp: build_graph", "berts/models/roberta.cpp: eval, build_graph"]}
{"id": "C123", "title": "The C calls read exactly what the caller passes", "statement": "Of a text or token the C calls see the bytes before the first null byte, of an array its first elements up to the given number, whatever lies behind; a call that is refused for a missing model, settings or count does not look at its inputs; in all other cases null, unterminated or too short inputs are undefined behaviour (for hidden states only when they are needed, not for asking the size).", "quantifier": "every context, pointer, length and other argument", "why_tests_cant": "tests pass valid pointers; undefined behaviour need not show in a test", "anchors": ["berts/berts.cpp: berts_tokenize, berts_token_to_id, berts_eval, berts_eval_lm", "berts/models/model_berts.hpp: eval_lm", "berts/models/bert.cpp: build_lm_graph", "berts/models/roberta.cpp: build_lm_graph"]}
{"id": "C124", "title": "The fill-mask program prints the most probable tokens with their probabilities", "statement": "In exact arithmetic the results of fill_mask are k different tokens with their names and their probabilities at the place of the mask (softmax of the head applied to the hidden states of the last layer), in descending order; no other token is more probable than any of them; the probabilities add up to at least k / vocabulary, at most 1, and to 1 if k is the vocabulary's size.", "quantifier": "every model of the right shapes, prompt with one mask, k", "why_tests_cant": "composes tokenizer, evaluation, head and program for all weights; tests have no reference probabilities", "anchors": ["berts/examples/fill_mask.cpp: main", "berts/models/model_berts.hpp: eval, eval_lm", "berts/berts.cpp"]}
{"id": "C125", "title": "Results of the head depend neither on the number asked for nor on other tokens", "statement": "In every arithmetic with a correct argsort, eval_lm with top_k = k returns for each token the first k ids and probabilities of what it returns for a larger top_k up to the vocabulary's size; the ids are the first k of those returned for top_k <= 0, and the probabilities are found at these ids in that call's results; and the results of a token are those of a call with the hidden states of this token alone.", "quantifier": "every arithmetic with an argsort that sorts, model with a head of the right shapes, hidden states, k <= k' <= vocabulary, token", "why_tests_cant": "quantifies over all weights, hidden states and pairs of calls", "anchors": ["berts/models/model_berts.hpp: eval_lm", "berts/models/bert.cpp: build_lm_graph", "berts/models/roberta.cpp: build_lm_graph"]}
{"id": "C126", "title": "A converted and quantized model is its source with rounded matrices", "statement": "Converting a supported checkpoint, quantizing the file and loading the result gives a model with the configuration, the vocabulary and the special tokens of the source and the source's parameters: each rounded to the type the converter stores, and the matrices whose key ends in weight then rounded to the new type; nothing else changes. Evaluating any tokenized text gives the reference value of the network for these weights.", "quantifier": "every BERT or RoBERTa source, float16 or float32 file, target type, text, layer and pooling", "why_tests_cant": "tests need checkpoints and both programs; they compare no weights", "anchors": ["berts/models/convert_hf_to_gguf.py: convert", "berts/models/quantize.cpp: berts_model_quantize", "berts/models/gguf.cpp: load_from_file", "berts/berts.cpp: berts_tokenize, berts_eval"]}
{"id": "C127", "title": "What is written to a model file is what is read from it", "statement": "The bytes that the converter and the quantizer write are read back as the metadata and the directory that were meant, with the data at the place they are looked for; so the file the converter leaves is loaded as the source model, the file the quantizer leaves from it as this model with rounded matrices. A file cut within the metadata, the directory or the data of a tensor other than the last is not loaded.", "quantifier": "every metadata, directory and data that fit the format; every supported checkpoint; every place where a file is cut", "why_tests_cant": "tests need checkpoints and both programs, and try no damaged files", "anchors": ["berts/models/convert_hf_to_gguf.py: convert", "berts/models/quantize.cpp: berts_model_quantize", "berts/models/gguf.cpp: init_gg", "berts/models/gguf.cpp: load_from_file"]}
{"id": "C128", "title": "Exactly the files of the format are read, and what is read can be quantized", "statement": "A model file is read if and only if it follows the grammar of the format with a positive alignment, and has one reading only: the metadata, the directory and the place of the data that it says. A model is loaded only from such a file. Whatever bytes a file holds, if it is loaded and its matrices can be quantized, the quantizer's file is read back and loaded as the same model with rounded matrices. Undefined behaviour of reading is only the division by an alignment of 0.", "quantifier": "every file, that is every sequence of bytes", "why_tests_cant": "tests have few files, all well-formed", "anchors": ["berts/models/gguf.cpp: init_gg", "berts/models/gguf.cpp: load_from_file", "berts/models/quantize.cpp: berts_model_quantize"]}
{"id": "C129", "title": "The converter's command line does what it says", "statement": "The converter accepts exactly the command lines made of -i/--input-model, -o/--output-path, --cache-dir with a value and --use-f32, in any order and spelling argparse allows; the values given last are used; a file is written at the output path, and it is the converted model, exactly if the line is one of these with a model and a path and the model can be loaded and converted; its matrices are 32-bit exactly if --use-f32 was given. Help ends with status 0, everything else with an error. Every path can be given.", "quantifier": "every list of words", "why_tests_cant": "no test runs the converter; the lines are infinitely many", "anchors": ["berts/models/convert_hf_to_gguf.py: parse_args", "berts/models/convert_hf_to_gguf.py: convert"]}
{"id": "C130", "title": "The three programs one after the other", "statement": "Running the converter with any accepted command line, then the quantizer with its output, any spelling of a type and an output path with room, then the fill-mask program on the quantizer's output: each program finds the file the one before has written, no other file changes, and the third prints the k most probable tokens at the mask with their names and probabilities, computed from the source's weights rounded by the converter and, for the matrices, by the quantizer. More room on the disk does not change a file that was written completely.", "quantifier": "every supported BERT or RoBERTa checkpoint with a head, command line, type, output path, prompt and k", "why_tests_cant": "the tests run none of the programs one after the other and have no checkpoints", "anchors": ["berts/models/convert_hf_to_gguf.py: parse_args, convert", "berts/examples/quant.cpp: main", "berts/models/quantize.cpp: berts_model_quantize", "berts/examples/fill_mask.cpp: main"]}
{"id": "C131", "title": "The quantizer leaves a complete model or what was there before", "statement": "When the quantizer has ended, the file at its output path is the complete quantized model, or no file has changed.", "quantifier": "every file system, command line, model, type and amount of room", "why_tests_cant": "needs failing quantizations, full disks and equal paths; the tests run the quantizer once on a good model and do not look at the file of a failed run", "anchors": ["berts/examples/quant.cpp: main", "berts/models/quantize.cpp: berts_model_quantize, quantize, write_zeros"]}
{"id": "C132", "title": "Quantizing twice is quantizing once", "statement": "Quantizing the file of a quantization once more to the same type gives the same file.", "quantifier": "every model file that can be quantized, every type and amount of room that suffices", "why_tests_cant": "tests do not compare files byte by byte, nor quantize what was quantized", "anchors": ["berts/models/quantize.cpp: berts_model_quantize, quantize", "berts/models/gguf.cpp: load_from_file"]}
{"id": "C133", "title": "A detour through F32 or F16 does not change the quantized file", "statement": "Quantizing a model to F32 or F16 first and the result to another type gives the same file as quantizing the model to that type at once.", "quantifier": "every model file that can be quantized, every type and amount of room that suffices", "why_tests_cant": "tests do not compare files byte by byte, nor quantize what was quantized", "anchors": ["berts/models/quantize.cpp: berts_model_quantize, quantize", "berts/models/gguf.cpp: load_from_file"]}
