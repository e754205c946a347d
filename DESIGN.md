# Formal model of berts.cpp — design

## What is verified

`/verif/lean` holds a Lean 4 model of berts.cpp (the C++ library in `/repo/berts`,
its Python converter, the two example programs and the driver of its tests) and theorems about that model.
The model is written by hand from the source text, function by function; every
definition cites the file and lines it models.  Nothing in `/repo` is executed.

Layout:

| directory | content |
|---|---|
| `Verif/Model/*.lean` | definitions only: the model of the code, with citations |
| `Verif/Spec/*.lean`  | small independent specifications used in theorem statements |
| `Verif/Proofs/*.lean`| helper lemmas |
| `Verif/Props/*.lean` | the property theorems `Cnn_...`, each followed by an `example` that meets its hypotheses, plus counterexample theorems where the code violates the property |

`Verif/Props/RepoTests.lean` replays the repository's own tests (`/repo/berts/tests`: trie, BPE, Unicode, regex) on the
model, as a check of the hand translation; it holds literal examples only and backs no claim.

## Trusted base

* Lean's kernel, and the three standard axioms `propext`, `Classical.choice`,
  `Quot.sound`.  No other axiom, no `sorry`, no `native_decide`/`bv_decide`.  Mathlib is used for C117-C122 and C124 only (the
  real numbers, `exp`, `tanh`, square roots); everything else is core Lean.
* The hand translation from C++/Python to Lean (simplifications are stated at each
  definition and summarised below).
* External libraries are *parameters* of the model, with the contract they are
  assumed to obey given as explicit hypotheses of the theorems: ICU (normalisation,
  case mapping, character classes, regex matches; the matches of the RoBERTa pattern are computed
  by a model of the engine in C109), ggml/gguf (sizes, op shapes,
  metadata access), the C++ standard library (containers, streams, `priority_queue`,
  iteration order of `unordered_set`), Python's dict/list.

### The ggml contract (evaluation calls)

`Verif/Model/Graph.lean` models ggml as a memory pool of a fixed size plus operations on tensors of
up to four dimensions.  Assumed of ggml: each operation allocates its result (object header + tensor
header + padded data) from the pool and aborts when it does not fit; views and reshapes allocate the
header only; each operation asserts the shapes it documents (abort) and computes the documented
function; `get_rows` reads out of bounds when a row does not exist (undefined behaviour); argsort
returns a permutation that sorts (explicit hypothesis `ArgsortSpec`).  Scalar arithmetic is a
parameter (`Arith`): sums, products, norm, softmax, gelu, tanh are arbitrary functions (`norm` also takes the
epsilon of the model, as the bits of a double, so that the theorems say which epsilon is used), so the value
theorems are about which scalars are combined and where they are stored, not about rounding.
The expansion of the graph into an array of 2048 operations is part of `eval` (`Model/Nodes.lean`, C86).
Not modelled: the thread pool and work buffer of `ggml_graph_compute`, f16
rounding of lookup tables.  `ggml_can_repeat` and `ggml_can_mul_mat` take remainders by the dimensions of a tensor, which is
undefined behaviour if one is zero; this matters for inputs with no tokens only (C107).  It is how ggml did it as long as
`ggml_soft_max_ext` had the four arguments it is called with here; later versions accept empty tensors.  `Fits`/`HeadOK` (Spec/EvalCalls) are the standing hypotheses: weight
tensors have the shapes the hyperparameters say; `Fits` also bounds the number of layers by 44 (`Shaped` does not), as
evaluating more ends the process.

### The gguf and stream contracts (loader, quantizer)

`Verif/Model/Load.lean` starts from what `gguf_init_from_file` returns (or its failure): key/value
pairs, tensor directory, data offset.  The parser of gguf files is ggml code; `Verif/Model/FileFormat.lean` (C127) models
it from the published format, everything else takes its result as given.  Assumed:
typed getters abort on a type mismatch; the metadata context stores names shortened to 63 bytes;
`ggml_get_tensor` searches by name; `ggml_dup_tensor` allocates object + header + padded data;
`ifstream` sets its fail bit on a short read, and `seekg` on a failed stream fails.  `load` threads a ledger
of everything acquired and freed, so every failure point of the function is covered.
`Verif/Model/Quantize.lean` models the gguf writer (metadata bytes, offsets recomputed by
`gguf_set_tensor_data`) and an output stream with limited room.  The stream is modelled without its buffer: a failed write
is noticed at once and not when the buffer is flushed; `seekp` flushes before the header is written and fails with it, so the file
is the same (C69, C131).  `ggml_quantize_chunk` and the float
decoders are parameters (`Conv`); the only assumption is that a chunk is not longer than 4 bytes per
element (`ChunkOk`), which is the size of the buffer the code allocates.  For the way back
(`Verif/Model/QuantizeFile.lean`, C80) a reader is assumed to deliver the metadata and the directory that the
writer put in front of the data (C127 shows this for the format), and a chunk to have the size that ggml computes for its type and shape.

`Verif/Model/LoadLog.lean` is the same loader with its messages of all levels (C98-C100, C114, C115).  The text
that `std::format` gives for a double and the addresses of the contexts are parameters (`Printed`); `init_gg` is
assumed to return its result without a move, which every compiler does but C++ does not demand (a move would
announce the contexts of the file once more).  Casting a number outside the range of an enum without a fixed underlying type is formally
undefined in C++; the model keeps the number, as compilers do.

### The converter contract

`Verif/Model/Convert.lean` models `convert_hf_to_gguf.py` as a function from a source model to what
`gguf_init_from_file` returns for the file written, and the bytes of the file.  `transformers` and `torch`
are the data type `Source`: configuration, tokenizer (dictionary, special ids, options, ranks), named
parameters.  Assumed of the `gguf` package: directory and data in the order of `add_tensor`, data padded
to 32 bytes, shapes reversed.  The bytes of the header are a parameter.  Number formats are a parameter
(`Codec`: decoding what was encoded gives the rounded value).  The hypotheses on a source (`ConfigOk`,
`StateOk`, `BertTok`, `RobertaTok`, Spec/Convert) describe what `transformers` delivers for these classes.
Not modelled: command line, download of the source, `str`s that are not valid Unicode.

## Conventions

* C++ undefined behaviour is a distinct outcome (`Res.ub`), as is a deliberate abort
  (`Res.abort`).  A theorem that says a call "returns" excludes both.
* Where the code violates a property, the file proves the negation on a concrete
  witness (`Cnn_..._counterexample`) and the strongest true part as
  `Cnn_..._partial`.  The deviations are listed under "Findings".

## Plan per property

| id | modelled | proof |
|---|---|---|
| C01 | `each_cp` as a two-state machine over 16-bit units | induction; round trip with UTF-16 encoder; equality with an independent recursive decoder |
| C02 | `operator==`, `<=>`, `hash` on unit lists; object state with a possibly indeterminate `size` | order laws by induction; counterexample: default-constructed object has indeterminate size |
| C03 | heap-object model of `ustr` (store of cells), `+`, `+=`, copy, move | symbolic execution, alias case separate |
| C04 | memcmp over `size` bytes of the little-endian unit buffer | counterexample; exact characterisation; completeness as partial |
| C05 | `to_lower` with ICU's error-code protocol (a null source is an illegal argument, a size query of a non-empty result is a buffer overflow) | theorems that it always fails, on non-empty and on empty input (refutation); partial: only a mapping that deletes all characters, which ICU does not have |
| C06 | `lstrip`/`rstrip` over code points | equality with `dropWhile` specs |
| C07 | UTF-8 decoder/encoder (strict, Unicode table 3-7) + constructor | round trip by case analysis on length, injectivity |
| C08 | `regex::split` over an ordered match list | induction over matches |
| C09–C11 | arena-free trie (tree of child lists), `add_str`, `find_node`, `find_substr` | induction; longest match; counterexample for the split, partial under prefix-closure |
| C12, C13, C17, C18, C70 | `clean_text_and_split`, `basic_tokenize`, options of `vocab::init` | induction; counterexample for lower-casing |
| C79 | `tokenize` on texts around a special token (`Props/Mask.lean`) | composition of C12, C14, C18 over texts joined by blanks; general refutation for every other neighbour |
| C81 | categories and character classes (`Model/CharClass.lean`) over ICU's documented `u_charType`; the Python reference as functions on code points (`Spec/Transformers.lean`) | case analysis on categories; induction relating code points and 16-bit units |
| C82 | `tokenize` of a converted model | C81, C14, C15 carried over to code points; `C82_converted_partial` composes with C75 and C50 |
| C14, C15 | `wordpiece_tokenize` incl. the leaking `root` variable | counterexamples; refinement to reference under prefix-closed vocabulary/no unknown; exact description (`ScanAll`) of what the code does |
| C16 | `tokenize`, `berts_tokenize` | invariant over pieces |
| C19–C24, C27 | `merge_all` with symbol array, links, priority queue (any implementation meeting the contract), dropout stream | measure; invariants; refinement to greedy reference |
| C25, C26 | `load_vocab`, `clear` | induction over pairs; counterexample for `clear` |
| C28–C32 | byte table, splitting, full RoBERTa tokenize | table check lifted to strings; counterexamples; composition of C08, C20 |
| C63, C65 | full RoBERTa tokenize | invariant over pieces; per-piece id groups |
| C71 | full RoBERTa tokenize and `vocab::init` | C22 (BPE on strings) lifted through cache, words and pieces to reference ids; uniqueness of the reference ids |
| C72 | C interface on top of a loaded BERT or RoBERTa vocabulary | composition of C29, C38, C50 |
| C73, C74 | load, tokenizer calls and evaluation calls chained (`Model/Loaded.lean`) | shapes of a loaded model from the file; composition of C34, C40, C57, C61, C62 (C73), and with C16, C38, C63 (C74); counterexamples |
| C75, C76 | the converter, chained with the loader and the calls | metadata and directory written are read back key by key and name by name; composition with C36, C38, C57, C73, C74; counterexamples |
| C77 | `write_merge`, merge loop of `vocab::init`, `load_vocab` | merge triples in the file against `bpe_ranks`; BPE depends only on the order of ranks; composition with C71; counterexample |
| C64 | position loop against the reference formula | induction; counterexample for pads |
| C33, C34 | position loop, eval acceptance test | induction; exact conditions; counterexample for RoBERTa |
| C35–C39 | `vocab_base2`, `init_vocab`, `get_token_id`, converter | invariant over histories; round trip; counterexamples |
| C40–C44 | `eval`, `eval_lm` decision and copy logic with memory | case analysis; counterexamples |
| C45–C48 | sizes and allocation lists of the graph builders | arithmetic induction over layers |
| C49, C50 | C API wrappers | case analysis |
| C51, C52 | resource ledger, handle machine (also for `regex`) | invariant over histories; counterexample |
| C53 | log gating; the text `fprintf` writes for a format without directives (`Prints`); whole histories of level, file and message calls | case analysis; induction over the history; counterexample |
| C54, C55, C69 | quantizer loop, gguf writer, output stream | induction over tensors |
| C56, C57 | loader stream and decision logic | induction; counterexample |
| C58, C59 | example programs | case analysis; counterexample; C59 for BERT and RoBERTa: bound on the number of ids by the bytes of the text when the mask occurs |
| C60 | `slice`, indexing | induction |
| C66–C68 | example programs, on top of C40–C44 and C50 | composition of the theorems on the calls; counterexamples |
| C80 | `berts_model_quantize` from path to path and `main` of quant.cpp (`Model/QuantizeFile.lean`), then loading | composition of C54, C55, C57, C58, C73; metadata and consistency are carried over |
| C78 | `main` of fill_mask.cpp as a whole (`Model/Main.lean`), after the converter | composition of C59, C66, C73, C75, C76 |
| C83, C84 | `main` of fill_mask.cpp with its failures and its table (`Model/Main.lean`, `Props/Program.lean`) | case analysis along the program; induction over the results |
| C85 | settings and C++ calls (`Model/CppApi.lean`) | case analysis; C61, C62 for the defaults |
| C86 | which tensors are made from which others, and ggml's depth-first expansion into arrays of a fixed size (`Model/Nodes.lean`) | invariant of the search: what is finished is closed under sources; a builder calculus that counts operations and shows that nothing is left over |
| C87 | heap with `ustr_impl` objects and unit buffers, all constructors, assignments, `+`, `+=`, `dispose`, destructor (`Model/Memory.lean`) | simulation: the heap refines the values of `Model/Unicode.lean`; no sharing of buffers; induction over histories |
| C88 | the tokenizers of both models on arbitrary byte strings (`Model/Bert.lean`, `Model/Roberta.lean`) | decoding fails iff the bytes are not an encoding of scalar values; a string object built from such bytes has no size; concatenations of well-formed pieces are well formed |
| C89 | the driver of the test programs: registration, the loops of its destructor, assertions, the report (`Model/TestDriver.lean`, `Spec/TestDriver.lean`) | registration gives the tests in order of first appearance; induction over tests and cases; counting by test equals counting over all registrations |
| C90 | `regex::test`, and `regex::split` with an engine that can give up (`Model/Regex.lean`) | equality with the splitting of C08 without a failure; induction over the matches |
| C91 | `load` (`Model/Load.lean`) against the comments of keys.h (`Spec/Defaults.lean`) | case analysis on each optional key; independence of other keys by congruence; counterexamples by evaluation |
| C92 | `load_keys` of the converter (`Model/Keys.lean`), with Python's character classes as parameters; the lines of keys.h | the regular expression is deterministic: equivalence with a decomposition of the line; induction over the lines |
| C93 | `get_data_size`, `get_tensor_size`, `ggml_size_info::calc`, the two buffer estimates in 64-bit words (`Model/SizeT.lean`); `GGML_PAD` as its bit operations | a word holds a number modulo 2^64: preserved by sums, products and padding to a power of two; bounds by monotonicity; the wrap-around refutes the property through C45 and C46 |
| C94 | `roberta::tokenize` with an engine that can give up or not compile (`Model/RobertaRun.lean`; the rest as in `Model/Roberta.lean`) | the pieces up to the last match are the pieces of the text cut off there (C90), then as C65; with a healthy engine equality of the two models |
| C95 | `std::vformat` without nested fields, the 105 calls with literal formats, `log::*` with arguments (`Model/Format.lean`) | the format of each call is parsed by evaluation in the kernel (all calls); that a format with fields 0, 1, … in order shows every argument, whatever it is, by induction on the parts; C53 for the writing |
| C96 | `ftype`, `type_to_str`, the type shown on loading (`Model/TypeNames.lean`), with the metadata of the quantizer (C80) and the converter (C75) | by cases on the types; the key is found by the lemmas of C80, and in converted files because no other key has its first letter |
| C97 | BERT's tokenizer with its messages (`Model/BertLog.lean`): `log::when`, the messages of `clean_text_and_split`, `basic_tokenize`, `wordpiece_tokenize`, `tokenize`, `id_to_token`, `add_token`; words are `ustr` objects with their error codes | tokenizing is writing a list of lines and then returning the ids of C14 (induction over the words, the trie as in C14); what is written by C53; what the lines are is stated by `Report`, a description without tries |
| C98 | `weights::init` with its messages, `init_vocab`, both `vocab::init` (`Model/LoadLog.lean`, `Model/Load.lean`) | vocabulary and weights are functions of the tensors of the names that are not listed (congruence lemmas), the tensors of a file of its bytes (C56); conversely each of these names is looked up |
| C99 | everything from `load_from_file` down with the messages of all levels (`Model/LoadLog.lean`); the text of a double and the addresses are parameters (`Printed`) | loading is writing a list of lines that depends on the file only, followed by the outcome of `load`: one lemma per function in a small calculus (`Says`, `Tells`); what each format gives is computed from its parts; what the lines are is stated by `loadLines` |
| C100 | as C99 | the same lemmas track the last line of a load that returns null, and the objects freed after it at the level DEBUG |
| C101 | RoBERTa's tokenizer with its messages (`Model/RobertaLog.lean`): `model::tokenize`, `tokenize`, the special tokens, `id_to_token`, `token_to_id`, and `bpe::tokenize` | tokenizing is writing a list of lines and then returning the outcome of C30 (`Notes`, a calculus on top of that of C99, one lemma per function); lines above DEBUG are tracked exactly, those for DEBUG up to the absence of `%` |
| C102 | `bpe::tokenize` with its messages | the merges said are computed by a function of the state of the merge loop; they are related to the abstract steps of C19-C24 (`LSteps`), which gives a derivation in the merge table (`Trace`), and under the hypotheses of C22 the derivation of the textbook algorithm (`RefTrace`), which is unique |
| C103 | `eval`, `eval_lm` (model_berts.hpp), `check_model`, `berts_eval`, `berts_eval_lm` with their messages (`Model/EvalLog.lean`; the address of the ggml context is a parameter), on top of the evaluation of C31-C41; not the messages under GGML_PERF; the checks under BERTS_DEBUG are those of C106 | a calculus (`Tell`) on top of that of C99: the outcome is that without messages, and the lines are those of the way the call ended (`Spec/EvalLog.lean`: `Ends`, `lines`); no line has a percent sign or a null character, so the bytes of the log are exact; which graphs are not built is decided by induction over the layers |
| C104 | as C103 | case analysis on the way a call ended; negations with witnesses |
| C105 | `berts_tokenize` with messages, for any tokenizer with messages | unfolding both functions; the refusal is the first check of `eval`, the converse is a dry run |
| C106 | both calls with the memory checks of the debug build (`Model/Debug.lean`) | a simulation (`Ref`, `Sub`) for any model; for shaped models the exact costs of C45-C47 at each of the checkpoints |
| C107 | the graph model for an empty input; dividing by a dimension that is zero is undefined behaviour | the cost calculus of C45 up to the first sum |
| C108 | the tokenizers of C12-C30 and `berts_tokenize` | invariants: each merge removes a symbol, each cached result is short; the words of `basic_tokenize` together have at most as many characters as the composed text. Contract `AccentsShrink` of the normaliser (only used when accents are stripped without lower-casing) |
| C109 | the pattern of roberta.cpp:295, a parser for its syntax, and a backtracking engine with greedy repetition and negative lookahead (`Model/Pattern.lean`) | induction over expressions (matches are suffixes: contract of C71 for every expression); the run of the pattern against a description of words without regular expressions, which is shown total and unique |
| C61, C62 | index semantics of ggml ops over an abstract ring | index arithmetic |
| C110 | `berts_model_quantize` with every message (`Model/QuantizeLog.lean`); texts of floats and the histogram of a block are parameters | the log framework of C97/C99: the run writes a list of lines that does not depend on the log, then equality of that list with the specification by induction over the directory |
| C111 | the same | last line by cases; at the default level the negation for every file that can be loaded |
| C112 | `convert` again with its `print` statements, an output-and-exception monad, `str.strip`, `:.1f` on integers, tensors added one by one (`Model/ConvertLog.lean`); texts of doubles and of `never_split` are parameters | the value is that of C75-C78; the messages against a description (Spec/ConvertLog) in terms of the file: metadata, directory, byte counts |
| C113 | the same | every other message differs in its first or last byte; a run that fails after a message prints no other |
| C114 | as C99 | the lines of a load that begin with `  tensor` or `  store` are found in `loadLines`; every other line begins differently |
| C115 | as C99, C103, C110 | exact lines; the address of the header's context is in no line that begins with `ggml_init` because 16 hexadecimal digits determine the number |
| C116 | as C101, C102 (`Spec/RobertaStory.lean`) | a refinement of the lemmas of C101 that keeps the lines exactly: the merge table of `bpe::load_vocab` is that of the records (`IdTable`), the first symbols of a word are `firstIds`, the cache is the list of words seen; C102 gives the merges.  No assumption on the alphabet of the text is left, so C71's success holds for all texts; with the engine of C109 the words are those of GPT-2 (`C116_words_partial`) |
| C117 | evaluation calls of C43, C44 with `Arith` over the reals (`Spec/Reals.lean`, Mathlib's `Real.exp`); the kernels are those of `Exact`, without rounding | softmax is positive and sums to one; the values of C44; the lower bound by summing over pairs of a returned and another token |
| C118 | as C40, C41 over the reals | C61 and C62 give the last operation; mean and variance of a normalised row |
| C119 | the attention sub-graph of C61 over the reals | a weighted mean with weights that sum to one |
| C120 | as C61, C62 over the reals; `Rearranged` relates two inputs and two position tables | every reference operation commutes with a rearrangement of the tokens; sums over tokens are reordered |
| C121 | as C61, any arithmetic | every reference operation maps equal columns to equal columns |
| C122 | as C61; a model with uniform attention over the reals | the embeddings of a token do not depend on what follows (partial); explicit computation of one layer on vectors (x, -x) (counterexample) |
| C123 | the C functions `berts_tokenize`, `berts_token_to_id`, `berts_eval`, `berts_eval_lm` with pointers: null or memory of which a given number of elements can be read (`Model/Pointers.lean`); `std::vector`'s length error is `abort`; a lack of memory is not modelled | reduction to the models with lists for inputs as declared (`Spec/Pointers.lean`: `CString`, `Points`), case analysis for all others; the first tensor of the head always fits its buffer, so the hidden states are reached |
| C124 | `fillMask` of C66 over the reals (C117) | composition of C66 with the textbook softmax of C117 and a lemma on the k best of V numbers that add up to one; partial as C66 |
| C125 | `evalLm` of C43/C44, two calls compared | each call's block of results of a token is computed explicitly from the reference head, which is columnwise; any arithmetic with `ArgsortSpec` |
| C126 | C75, C80 and C76 in a chain (`Spec/Chain.lean` describes the result from the checkpoint) | the converted file meets the hypotheses of the quantizer's theorems (keys, alignment, sizes, names); its eligible tensors are the matrices whose key ends in `weight`, found by name in source and result |
| C127 | the format: bytes of metadata and directory, and a reader of them (`Model/FileFormat.lean`: numbers, strings, values of all types, arrays, alignment); `convertFile` is the converter's file | each reader consumes exactly the bytes written for a value and gives up on every proper prefix, which sequences inherit; with this the contracts `Opens` and `ReadBack` of C126 are theorems; cut data by C56 |
| C128 | the reader of C127 on any bytes; grammar of the files in `Spec/Grammar.lean` (all value types, arrays, any version but 1) | soundness: every reader relates its result to the bytes it consumed (`Gives`); completeness: every form of the grammar is consumed exactly (`Yields`); alignment by uniqueness of the next multiple; quantizer by C127 with its hypotheses on sizes now derived from the file |
| C129 | `parse_args` and the main program of the converter, convert_hf_to_gguf.py:43-51, 377-379, 485-492, with `argparse` of Python 3.11.10 specialised to the five options (abbreviations, `=`, attached values, negative numbers, `--`, errors, help); the model agreed with the library on 5998 random command lines; the lines accepted are specified in `Spec/Args.lean` without reference to the parser | every word is classified by its shape (no dash, one dash, two dashes), both directions; lines by induction; the state by the last value; `C129_dash_counterexample` |
| C130 | the three programs on one file system (`Model/Toolchain.lean`): paths to contents, each program writing one file; the quantizer reads its input before it opens its output, quantize.cpp:77, 93, so both may be the same path. `fsenc` is any encoding of the converter's paths as bytes; what a stopped converter leaves is not modelled | C129 gives the file of the converter, C127's chain that of the quantizer, C78's proof (now a lemma on any loaded model) the results; room: writing with more room never differs before the first failure |
| C131 | as C130; `Spec/Leftover.lean`: a file that no reader accepts | the header is written last, over zeros: until then the file begins with 0 and not with "GGUF" (invariant of the loop); a stream that has not failed by then has room for the header; together with C130_room every ending is one of three. Second quantization: C127 gives the new file's tensors, all matrices of the new type, which `quantize` refuses |
| C132 | as C128 | the metadata are a fixed point of `quantKv`, the tensors of the new file are converted to themselves, and type, data and offsets are unique for given tensors, so the second file is the first; counterexample: C131's model |
| C133 | as C132; the conversions of ggml are parameters, that F32 is exact is a hypothesis of C133_f32 | `quantKv` of `quantKv` keeps nothing of the first type; the tensors of the first file are converted as those of the source, the others are copied twice; type, data and offsets are unique for given tensors; counterexample by evaluation with a conversion that rounds. C133_iff: both files have the same directory, as the sizes depend on types and shapes only, and the data section determines the data of tensors of known sizes |

## Findings

Places where the code, as modelled, disagrees with the property a user would rely on.
Each has a machine-checked counterexample theorem; the sound part is the `_partial` theorem.

| property | what goes wrong | where |
|---|---|---|
| C02 | a default-constructed `ustr` has an indeterminate `size`; comparing it is undefined behaviour | unicode.cpp:41 |
| C04 | `starts_with`/`ends_with` hand a unit count to `memcmp` as a byte count, so only half of the pattern is compared | unicode.cpp:463, 471 |
| C05 | `to_lower`/`to_upper` treat ICU's `U_BUFFER_OVERFLOW_ERROR` of the size query as failure, so they fail on every non-empty string and leave the error code in the input string; the empty string has a null buffer, which ICU rejects, so they fail on it too | unicode.cpp:610-626 |
| C11 | `search_trie` cuts found/rest where the walk ends, not at the last match | trie.cpp:85-106 |
| C11 | with strings: if the walk ends inside a surrogate pair, the two parts are not valid UTF-16, so `found` and `rest` both become empty and text is lost, though an id is returned | trie.cpp:152-170 |
| C12 (beyond the property) | without basic mode a character above U+FFFF is truncated to 16 bits | bert.cpp, `clean_text_and_split` |
| C14 | the word piece loop continues after the overshoot of C11; a word that fails in its middle keeps its first pieces | bert.cpp, `wordpiece_tokenize` |
| C15, C18 | the trie node is not reset after a failed word, so the next word is looked up as a continuation | bert.cpp, `wordpiece_tokenize` |
| C16, C38 | special token ids from the metadata are not checked against the vocabulary size | model_base.hpp:64-100 |
| C17 | with `do_lower_case` every unprotected word is lost (consequence of C05) | bert.cpp, `basic_tokenize` |
| C79 | special tokens are only protected as whole whitespace-delimited words: `[MASK].` or `([MASK])` is cut at its punctuation and the mask is not found (the reference cuts the text at special tokens first); fill-mask then refuses the prompt | bert.cpp:488-562 |
| C81 | NFC is applied before control characters are removed (the reference: after), so a letter and an accent that are separated by e.g. a zero-width space stay decomposed; U+2028 and U+2029 do not separate words; with accent stripping the word is composed again (Hangul), and a word that becomes a special token by stripping is split | bert.cpp:493-525, unicode.cpp:540-545 |
| C82 | words of more than 100 characters are cut up (the reference: unknown token); the trie works on 16-bit units, so the overshoot of C11 can drop half of a character | bert.cpp:564-604 |
| C19 | with dropout the number of loop iterations is quadratic, not linear | bpe.cpp:332-344 |
| C20, C22 | `load_vocab` accepts two tokens with the same id; results are then lossy and differ from reference BPE | bpe.cpp:138-200 |
| C26 | `clear` keeps the id → token map; a later load can succeed because of it | bpe.cpp:115-118 |
| C27 | a character whose own id equals the unknown id is fused with unknown characters | bpe.cpp:466 |
| C29, C32 | `id_to_token` keeps the low byte of each character instead of inverting the byte table: wrong for bytes 0x7f, 0x80–0xa0, 0xad | roberta.cpp:109-117 |
| C30 | where `char` is signed, bytes from 0x80 index the byte table with a negative number | roberta.cpp:122, 337 |
| C31 | a special id outside the vocabulary makes the empty string a special token; tokenizing then never returns | roberta.cpp:262-284, model_base.hpp:64-100 |
| C65 | special tokens are searched for in the text as the low bytes of their characters (C29): a special token that is not ASCII is never found, and a text with such a byte cannot be tokenized at all | roberta.cpp:109-117, 313-326, 365-371 |
| C33 | a padding id of 2^31 - 1 or more makes positions negative | roberta.cpp:614-623 |
| C122 | there is no attention mask: padding tokens take part in the attention of every token, so padding a text changes its hidden states (though the RoBERTa code foresees padding, it counts positions without it) | bert.cpp:951-968, roberta.cpp:614-623, 673-690 |
| C123 | the context, settings, counts, buffers and segments may be null, but a null text, token, token array or array of hidden states is dereferenced without a check; `berts_eval` copies all tokens before it checks their number, also in a dry run, and a number of 2^61 or more leaves the C function with a C++ exception | berts.cpp:143, 172, 228-233, bert.cpp:1076, roberta.cpp:798 |
| C64 | pads get position 0, the reference gives them `padding_idx` | roberta.cpp:618 |
| C36 | the converter writes the empty token with length byte 0, which the loader reads as 256 | convert_hf_to_gguf.py:275-321 |
| C37 | `init_vocab` copies the token bytes before any bounds check | model_base.hpp:238 |
| C49 | `berts_token_to_id` returns 0, a valid id, for a null or unloaded context | berts.cpp:142 |
| C34 | `berts_eval` checks segment ids but no token ids; RoBERTa positions start at `padding_idx + 1`, so inputs near `max_tokens` address rows behind the position table | model_berts.hpp:62-90, roberta.cpp:614-623 |
| C41 | `output_layer = INT64_MIN`: the negation overflows | model_berts.hpp:129 |
| C42 | a dry run succeeds for layers the real run refuses | model_berts.hpp:108-142 |
| C43 | with `top_k > 0` the caller's capacity is ignored and `top_k` entries per token are written; `top_k` above the vocabulary size reads past the sorted ids; a hidden size of 0 is a division by zero | model_berts.hpp:227, 328-341 |
| C44 | with `top_k <= 0` the ids are sorted by probability but the probabilities are returned in vocabulary order | model_berts.hpp:319-326 |
| C53 | the formatted `error` overload tests the INFO level: at the default level no formatted error is ever written; messages are used as `fprintf` formats, so a `%` in them (e.g. from a file name) is undefined behaviour | log.hpp:61, log.cpp:31 |
| C58 | a number outside `int` leaves the variable uninitialised, it is compared anyway; `toupper` of a negative `char` | berts/examples/quant.cpp:46, 50-60 |
| C59 | the token array has as many elements as the prompt has bytes, but the token count may be larger (every prompt of one byte) | berts/examples/fill_mask.cpp:75-86 |
| C66 | a token with a name of more than 256 bytes makes `erase` throw | berts/examples/fill_mask.cpp:163-166 |
| C67 | `stoi` throws `logic_error`s, `runtime_error` is caught; text after the number is ignored | berts/examples/fill_mask.cpp:35-42 |
| C68 | the exit status is 0 although quantization failed | berts/examples/quant.cpp:113-116 |
| C48 | the `size_t` sum of the tensor sizes can wrap around; the loader then aborts (only for sizes around 2^64) | gguf.cpp:133 |
| C51 | once `new_context` was called, the gguf context and the weight context are never freed: `berts_free` only deletes the model, and so does a load that fails in `init_vocab`/`init_weight` | gguf.cpp:286, internal.cpp |
| C54 | `.` of `std::regex` does not match line terminators, so a name with one is never quantized; a failed conversion leaves a file with a zeroed header | quantize.cpp:111, 148-150 |
| C80 | a consequence of C55: a source with alignment 64 is quantized with success; loading the result reads the vocabulary sizes from other bytes and runs into undefined behaviour | quantize.cpp:88-90, 107, 161 |
| C55 | `general.alignment` of the source is copied to the metadata, but the file is laid out with the default alignment 32; a reader then looks for the data elsewhere | quantize.cpp:88-90, 107, 161 |
| C56 | the result of `read` is only noticed by the next `seekg`: a file without the end of its last tensor is loaded, with indeterminate weights | gguf.cpp:205-210 |
| C57 | tensor names of more than 63 bytes are looked up under their full name and not found: null pointer | gguf.cpp:130-131 |
| C73 | loading does not check shapes or hyperparameters against each other: with no attention heads, a token table smaller than the vocabulary, a position table smaller than `max_token` or a bias of the wrong length the model loads, and evaluating is undefined behaviour or stops the process | gguf.cpp:214-288, bert.cpp `init_weight` |
| C74 | ids that the tokenizer delivers may lie outside the token table (vocabulary larger than the table; special ids of the metadata) | model_base.hpp:64-100, 189-262 |
| C75 | a RoBERTa model with activation relu, silu or gelu_new is converted but refused by the loader; hidden size 1: `squeeze` removes the dimension, the model loads and evaluating reads out of bounds | convert_hf_to_gguf.py:216-229, 396 |
| C76 | a converted RoBERTa model reports `max_position_embeddings` as its maximal number of tokens, but positions start at `padding_idx + 1`: the longest accepted texts read behind the position table | convert_hf_to_gguf.py:183-192, model_berts.hpp:62-90 |
| C77 | the merge table has a rank column, which the loader ignores: merges rank by their order in the file. A line that is twice in `merges.txt` keeps its first place in the dictionary and gets its last rank, so priorities differ from the source | convert_hf_to_gguf.py:324-346, roberta.cpp:231-236 |
| C86 | `ggml_new_graph` has room for 2048 operations, a layer has 46: a model with 45 layers or more loads, but every evaluation up to such a layer ends the process | model_berts.hpp:161-169 |
| C87 | the destructor of `ustr` releases the buffer but not the `ustr_impl` it made: every string ever constructed (also temporaries) leaves one object behind; the memory of the process grows with every tokenization | unicode.cpp:251-252, 294-301 |
| C88 | tokenizing a text that is not valid UTF-8 is undefined behaviour: the string constructor returns early without writing `size`, and `normalize_nfc` (BERT) or the regular expression and iteration functions (RoBERTa) read it; the library never checks the text | unicode.cpp:36-41, 257-264, 512-523, bert.cpp:495, roberta.cpp:302 |
| C89 | the tests run in the destructor of a static object, after `main` returned 0: a test program with failing tests exits with status 0; an exception other than `std::runtime_error` leads to `std::exit` during static destruction, which is undefined | tests.hpp:166-247, 213, 217, 297 |
| C90 | `regex::test` is false for every expression on the empty text (null pointer rejected by ICU); when the engine fails, `split` returns 0 but has appended pieces, and `roberta::tokenize` ignores the number, so the rest of the text would be dropped silently | unicode.cpp:677-678, 697-708, roberta.cpp:329 |
| C91 | documented defaults that are not implemented: bos/eos of RoBERTa (taken from "<s>"/"</s>" before cls/sep), "[CLS]" and the like for RoBERTa, bos/eos of BERT (keys ignored), `berts.never_split` (ignored) | keys.h:48-76, roberta.cpp:133-155, bert.cpp:103-109, 145 |
| C92 | `load_keys` stops at a comment behind a value, silently skips `# define`, and takes escape sequences literally | convert_hf_to_gguf.py:31-38 |
| C93 | the size of the memory pool wraps around for inputs of 2^30 tokens and more (if the model has that many positions); the evaluation ends in an assertion of ggml | ggml.hpp:76-90, bert.cpp:713 |
| C94 | the result of `re.split` and a failed `uregex_open` are ignored: tokenization reports success with the rest of the text (or all of it) missing | roberta.cpp:295, 329, unicode.cpp:639-646, 697-708 |
| C95 | a comma too many in the debug message of `eval_lm`: the last line of the format is printed as the number of tokens, and `hidden_dim` shows the number of tokens | model_berts.hpp:237-242 |
| C95 | a path with a percent sign is passed to `fprintf` as format, as soon as a model is loaded with level INFO | gguf.cpp:162, log.cpp:31 |
| C96 | numbers of tensor types are used as numbers of file types: a file quantized to Q8_0 is recorded and shown as `MOSTLY_Q5_0`, Q5_0 as `MOSTLY_Q4_3` | quantize.cpp:91, gguf.cpp:53-55, 81 |
| C97 | a word the vocabulary cannot finish is passed to `fprintf` as format at the default log level: tokenizing `100%` is undefined if `%` is not in the vocabulary (`%n` in a text writes to memory) | bert.cpp:593-595, log.cpp:31 |
| C97 | a token with a percent sign that occurs twice in a vocabulary: undefined while loading, at the default log level | model_base.hpp:148, log.cpp:31 |
| C98 | `berts.merge.data` of a RoBERTa model is listed as unused though the model cannot be loaded without it; the messages about skipped tensors can never be printed (a tensor is skipped if it is not in the file, and the list runs over the file) | bert.cpp:342-363, roberta.cpp:205 |
| C99 | at level INFO a percent sign in the file name, in a metadata text (`general.url` with `%20`), in a special token or in the name of an unused tensor makes loading undefined; at the default level a repeated token with a percent sign does | gguf.cpp:83-105, 162, model_base.hpp:148, bert.cpp:348, log.cpp:31 |
| C100 | at the default level nothing is written if the file cannot be read, the activation is not GELU or the architecture is unknown: these are formatted errors, which are only written up to level INFO | gguf.cpp:171, 264, 282, log.hpp:59-65 |
| C101 | a text that cannot be tokenized is refused without a word at the default level (formatted errors again); at level DEBUG a text with a percent sign makes tokenization undefined | roberta.cpp:316-318, 349-351, 289-291, bpe.cpp:233-236, log.hpp:59-65 |
| C104 | too many tokens, a wrong number of segments, an unknown segment, pooling type or layer, and hidden states of a wrong size are refused without a word at the default level (formatted errors again); a call without settings or without `out_count` is refused without a word at every level; BERT's head with activation 3 reports the same error twice, once while computing a size | model_berts.hpp:76-104, 127-142, 227-231, berts.cpp:212-271, bert.cpp:838-841, 1095-1098 |
| C105 | after a failed tokenization `berts_tokenize` may warn about a sequence it does not return (it counts the ids appended before the failure); for RoBERTa texts of `max_tokens` or one less token there is no warning though evaluating them reads beyond the position table (C34) | berts.cpp:176-194, roberta.cpp:614-623 |
| C107 | an empty list of tokens (and the hidden states of no token) passes every check of `berts_eval` (`berts_eval_lm`); `ggml_add` then divides by the number of rows, which is zero | model_berts.hpp:53-104, 206-263, bert.cpp:905-906, 1083 |
| C108 | the callers in the repository give `berts_tokenize` an array with as many elements as the text has bytes; two more are needed in general (`C108_sharp`): the call still returns true, cuts the ids and reports a length beyond the array | berts/examples/fill_mask.cpp:75-76, berts/tests/test_bert.cpp |
| C111 | a conversion that fails does so without a word at the default level: the file that cannot be opened, the output that cannot be opened and the wrong type are formatted errors (log.hpp:61 again); `quant` sets the level to ALL and so reports them, but exits with status 0 (C80) | quantize.cpp:57, 79, 96, log.hpp:59-65 |
| C112 | the "quantized size" counts the bias of the head, which is not written: wrong by 0.1 MiB or more from 26215 tokens on (BERT has 30522, RoBERTa 50265) | convert_hf_to_gguf.py:454-466, 475-480 |
| C114 | at the level DEBUG a tensor of the language model head that is missing is reported as stored, right after the message that it was not found | bert.cpp:251-259 |
| C115 | the ggml context of the header is freed with a message but never announced: `gguf_init_from_file` stores it through `ptr()`, past `on_init` | gguf.cpp:165-170, utils.hpp:41-56 |
| C70 | `do_basic_tokenize` off leaves lower-casing, accent stripping and CJK splitting on, which the reference then skips | bert.cpp:143-173 |
| C69 | no write is checked: on a full device true is returned for a truncated file | quantize.cpp:163-188 |
| C129 | `-o PATH` and `-i NAME` are refused if the value begins with a dash and is no number (`-o -out.gguf`); `-o=PATH` works | convert_hf_to_gguf.py:45-48 |
| C131 | quantizing a quantized model in place destroys it: the output is truncated and filled before the types are checked; the status is 0. A full disk likewise | quantize.cpp:93-108, 54-57, quant.cpp:113-116 |

The reference of C81 and C82 is the slow tokenizer of `transformers` (`BertTokenizer._tokenize`); cutting the text at
special tokens, which `tokenize` does before, is C79.  Lower-casing is left out of the reference, as the code loses all
words then (C17).

Remarks without a property of their own: `weights::init` checks that tensors exist, not their shapes or
types against the hyperparameters (hence the hypothesis `Fits` of the evaluation theorems, which C73
derives from a consistent file).  In the converter
`case None` of the activation is never reached (`None.lower()` raises first), and DeBERTa models are
accepted by `load_diffusers` but raise in `convert`.
