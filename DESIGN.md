# Formal model of wreport: design

The code under study is the C++ library in `/repo` (wreport). It is read as
text only. Nothing here builds, runs or changes it. The tie between this model
and the code is the reading: every Lean definition carries a comment with the
file and line range it models, and says what it simplifies.

## Layout

| Path | Contents |
|---|---|
| `lean/Verif/Model/*.lean` | the model: total computable functions, one per C++ function |
| `lean/Verif/Spec/*.lean` | small independent specifications used in property statements |
| `lean/Verif/Lemmas/*.lean` | helper lemmas |
| `lean/Verif/Props/*.lean` | the property theorems and the `example`s that show their hypotheses are met |
| `properties.jsonl` | the properties in English |
| `MANIFEST.json` | property -> status -> theorem names |
| `seeded/LOG.jsonl` | mutation test log |

## Modelling conventions

* `Res α` is the outcome of a C++ call: `ok a`, `err e` (a thrown exception,
  `e` is its class), or `ub` (undefined behaviour: out-of-bounds access, signed
  overflow, shift by at least the width, dereferencing an end iterator, use of
  freed memory). Undefined behaviour is never assumed away: a theorem that says
  a call returns `ok` says in particular that it is free of it.
* Fixed-width integers are `Nat`/`Int` with explicit wrap-around or range
  hypotheses where the C++ type matters.
* Bytes are `UInt8`, strings are lists of bytes, bit
  streams are `List Bool`.
* Doubles are rationals together with a rounding function `fl : ℚ → ℚ`. A
  theorem about doubles holds for every `fl` with relative error at most 2^-53.
  A concrete round-to-nearest with 53 significant bits is proved to be one such
  `fl`, so the hypothesis is satisfiable. NaN and infinities are separate
  constructors where the code distinguishes them. Overflow to infinity and
  subnormals are out of reach for the magnitudes concerned.
* Loops become structural recursion or folds; sequence expansion and decoding
  loops whose termination is not evident take fuel.

## Plan per property

| Id | Model | Proof |
|---|---|---|
| C01 | `WR_VAR*`, `varcode_format`, `varcode_parse` on byte lists | arithmetic on digits, all 2^16 codes |
| C02 | same | negation witnesses (short text, X over 63, Y over 255, unknown letter), `_partial` for canonical text |
| C03 | `compute_range`, `encode_binary` on integers | inequality reasoning; class 31 is a negation witness, so `_partial` outside class 31 |
| C04, C05 | `decode_decimal`, `encode_decimal`, `decode_binary`, `encode_binary` over `fl` | error analysis: total error below 1/2 |
| C06 | `Var` with all setters | invariant over operation lists |
| C07 | `assign_i_checked`, `assign_d_checked` | decision logic |
| C08 | `count_digits`, `uint32_to_str`, `str_to_unsigned`, `isnumber` | induction on digits |
| C09 | `setd` | negation for integer descriptors (`lround` then narrowing), `_partial` for decimals |
| C10, C11 | `assign_c_checked`, `assign_b_checked` | list lemmas |
| C12 | attribute list | refinement to a finite map, over operation lists |
| C13, C14, C15 | copy, compare, diff, assign | case analysis; negation witnesses for C14 and C15 |
| C16, C17 | `BufrOutput` byte level state, `Input` byte level state | refinement to `List Bool`, then round trip |
| C18 | `Input::get_bits` with bounds | negation witness, `_partial` for reads inside |
| C19 - C22 | `append_string`, `append_binary`, `append_var`, `append_missing`, `decode_*` | built on C16/C17 |
| C23 - C25 | compressed decoding | decoder inverts an independent specification encoder |
| C26 - C31 | section encoders and decoders on byte lists | list slicing |
| C32 | interpreter with encoder and decoder as targets | simulation of both by a walk through the subset (values, associated fields, bitmaps, attributes), induction on fuel |
| C33, C34 | interpreter, generic target | fuel-monotone evaluation lemmas |
| C35 | `get_varinfo`, `c_modifier` | decision logic |
| C36 | `Bitmap`, `Bitmaps` | induction over the backwards scan |
| C37 | `make_attribute`, `get_attribute` | case analysis; significance 21 is a negation witness |
| C38 | sign-magnitude codec | bit arithmetic; zero is undefined behaviour (negation witness) |
| C39 | `check_fits`, validator as a target | inequality; width 32 is undefined behaviour; simulation of the encoder by a stricter validator |
| C40 - C42 | tables, binary search, alteration chains | invariant over operation lists |
| C43 - C45 | table identifiers and selection | order reasoning |
| C46 - C48 | stream readers | induction over the stream |
| C49 - C51 | CREX fields | digit lemmas |
| C52 | CREX header loop as a fuelled step function | negation: for one input no fuel suffices |
| C53, C54 | unit and code conversions over rationals | table case analysis |
| C55 | option stack | induction over nested programs |
| C56 - C58 | bulletin and subset | list lemmas |
| C59 | `Opcodes` | list lemmas |
| C60 | `Tables::get_bitmap`, `get_chardata`, `get_unknown` | map lemmas; witnesses for the refusals |
| C61 | CREX encoder and decoder on whole messages | lockstep simulation as for C32; five witnesses of texts that do not come back |
| C62, C63 | file names and directories of tables | scanner inverts a name specification; invariant over added directories; witness of a CREX table that is passed over |
| C64 | `Bulletin::clear` | case analysis |
| C65 | registered conversions against a table of units | finite table, exact rationals plus rounding bounds |
| C66, C67 | `CompressedDecoderTarget` | lockstep simulation against a column writer given as specification |
| C68 | `Subset::store_variable*` | induction over the list of requests |
| C69 | CREX decoder | every accepted text is rebuilt from the groups the decoder passed over |
| C70 | `Var::format` and the file form of it, with the digits `printf("%.*f")` gives | the digits denote the rounded value; reading them back with any `strtod` that is right on such texts restores it |
| C71 | `encode_base64`, `decode_base64` on byte lists | groups of three bytes against six-bit digits of the bit string; uniqueness of the encoding |
| C72, C73 | the escape functions on byte lists | character by character, every byte value checked by the kernel |
| C74 | the `Split` iterator with its positions, each loop with fuel | left to right pieces as an inductive relation that determines them |
| C75 | the path functions; `back()` of an empty vector is undefined | invariant of the stack of `normpath`, simplification steps as an independent relation |
| C76 | the index loops of the strip functions | loop invariants |
| C77 | interpreter with decoders and validator as targets | an inductive relation between descriptors and variables, followed by every target that takes one variable for each callback |
| C78 | decoders with and without skipping of missing associated fields | the two runs related step by step: same interpreter state, variables equal up to attributes that stand for a missing field |
| C79 | `ScanFeatures` with its overridden functions | induction over the turns of a run: features found are those of the descriptors read; insertion keeps order |
| C80 | `Printer` with its overridden functions | the text shows the lines of an outline defined on descriptors alone, which has only one reading |
| C81 | `DDSPrinter` | invariant over the turns of a run: stack restored, items under nested descriptors, variables taken are printed |
| C82 | `Input::decode_string`, `Input::decode_binary` on any bits | reading loop on any field; trailing blanks split off uniquely |
| C83 | decoder and encoder of uncompressed data | a decoder that stops where a field is not one an encoder writes; it is in step with the decoder and with the walk of C32 through what it read |
| C84 | decoders of BUFR (both kinds) and CREX | an invariant of the decoder kept by every step of the interpreter, over arbitrary input (`Care`) |
| C85 | the same | the same invariant, together with bounds on widths and on the data left; witnesses for what is left out |
| C86 | decoders of BUFR | two runs over data with a common beginning are in step until the first goes past it; witness for data that ends there |
| C87 | `decode_header` | octet by octet: what is read is computed for located sections, and is determined by the octets |
| C88 | table files | lines written in columns give the numbers and units in them; files of lines by induction |
| C89 | verbose decoder | simulation by the decoder without a report, with an invariant that keeps what is printed readable; what is printed by induction on descriptors |
| C90 | compressed numbers | each outcome of the loop compared with the outcome from a fresh variable, by induction on the increments |
| C91 | `Var` once more, with pointers: buffers of texts and attributes are objects on a heap, created by `new` and destroyed by `delete`; all constructors, assignments, setters, attribute operations and the destructor; programs over several variables | Refinement: every operation that is defined on values keeps a relation between heap and values in which each object has one owner (footprints, frame rule); induction over the program; at its end the heap is empty. Fails for assignments between numbers and texts (deleting a number, leak) , for assigning an own attribute (use after free) and for setting a text to its own value (copied onto itself): witnesses |
| C92 | `Var::diff`, `Subset::diff` and `Bulletin::diff` once more, with the texts of their notes (descriptions of elements are a parameter); `Var::print` to a stream; the target of notes and `Collect` | The count is that of the model without notes, and text is written exactly if it is not zero: induction over attributes, variables, subsets and descriptors. Programs with nested `Collect`: induction. Fails for `Collect` where notes are discarded (null reference), for the smallest number and for binary values without NUL: witnesses |
| C93 | The static maps of loaded tables, `Tables::load_bufr` and `load_crex`, `load_tables`, decoding as an operation of a process, with files and directories as functions | Invariant over operations: maps hold what files say, up to added alterations; decoding depends on an element table only through its answers (congruence through interpreter and decoders); with changing files, a relation between maps before and after |
| C94 | The same | Case analysis of the two assignments, with C45 for the candidate. Fails when only the sequence table cannot be read: witness |
| C95 | the whole decoders of BUFR and CREX | header: every read is inside the data; data: `Local` (C86); CREX: the two texts are decoded in step, numbers end at the `++` at the latest |
| C96 | the end of `decode_data` of CREX | both directions for texts without optional section; every text with one is refused, which is the negation |
| C97 | `wrep -U`: options, reading of files, decoding in a process, copying | each message is decoded as by a fresh process (C93); reading is total and deterministic; a message that was read is read again from its own bytes |
| C98 | `wrep --print`: the same with `PrintVars` | rows as an inductive relation with one text; formatting does not throw because decoded variables are well formed (C84); a missing variable leaves no column, which is the negation |
| C99 | `main` of `wrep` up to the choice of handlers, `getopt_long` | induction on command lines written as the help says; witnesses for `-p`, `-h` and malformed codes |
| C100 | `Bulletin::print`, `print_details`, `Var::print(FILE*)` | the text is split at separators that the parts cannot contain, by induction on variables, attributes and subsets; values with C70; witnesses for a missing value and for a text with a newline |
| C101 | `var_value_from_python`, `var_value_to_python`, `VarDef::_init`; Python objects are a data type with UTF-8 as Lean has it | by the kind of object and of variable, with C04, C05 and the lemmas of the setters; witnesses for wide integers, cut texts and binary values |
| C102 | all methods of `wreport.Var`, `set_wreport_exception`, the check that the interpreter makes on return; programs are lists of calls on the variables made so far | invariant over programs; each call by cases, against a table of allowed exceptions; witnesses for the calls that end otherwise |
| C103 | `get_attrs`, `enqa`, `seta`, `unseta` from Python | with C12 for the map, and that a variable made from an attribute shows what the attribute does (C04), that setting a binary value clears the bits it does not use and so copies are the same; witness for `enqa` |
| C104 | `get_bufr`, `get_crex`, `load_*` from Python, with `Vartable::get_*` | invariant of the process (C93) kept by the new calls; with C45 for the choice; witnesses for numbers that are cut and versions left out |
| C105 | `in`, `[]`, `len` and iteration of `wreport.Vartable` | with C40 and C01; witnesses for what is not refused, length and iteration |
| C106 | the functions of `wreport/var-lua.cc` | with C08, C70 and C01, by cases on what the variable holds; witness for binary variables |
| C107 | `BulletinHeadHandler`, `PrintTables`, over the reading loop of C97 | induction on the messages read, with the flag for titles; the numbers on a line determine the identifier that is searched, since all BUFR tables found have master number 0; witness for CREX |
| C108 | `PrintFeatures` over the same loop and `ScanFeatures` of C79 | the same induction, with C79 for the features; witness for CREX |
| C109 | `PrintTrace`, for BUFR over the verbose decoder of C89 | negation for CREX, for all command lines and files; for BUFR the induction of C107 with the report of C89; witness for associated fields |
| C110 | `_Varinfo::round_decimal`, against `setd` and `enqd` of C07 | error bounds of double arithmetic as in C04; witness for halves |
| C111 | Getters of `wreport.Varinfo` | UTF-8 decoding is injective; limits are computed from what can be read; witness for a unit cut within a character |
| C112 | `convert_units` of the Python module over that of C53 | parsing of arguments as a relation, then C53; witness for octants |
| C113 | writing of element tables by `wrep-importtable`, read by the loaders of C40 | each line written is a line of C88, sorting is a permutation in the order of codes, and loading succeeds by induction; witnesses for a unit beyond ASCII, a long unit and missing columns |
| C114 | writing of sequence tables by `wrep-importtable` | invariant of the grouping over the list of pairs, then C88 |
| C115 | names of imported files | through C62; witnesses for subversions, versions and CREX |
| C116 | `PrintContents`, `BulletinFullHandler`, over `Bulletin::print` of C100 | induction on the messages read; decoded variables can be formatted (C53 and the invariants of decoding), the text is determined by a separate grammar of lines |
| C117 | `PrintDDS` over `Bulletin::print_datadesc` of C80 | the same induction with the outline of C80; witness for CREX |
| C118 | `PrintStructure` over `Bulletin::print_structured` and `DDSPrinter` of C81 | the same induction with a grammar of items; witness for items that end no line |
| C119 | `-L` of `wrep` with `Tabledirs::get`, `Tabledirs::print`, `BufrTableID::print`, `CrexTableID::print` | lines as a relation on files, induction on directories and names; texts of identifiers are cut at what is no digit |
| C120 | `Tabledirs::explain_find_bufr`, `Tabledirs::explain_find_crex` | invariant of C45 after each table; histories of operations by the invariant of the index |
| C121 | `do_info`, `Tabledirs::add_default_directories` | with C63; undefined for all environments in which a variable is not set |
| C122 | `convert_icao_to_press` over the real numbers, with exact `pow` and `exp` | the two formulas are monotone; at 11000 the power is compared with rational numbers through integer powers that the kernel computes; witness that the formulas do not meet |
| C123 | `main` of `afl-test.cc` on the machine of the model of `wrep` | induction on the bytes left; the tables kept from earlier messages change nothing, by the invariant of the process; witness that a message whose values cannot be decoded is passed |
| C124 | `main` of `examples.cc` with `getopt_long`; the message is a parameter | induction on the arguments: the letters that `getopt_long` gives are those of the relation that says what a command line asks for; witness for all command lines with `-B` |

A row says what was planned; `MANIFEST.json` says what was proved. A theorem
called `_partial` leaves part of its property out and says which part in its
comment. A theorem called `C##_not_...` is a witness that the property, as
stated in `properties.jsonl`, does not hold for the code.

## Trusted base

1. Lean's kernel (Lean 4.33.0). Proofs are also replayed by `vcheck`.
2. Axioms: every theorem of `MANIFEST.json` depends on at most `propext`,
   `Classical.choice` and `Quot.sound`. There are no axioms of our own, no
   `sorry`, no `native_decide` or `bv_decide`. Concrete witnesses and finite
   tables are checked with `decide` or `decide +kernel`, which the kernel
   evaluates.
3. The reading of the C++ code. No tool connects the model with the code; each
   definition cites the lines it was read from.
4. The statements: that `Spec/*.lean` and the theorem statements say what the
   English says.

Facts about the platform that are parameters of the model (`Env` in
`Model/Float.lean`), so that theorems hold for each choice unless they say
otherwise:

* `fl`, rounding of doubles: any function with relative error at most 2^-53;
* `wrapv`, whether signed overflow wraps or is undefined;
* `lroundOut`, what `lround` returns for values it cannot represent;
* `conv`, the unit conversion used by `Var::setval`, and `strtod`.

Assumed about the platform: `int` has 32 bits, `long` 64, `char` is signed,
two's complement, the "C" locale.

## Code that is modelled

| Code in `/repo/wreport` | Model | Left out |
|---|---|---|
| `error.h` | `Model/Basic` | message texts |
| `varinfo.{h,cc}` | `Model/Varcode`, `Model/Varinfo`, `Model/Round` | description text, stream output |
| `var.{h,cc}` | `Model/Var`, `Model/Format` (717-769), with pointers `Model/Heap`, with notes `Model/Notes`, `print` in `Model/Dump` | Lua |
| `notes.{h,cc}` | `Model/Notes` | failing `vasprintf`, failing streams, threads |
| `options.{h,cc}` | `Model/Options` | |
| `vartable.cc` 28-470, `dtable.cc` 15-156, `opcodes.h`, `tables.cc` 79-128 | `Model/Tables` | file access |
| `vartable.cc` 485-521, `dtable.cc` 162-188, `tables.cc` 53-77, `bulletin.cc` 341-344 and 552-562 | `Model/Process` | files and directories are functions; alterations asked for while decoding are steps of their own |
| `tableinfo.{h,cc}`, `internals/tabledir.cc` | `Model/Tabledir`, `Model/TabledirPrint` | tracing of comparisons, `readdir`, pointers into vectors |
| `conv.cc`, `codetables.h` | `Model/Conv`, `Model/Icao` | rounding in `convert_icao_to_press`; `convert_press_to_icao`, which always throws |
| `buffers/bufr.{h,cc}` | `Model/Bits` | |
| `bufr/input.{h,cc}` | `Model/Input` | debug dumps, error texts, offsets beyond 4 GB |
| `bufr_encoder.cc` 148-417, `bufr/decoder.cc` 28-252 | `Model/Header`, `Model/Message` | tracing, verbose decoding, offsets beyond 4 GB |
| `bulletin/interpreter.{h,cc}` 22-542, `bitmaps.{h,cc}`, `associated_fields.{h,cc}` | `Model/Interp` | notes |
| `bulletin/interpreter.cc` `Printer`, `bulletin/dds-scanfeatures.cc`, `bulletin/dds-printer.cc`, `bulletin.cc` 118-151 | `Model/Listing` | the text of element descriptions (any text), how a variable is printed (`Model/Dump` has it) |
| `bulletin/internals.{h,cc}`, `bufr_encoder.cc` 25-145, `bufr/decoder.cc` 213-384 and 561-629, `dds-validator.cc` | `Model/Targets` | |
| `bufr/decoder.cc` 202-223, 386-397, 534-553, 633-758 (`VerboseDataSectionDecoder`) | `Model/Verbose` | what was printed before an exception |
| `bufr/decoder.cc` 200-211, 405-532, `bufr/input.h` 19-42 | `Model/Compressed` | what was stored before an error |
| `buffers/crex.{h,cc}`, `crex_encoder.cc`, `crex_decoder.cc` | `Model/Crex` | `debug_dump_next`, tracing, message texts |
| `bulletin.{h,cc}`, `subset.{h,cc}` | `Model/Bulletin`, `Model/Stream`, `print` in `Model/Dump` | stdio errors |
| `utils/string.{h,cc}` | `Model/Strings` | `upper`, `lower` |
| `src/wrep.cc`, `src/options.{h,cc}`, `src/input.cc`, `src/unparsable.cc`, `src/iterate.cc`, `src/output.cc`, `src/info.cc` | `Model/Wrep` | what goes to standard error, what has been printed of a message when an exception ends the printing (any text); `getopt_long` as its manual says |
| `src/afl-test.cc` | `Model/AflTest` | what goes to standard error; reading of the file does not fail |
| `src/examples.cc` | `Model/Examples` | what goes to standard error, the message that `src/makebuoy.cc` makes |
| `python/var.cc`, `python/common.{h,cc}`, `python/utils/values.{h,cc}` for text | `Model/Python` | reference counts, out of memory, the table of C functions, variables made with `__new__` only, messages of exceptions |
| `python/vartable.cc`, `code` of `python/varinfo.cc`, `Vartable::get_bufr`, `Vartable::get_crex` | `Model/PythonTables` | reference counts, path and printed forms of a table |
| getters of `python/varinfo.cc`, `convert_units` of `python/wreport.cc` | `Model/PythonInfo` | `desc`, objects made with `__new__` only |
| `src/wrep-importtable` from the dictionaries made of XML elements to the files | `Model/ImportTable` | zip archives, XML, text of numbers, `upper` beyond ASCII, options, files left by an exception |
| `wreport/var-lua.cc` lines 41-107 | `Model/Lua` | the Lua state, arguments that are not variables |

Not modelled at all: memory allocation failure, locale, stdio buffering and
I/O errors, threads beyond the thread-local options,
`utils/*` other than `string`, `utils/lua.*`, the rest of `python/`,
the other programs and files of `src/`, the contents of the table files, tests and
benchmarks.

Model simplifications that hold everywhere:

* Recursion that the code bounds only by the stack takes a depth or fuel
  parameter. Running out of depth is `ub` (stack overflow).
* A function that throws leaves no state behind, except where a theorem is
  about what it leaves (`Var` setters return the variable and the outcome).
* Heap memory is a list of bytes of which some were never written.

## Where the code and the properties disagree

Each line is a theorem, most of them about one concrete case.

| Theorem | What it shows |
|---|---|
| `C02_not_letter_rejected` | C02 fails: a first character that names no table is accepted as table B. |
| `C02_not_memory_safe` | C02 fails: "B01" makes the parser read past the end of the string. |
| `C02_not_short_rejected` | C02 fails: the five-character text "B0100" is accepted, although it is not a descriptor text, and gives a code of another table (F=3). |
| `C02_not_x_rejected` | C02 fails: X above 63 is accepted and changes F. |
| `C02_not_y_rejected` | C02 fails: Y above 255 is accepted and changes X. |
| `C03_not_class31` | C03 fails for class 31: the 8-bit replication factor accepts 256, which does not fit. |
| `C03_not_wide` | C03 fails for 10 digits or more: the range ignores the bit width. |
| `C03_not_wide_negative` | C03 fails for 10 digits or more: negative values are accepted that the unsigned field cannot hold. |
| `C03_not_width32` | C03: for widths above 31 bits and less than 10 digits the range computation itself is undefined behaviour. |
| `C04_not_any_scale` | Outside scales -16..16 the conversion reads outside its table of powers. |
| `C06_not_empty_range` | C06 fails for an empty range when clamping is enabled: the variable becomes set to a value that is not in the range. |
| `C07_not_setd_integer` | C07 fails on integer descriptors: with default options, setting 2^32 on a descriptor whose range is 0..2 raises no error and stores zero. |
| `C07_not_setd_integer_nan` | C07 fails on integer descriptors: with default options, NaN raises no error and stores whatever `lround` happens to return. |
| `C08_min_undefined` | The excluded value: the text of the most negative integer is computed by negating it, which overflows. |
| `C08_not_long_text_rejected` | Text is read modulo 2^32: not every decimal text is either stored as written or refused. |
| `C09_not_integer` | C09 fails on integer descriptors: 2^32, far outside the range 0..2, is stored as the in-range value zero. |
| `C100_not_lines` | C100 does not hold: a name of two lines is printed like two names. |
| `C100_not_values` | C100 does not hold: a station without a name is printed like one named "(undef)". |
| `C101_not_binary` | C101 fails for binary variables: a value without zero bytes is read past the end of its memory. |
| `C101_not_binary_cut` | C101 fails for binary variables with zero bytes: the rest is lost. |
| `C101_not_binary_short` | C101 fails for bytes that are shorter than a binary variable: memory after them is read. |
| `C101_not_cut` | C101 fails for texts that are cut: what is left of a text may be no text at all. |
| `C101_not_nul` | C101 fails for texts with a NUL: the rest is lost. |
| `C101_not_number` | C101 fails for texts that are not numbers: they make a variable without a value, and no exception. |
| `C101_not_wide` | C101 fails for integers that do not fit an `int`: 4294994611 is stored as 27315. |
| `C102_not_code` | C102 fails for short codes: memory after the text is read. |
| `C102_not_huge` | C102 fails for integers beyond 64 bits when the variable takes −1: the value −1 is stored, and the call is a `SystemError`. |
| `C102_not_tables` | C102 fails for comparing variables with the same code from different tables. |
| `C103_not_enqa_alone` | C103 fails for `enqa`: the variable that it gives has the attributes that come after it as its own. |
| `C104_not_crex` | C104 fails: when one version is not given the other does not find any table; the table that a message with this version is decoded with is not found. |
| `C104_not_crex_any` | C104 fails for every directory: with only the version of the CREX table no CREX table is found; the table given is a BUFR table with version 255. |
| `C104_not_fields` | C104 fails: a version that does not fit its field is not refused, another one is used. Here 275 is 19. |
| `C104_not_none` | C104 fails: the default of `basename` in the documentation cannot be given. |
| `C105_not_iterate` | C105 fails: iterating over any table never ends. |
| `C105_not_length` | C105 fails: the length of a table is 0, whatever is in it. |
| `C105_not_refused` | C105 fails: what follows a NUL, and which letter comes first, do not matter. |
| `C105_not_short` | C105 fails: a text that is too short is read past its end. |
| `C106_not_binary` | C106 fails for binary variables: contents with a zero byte are cut, contents without one are read past their end. |
| `C107_not_crex` | C107 does not hold: the header of a CREX message can be read and its tables are there, and nothing is written about it. |
| `C108_not_crex` | C108 does not hold: the header of a CREX message can be read, its tables are there and its descriptors can be scanned, and nothing is written about it. |
| `C109_not_crex` | C109 does not hold: with any command line that asks for traces of CREX messages, whatever is in the files, nothing is written. |
| `C109_not_values` | C109 does not hold: a trace of a message with associated fields has none of its values. |
| `C110_not_stored` | C110 does not hold: of a number halfway, 0.125 with two decimals, `round_decimal` takes one neighbour and a variable the other. |
| `C111_not_unit` | C111 does not hold for all units that are text: the one that is too long is cut within a character, and can then not be read. |
| `C112_not_octants` | C112 does not hold for octants: an infinity is converted to an integer, which is undefined. |
| `C113_not_crex` | C113 is false in the code for elements without CREX columns that are not replication factors: the CREX table is refused. |
| `C113_not_unit` | C113 is false in the code for units that fill their column: the copy in the table is not terminated. |
| `C113_not_width` | C113 is false in the code for texts that are not plain: the columns are counted in characters by the script and in bytes by the library. Elements with their unit in per mille get their scale as reference value and the reference value as width, and have no bits. |
| `C115_not_crex` | C115 is false in the code for CREX files: the version is taken for the edition of CREX, and the subversion for the version. |
| `C115_not_subversion` | C115 is false in the code for subversions: a table of the WMO becomes a local table. |
| `C115_not_version` | C115 is false in the code for versions greater than 255, like those of a file given with `--btable`, whose subversion is taken for a local version. |
| `C117_not_crex` | C117 does not hold: the header of a CREX message can be read and its tables are there, and nothing is written about it. |
| `C118_not_lines` | C118 does not hold: there are three items of the message on two lines. |
| `C11_not_setc_short` | C11 does not extend to `setc` of a shorter value: it reads as many bytes as the variable has even when the C string ends earlier. |
| `C121_not_unset` | C121 does not hold: when one of the variables is not set, which is the usual case, a null pointer is printed. |
| `C122_not_falling` | C122 does not hold: a hair above 11000 metres the pressure is greater than at them. |
| `C123_not_values` | C123 does not hold: the message of a file cannot be decoded, and the program ends with status 0. |
| `C124_not_letter` | C124 does not hold: the help text lists `-B`, and with it nothing is done, whatever comes before. |
| `C13_not_different_scale` | C13 fails between variables with the same code and different scale: different numbers compare equal. |
| `C13_not_different_tables` | C13 fails between variables with the same code and different types: comparing a string with a number uses the number as a pointer. |
| `C14_not_unset` | C14 fails for unset variables: their attributes are never looked at. |
| `C15_not_longer_string` | C15 fails when a variable holding a short string is assigned a longer one: the old buffer is too small. |
| `C15_not_move` | C15 fails for move assignment: the target keeps its old descriptor. |
| `C15_not_number_to_string` | C15 fails when a variable holding a number is assigned a string: the number is used as a pointer. |
| `C17_not_at_end` | C17 fails for the last bits of a buffer: after the last byte was fetched, asking for the bits still in it is an error. |
| `C18_not_detected_later` | C18 fails: after such a request the end of the buffer is not detected any more. |
| `C18_not_overread` | C18 fails: a slightly longer request succeeds and returns bits that are not in the message. |
| `C18_not_overrun` | C18 fails: a request that begins inside the message and is longer than what is left reads memory outside the buffer. |
| `C19_not_empty` | Outside C19: the empty text comes back as one blank. |
| `C20_not_binary` | C20 fails: a missing binary value of 11 bits is read back as 11 set bits. |
| `C20_not_replication` | C20 fails: a missing delayed replication factor is read back as 255. |
| `C20_not_wide` | C20 fails: writing a missing value wider than 32 bits, such as any string of five or more characters, is undefined behaviour. |
| `C22_not_factor` | C22 fails for replication factors: their range allows one more than their field, and that value is written without an error and comes back as 0. |
| `C22_not_wide` | C22 fails for descriptors of 10 digits or more: an accepted value that does not fit is written without an error and comes back as another one. |
| `C23_not_wide` | C23 is false in the code for elements of 32 bits, unless signed overflow wraps: comparing the base with all ones overflows, whatever the data. |
| `C26_not_master_table` | The master table number is lost in edition 4. |
| `C28_not_odd` | So not every optional section comes back unchanged. |
| `C29_not_long` | C29 fails for lists of descriptors for which three octets cannot tell the length of section 3: the message is made, and is not decoded to that list. |
| `C30_not_total` | The length of a message of 2^24 bytes or more is silently truncated, even if each section is shorter. |
| `C31_not_parse_error` | C31 fails for a message that ends with a section 4 shorter than its own header: no end marker follows, and instead of a parse error data is read beyond the end of the message. |
| `C32_not_chars` | C32 fails for characters written in place that are shorter than the operator says: they come back with blanks added. |
| `C32_not_chars_missing` | C32 fails for characters written in place that are missing: they come back as blanks. |
| `C33_not_bitmap_group` | The full C33 is false: a bitmap whose only descriptor is written as a sequence is refused, though it is accepted with the definition in its place. |
| `C33_not_bounded` | A sequence that contains itself overflows the stack, whatever its size. |
| `C33_not_open_definition` | The full C33 is false: a definition that ends in an operator whose operand comes after the sequence is refused, though it is accepted written out. |
| `C34_not_open_group` | The full C34 is false: a group that ends in an operator whose operand comes after the group is refused, though it is accepted written out once. |
| `C35_not_cancel_reference` | Reference values replaced by 2 03 stay replaced: nothing in the list of operators restores them, not 2 03 000 either. |
| `C35_not_code_table` | The manual exempts code tables from 2 01 and 2 02; the code widens them. |
| `C35_not_large_increase` | An increase by ten or more reads past the end of the table of powers of ten. |
| `C35_not_string` | The manual exempts character elements from 2 01; the code widens them, here by a quarter of a character. |
| `C36_not_all_absent` | A bitmap that selects nothing becomes the one in use, and the next quality element reads past its end. |
| `C36_not_redefined` | A bitmap refused while another is in use leaves the latter to be deleted twice. |
| `C37_not_21` | C37 fails for significance 21: any value becomes 0. |
| `C37_not_one_bit` | C37 fails for one bit fields: 1 is taken as missing. The same field with two bits is kept. |
| `C37_not_reserved` | C37 fails for reserved significances: the value is dropped. |
| `C38_not_wide` | C38 fails for operators wider than 32 bits, which can hold any reference. |
| `C38_not_zero` | C38 fails for reference value 0: its bits are counted with `__builtin_clz(0)`, whose result is undefined. |
| `C39_not_32` | C39 fails at 32 bits, the widest field that can be written: the limit is computed with an undefined shift. |
| `C39_not_bitmap` | C39 fails for bitmaps, whose length validation does not look at: two marks where the descriptors say one are accepted and cannot be written. |
| `C39_not_field` | C39 fails for associated fields, which validation does not look at: 2 in a field of one bit is accepted and written as 0. |
| `C39_not_missing` | C39 fails for missing values: a missing string is accepted and cannot be written. |
| `C41_not_supported` | C41 does not hold for all requests: with a large reference value the range computation overflows, instead of an error or a result. |
| `C42_not_unsorted` | C42 does not hold without the order of the sequences, which loading does not check and files of the library do not have: a listed sequence is not found. |
| `C44_not_mixed` | C44 is false in the code for tables of both kinds: the first CREX table is closer than the second, the second is closer than the BUFR table, and the BUFR table is closer than the first. |
| `C47_not_message` | The same with whole messages: a BUFR message right after a stray `B` is skipped without a word. |
| `C47_not_overlapping` | The claim in full fails: `BBUFR` holds the signature from its second byte, and is not found. |
| `C48_not_plus` | The claim in full fails: a text that ends with a plus sign at the end of the data section makes three plus signs before the end marker, and the message cannot be read. |
| `C48_not_trailing` | Nor does a read give the message as it was written: encoded messages end with `7777` and an end of line, which is not part of what is read back. |
| `C49_not_digit` | C49 is false in the code if the data goes on with a digit: it is taken as part of the number. |
| `C50_not_empty` | C50 is false in the code for the empty text: its blanks are skipped and the next values are taken in its place. |
| `C50_not_long` | C50 is false in the code for fields of more than 254 characters: the last of 255 is written as a NUL, and for longer fields what is written is outside the buffer. |
| `C50_not_slash` | C50 is false in the code for texts that begin with a slash: they are read back as missing. |
| `C51_not_missing` | C51 is false in the code when a value is missing: it is written without check digit and blank. |
| `C51_not_written` | C51: the bulletin says whether it uses check digits, but encoding it gives the same text either way. |
| `C52_endless` | C52: otherwise it never ends, whatever the number of turns. |
| `C52_not_ending` | C52 is false in the code: on this text the decoder never ends. |
| `C53_not_feet` | The sort may leave the two conversions between metres and feet in an order in which they are not inverse: 10 km come back as more than 12 cm more. |
| `C53_not_tenths` | Kelvin to tenths of degrees Celsius and back is wrong by thousands of degrees: the reverse of `10 * v - 2731.5001` is computed as `v / 10 + 2731.5001`. |
| `C54_not_levels` | Values that are not kept. |
| `C54_not_nan` | NaN is north-west: it passes the check of the range and no comparison holds. |
| `C54_not_negative` | Negative codes, which are in no table, are not an error in any direction. |
| `C55_order_needed` | Why the order matters: of two objects for the same option, the older one destroyed first, the value that stays is that of the first override. |
| `C57_not_compression` | C57 is false in the code: compression is not compared. |
| `C57_not_crex_bufr_version` | C57 is false in the code: the versions of the BUFR table in two CREX bulletins are not compared (the other version is, twice). |
| `C57_not_without_tables` | C57 is false in the code: subsets whose tables are not loaded any more cannot be compared. |
| `C58_not_enough` | C58 is false in the code if the bitmap is longer than the subset: it has bytes that were never written. |
| `C58_not_operator_last` | C58 is false in the code if the last variable is an operator and the bitmap is longer than the rest: it reads a variable past the end. |
| `C58_not_unset` | C58 is false in the code for attributes without a value: they count as present. |
| `C59_not_rejected` | C59 does not hold for access one past the end: it reads the next descriptor of the array the view points into, or outside the array. |
| `C60_not_made_up` | C60 does not hold in full. Unknown binary data of the same width under two codes is refused; the same bitmap under two codes is refused; character data under the same code always has the first length. |
| `C61_not_empty` | C61 fails without descriptors: the end mark is taken as part of the categories. |
| `C61_not_factor` | C61 fails for a replication factor followed by missing values: the first slash is taken as part of the factor, and half of the end mark as part of the last value. |
| `C61_not_last_factor` | C61 fails for a replication factor at the end: half of the end mark is taken as part of it. |
| `C61_not_subcategory` | C61 fails for a subcategory above 127: it is written as a negative number, and both categories come back different. |
| `C61_not_subsets` | C61 fails for two subsets: after the mark between them the line end is taken as part of the first value, and here the first value of the second subset ends with the first digits of its second. |
| `C62_not_master` | C62 is false in the code for master tables other than 0: a table of oceanography counts as one of meteorology. |
| `C62_not_sign` | C62 is false in the code for names with a sign in place of a digit, which are names of tables too: the sign counts as one of the characters of its number. |
| `C62_not_version` | C62 is false in the code for versions greater than 255. |
| `C63_not_first` | C63 fails for CREX messages: a CREX table in the first directory and a BUFR table in the second are equally close to what a message wants, and the one in the second is found. |
| `C65_not_nanobar` | A pascal is 10000 nanobar; the code gives one ten thousandth of a nanobar. |
| `C65_not_tenths` | Zero tenths of a degree Celsius are more than 2000 K. |
| `C66_not_chars` | C66 fails for characters in place: compressed data with them is always refused. |
| `C66_not_references` | C66 fails for changes of reference: compressed data with them is always refused. |
| `C67_not_all_ones` | C67 fails for the increments of associated fields: one with all bits set, which says that the value is missing, is added to the base. |
| `C67_not_missing` | C67 fails when an associated field is missing: the second subset, whose associated field has all bits set, gets the attribute of the first one. |
| `C67_not_text` | C67 fails for texts: their associated fields are not read, and their bits are taken as part of the text. |
| `C68_not_double` | C68 is false in the code for doubles that no 32-bit number holds, given to an element of integers: another value is stored, without an error. |
| `C70_not_binary` | C70 is false in the code for binary data, which cannot be set back. |
| `C70_not_empty` | C70 is false in the code for empty texts, which are set back as no value. |
| `C70_not_large` | C70 is false in the code for numbers above 2^53: the text has digits that are not those of the value. |
| `C70_not_long` | C70 is false in the code for numbers of 20 characters or more: the last ones are cut, and setting the text back gives another number. Writing to a file does not cut them. |
| `C71_not_safe` | C71 fails for memory safety: the bound in `invbase64` is one too high. |
| `C72_not_cut` | C72 fails for the text of just a percent sign: it is decoded to a NUL character. |
| `C73_not_control` | C73 fails for other control characters: they come back as NUL, because `atoi` does not read hexadecimal. |
| `C74_not_ending` | C74 fails for an empty separator when empty pieces are to be skipped: the loop never ends, however many turns it is given. |
| `C74_not_skipped` | C74 fails for a text of separators only: an empty piece is given though empty pieces are to be skipped. |
| `C75_not_climbing` | C75 fails for paths that climb out of the directory they start from: the last element of an empty vector is read. |
| `C77_not_all_taken` | C77 fails for validation of a subset with more variables than the descriptors stand for. |
| `C77_not_bitmap_code` | C77 fails for validation of a bitmap announced by one operator that has the code of another. |
| `C77_not_encoded` | C77 fails for what is encoded: a variable with another code is written. |
| `C77_not_missing_factor` | C77 fails for a CREX message whose replication factor is missing: it stands for 4294967295 times. |
| `C78_not_conversely` | C78 fails the other way round: undefined attributes can make decoding fail, if the table has no element for them. |
| `C78_not_undefined` | C78 fails for significance 21: the attribute added for a missing field has the value 0, as if the field had been there. |
| `C79_not_bitmap` | The full C79 is false: the replication that makes up a data present bitmap is not found. |
| `C79_not_scanned` | The full C79 is false: scanning gives up on character data, on elements with associated fields, on changed reference values and on substituted values, though data with such descriptors can be encoded. |
| `C80_not_bitmap` | The full C80 is false: the replication that makes up a data present bitmap has no line. |
| `C80_not_printed` | The full C80 is false: printing gives up on character data and on substituted values, though data with such descriptors can be encoded. |
| `C81_not_position` | C81 fails for positions: in this subset the temperature is the variable number 1 counting from 0. It is printed as number 2, while its attribute is printed as belonging to number 1. |
| `C81_not_printed` | C81 fails for changes of reference values: the subset can be encoded, and printing it throws. |
| `C83_not_field` | C83 is false in the code for associated fields with a reserved meaning: their values are not kept, and written as missing. |
| `C83_not_missing_text` | C83 is false in the code for missing texts: reading gives a missing value, writing it shifts a 32 bit number by more than its width. |
| `C83_not_padding` | C83 is false in the code for texts padded with NULs, or with characters after one. |
| `C83_not_reference` | C83 is false in the code for changed reference values: the reference written is that of the first variable with the code in the subset, although it came before the change, and the values after it are written with that. |
| `C83_not_twice` | C83 is false in the code for attributes that are given twice to one variable: both are written as the last. |
| `C85_not_bitmap` | C85 is false in the code: a bitmap that marks nothing is followed as if it did. With a mark the same descriptors are decoded. |
| `C85_not_compressed` | C85 is false in the code: a compressed number may say that its increments have 32 bits or more. |
| `C85_not_field` | C85 is false in the code: associated fields of 32 bits. |
| `C85_not_nul` | C85 is false in the code: a NUL among the digits of a descriptor. |
| `C85_not_reference` | C85 is false in the code: reference values of more than 32 bits. |
| `C85_not_second_bitmap` | C85 is false in the code: when a bitmap has not been followed to its end and the next one is too long, the first is deleted twice. |
| `C85_not_truncated` | C85 is false in the code: the end of the data is only looked for at the start of a field, so data that ends within one is read past its end. |
| `C86_not_exact` | C86 fails for other data that ends where decoding ended: the first four bits of a byte are two values, and are decoded if a byte follows that is not looked at. Without it the second value, which is in the byte already taken, is refused. |
| `C86_not_last_byte` | The end of the data is not always noticed: with one byte less decoding still succeeds, with a zero in its place. |
| `C90_not_hook` | C90 fails with a hook: counts 50 and 500 are decoded with a hook that does nothing. The second subset on its own has no value; after the first one it has the value of the first one, because both are decoded in the same variable. |
| `C91_not_number_moved_to_text` | C91 fails in the same way with move assignment, which keeps the descriptor: a number moved into a text is then deleted as if it were an address. |
| `C91_not_number_to_text` | C91 fails when a number is assigned to a text: the number is stored over the address of the text, which is never deleted. |
| `C91_not_own_attribute` | C91 fails when a variable is assigned one of its own attributes, as in `v = *v.enqa(code)`: the attribute is deleted before its own attributes are looked at. That holds for all variables that have attributes. |
| `C91_not_own_text` | C91 fails when a text is set to its own value, which copies a buffer onto itself. A text that is not set and a number can be set to their own value. |
| `C91_not_text_to_number` | C91 fails when a text that is not set is assigned to a number: `operator=` takes the descriptor of the source and leaves the number in place, and the destructor then deletes that number as if it were the address of a text. |
| `C92_not_amount` | C92 fails for amounts: two differences are reported by one note. |
| `C92_not_binary` | C92 fails for binary values: their bytes are read until a NUL, and there need not be one. |
| `C92_not_collect` | C92 is false in the code: a `Collect` where notes were discarded, as they are by default, uses a null pointer as a reference when it is destroyed. |
| `C92_not_first` | C92 fails for attributes: one that only the second variable has is said to exist only on the first. |
| `C92_not_scale` | C92 fails for variables from different tables: the second value is shown with the scale of the first. Here 1.5 and 25 are told to be 1.5 and 2.5. |
| `C92_not_smallest` | C92 fails for the smallest number: the note about a variable that is not set negates it, even without somebody listening, and `diff` needs the value for nothing else. |
| `C94_not_atomic` | C94 fails: when the element table of the new identifier can be read and its sequence table cannot, loading fails and leaves the new element table together with the old sequence table, and `Tables::loaded` says that tables are loaded. |
| `C95_not_overrun` | C95 is false in the code: a message without data is decoded with its end section for data. The last bits come from the NUL after the buffer, or from what follows. |
| `C96_not_optional` | C96 is false in the code, for every message with an optional section: it is looked for up to the `++` that ends it, which is not skipped, and `7777` is expected there. |
| `C98_not_columns` | C98 does not hold: two codes are asked for, the message has one of them, and the row has one column, without a word about which it is. |
| `C99_not_help` | C99 does not hold: `-h` alone is refused, and with anything after it that is lost. |
| `C99_not_print` | C99 does not hold: `-p` takes no codes, and what follows is a file. |
| `C99_not_refused` | C99 does not hold: a code that is too short ends the list without a word, and one that is not a code ends the program with an exception that nobody catches. |

Found while reading and not stated as a theorem:

* `_Varinfo::encode_binary` checks no upper bound.
* The compression flag of a bulletin is never encoded, and
  `BufrBulletin::compression` has no initial value.
* The comment of `setc_truncate` promises a `>` at the end of cut texts; the
  code does not add it.
* `convert_units_get_mul` and `convert_units_allowed` are declared in `conv.h`
  and defined nowhere.
* In compressed data an associated field whose base has all bits set consumes
  no increments.
* `Table` pointers of `tabledir.cc` dangle after a directory is added.
* A wanted local table version of 0 does not prefer local table 0.

## Mutation tests

`seeded/LOG.jsonl` has one line for each wrong model tried: the definition, the
edit, the claim it breaks, the theorems whose proofs stopped going through, and
the theorems added or tightened because of it. A proof that fails shows that
the theorem notices the edit; the lists hold every theorem of `MANIFEST.json`
that depends on a declaration that no longer compiled. Modules that import a
failed module are not compiled, so the lists may lack theorems.
A theorem in a list has lost its proof; this does not by itself show that its
statement became false. Theorems that were renamed are listed with the name
they have now. About a third of the theorems of `MANIFEST.json`, most of them
concrete witnesses named `_not_`, were in no list when this was written: for
them no edit was found, or tried, that breaks a declaration they depend on.
For a few edits (`fi1`, `fi3`, `lm1`, `oc5`, `va9`) the broken lemmas were
replaced by gaps in the scratch copy to see which later theorems fail too.
