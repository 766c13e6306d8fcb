{"id": "C01", "title": "Descriptor text round trip", "statement": "Printing any B/R/C/D descriptor as text and parsing that text back yields the same descriptor, and two different descriptors never print as the same text.", "quantifier": "for every 16-bit descriptor (all F, X, Y combinations)", "why_tests_cant": "A unit test checks a few descriptors; the claim covers the whole code space and injectivity between every pair.", "anchors": ["wreport/varinfo.h: WR_VAR, WR_VAR_F, WR_VAR_X, WR_VAR_Y", "wreport/varinfo.cc: varcode_parse, varcode_format"]}
{"id": "C02", "title": "Descriptor parsing rejects malformed text", "statement": "Parsing a descriptor succeeds only on one of the letters B/R/C/D (or digits 0-3) followed by exactly two digits giving X in 0..63 and three digits giving Y in 0..255, and then returns exactly that F, X, Y; anything else is rejected with an error.", "quantifier": "for every byte string offered as a descriptor", "why_tests_cant": "The space of malformed strings is unbounded; tests only try a handful of bad inputs and cannot show that no other input is accepted or silently turned into a different descriptor.", "anchors": ["wreport/varinfo.cc: varcode_parse"]}
{"id": "C03", "title": "Representable range fits the encoding", "statement": "Every value a numeric BUFR variable accepts can be stored in the number of bits its descriptor declares, without loss and without colliding with the all-ones pattern that means 'missing'.", "quantifier": "for every numeric descriptor (any scale, reference value, width 1..32 bits, decimal digits) and every value inside its accepted range", "why_tests_cant": "The number of descriptor/value combinations is astronomical; corner cases sit at range ends, negative references and delayed replication factors.", "anchors": ["wreport/varinfo.cc: _Varinfo::compute_range, _Varinfo::set_bufr, _Varinfo::encode_binary", "wreport/var.cc: Var::assign_i_checked"]}
{"id": "C04", "title": "Scaled decimal conversion is lossless", "statement": "Reading a stored integer as a scaled decimal number and setting the variable from that number gives back the same stored integer, in spite of floating point rounding.", "quantifier": "for every 32-bit integer, every scale from -16 to 16, and every rounding behaviour that respects the IEEE double relative error bound", "why_tests_cant": "There are 2^32 integers times 33 scales and the failure would come from floating point rounding of individual values, which sampling easily misses.", "anchors": ["wreport/varinfo.cc: _Varinfo::decode_decimal, _Varinfo::encode_decimal"]}
{"id": "C05", "title": "Binary number conversion is lossless", "statement": "Decoding a BUFR bit pattern into a number using scale and reference value, then encoding that number, gives back the same bit pattern.", "quantifier": "for every bit pattern of up to 32 bits, every scale -16..16, every 32-bit reference value, any rounding behaviour within the IEEE double error bound", "why_tests_cant": "The round trip depends on floating point rounding of 2^32 patterns for each descriptor; tests sample it.", "anchors": ["wreport/varinfo.cc: _Varinfo::decode_binary, _Varinfo::encode_binary"]}
{"id": "C06", "title": "A set numeric variable is always in range", "statement": "Whatever sequence of set, unset, copy-value and string-set operations is applied to a numeric variable, including failing ones, afterwards the variable is either unset or holds an integer inside the range its descriptor declares.", "quantifier": "for every descriptor and every finite sequence of operations under every combination of domain-error options", "why_tests_cant": "Operation sequences and option settings are unbounded; tests check single operations.", "anchors": ["wreport/var.cc: Var::seti, Var::setd, Var::setc, Var::sets, Var::setf, Var::unset, Var::assign_i_checked, Var::assign_d_checked"]}
{"id": "C07", "title": "Out-of-range assignment policy", "statement": "Assigning an out-of-range value to a numeric variable: with silent errors enabled the variable becomes unset and nothing is thrown; otherwise with clamping enabled it takes the nearest end of the range; otherwise an installed hook decides; otherwise the variable becomes unset and a domain error is raised. In-range values are stored unchanged under every option.", "quantifier": "for every integer or double (including NaN and infinities), every descriptor, every combination of the three options", "why_tests_cant": "Precedence between three independent options and the NaN path form a matrix times an unbounded value domain.", "anchors": ["wreport/var.cc: Var::assign_i_checked, Var::assign_d_checked", "wreport/options.h"]}
{"id": "C08", "title": "Integer value text form", "statement": "For a set numeric variable the text value is the canonical decimal form of the stored integer, and setting a variable of the same descriptor from that text restores the same value.", "quantifier": "for every 32-bit integer except the most negative one", "why_tests_cant": "The digit counting and hand-written integer formatting have a branch per digit count and sign; the claim covers 2^32 values.", "anchors": ["wreport/var.cc: Var::enqc, Var::setc, count_digits, uint32_to_str, str_to_unsigned"]}
{"id": "C09", "title": "Setting a double does not silently change it", "statement": "Setting a numeric variable from a floating point number either stores the nearest representable scaled integer or is treated as out of range; a number outside the range is never stored as a different in-range value.", "quantifier": "for every double, every integer or decimal descriptor", "why_tests_cant": "The failing values are far outside ranges tests try (beyond 32 bits), or NaN.", "anchors": ["wreport/var.cc: Var::setd, Var::assign_d_checked"]}
{"id": "C10", "title": "String values are stored as a bounded prefix", "statement": "Setting a string variable stores exactly the given text when it fits the declared length, otherwise its first 'length' bytes; the stored text never exceeds the declared length and reading it back returns it unchanged.", "quantifier": "for every NUL-free byte string and every declared length, over any sequence of sets", "why_tests_cant": "String lengths and contents are unbounded.", "anchors": ["wreport/var.cc: Var::assign_c_checked, Var::setc, Var::sets, Var::enqc, Var::enqs"]}
{"id": "C11", "title": "Binary values keep unused bits clear", "statement": "After setting a binary variable its value has exactly the declared number of bytes, bits beyond the declared bit length are zero, and every declared bit equals the corresponding input bit (zero where input was shorter).", "quantifier": "for every byte string and every bit length", "why_tests_cant": "Depends on all combinations of bit length modulo 8 and input size.", "anchors": ["wreport/var.cc: Var::assign_b_checked", "wreport/varinfo.cc: _Varinfo::set_binary"]}
{"id": "C12", "title": "Attributes behave like a map kept in code order", "statement": "Any sequence of attribute set / replace / remove / clear operations leaves the variable with exactly the attributes a map from descriptor to last value set would have; lookups return the mapped value; iteration is in increasing descriptor order with no duplicates; attributes themselves carry no attributes.", "quantifier": "for every finite sequence of attribute operations", "why_tests_cant": "Linked-list insertion order and replacement interact over unbounded histories.", "anchors": ["wreport/var.cc: Var::seta, Var::unseta, Var::enqa, Var::clear_attrs, Var::next_attr, Var::setattrs, Var::copy_attrs_if_defined"]}
{"id": "C13", "title": "Variable copies are equal and equality is an equivalence", "statement": "A copy of a variable compares equal to the original, and variable comparison is reflexive, symmetric and transitive; two variables compare equal exactly when descriptor, value and all attributes agree.", "quantifier": "for every variable with any value type and any attributes", "why_tests_cant": "Quantifies over all variables, pairs and triples.", "anchors": ["wreport/var.cc: Var::Var(const Var&), Var::operator==, Var::value_equals"]}
{"id": "C14", "title": "Variable diff agrees with equality", "statement": "Comparing two variables with diff reports zero differences exactly when they compare equal.", "quantifier": "for every pair of variables", "why_tests_cant": "Tests check a few differing pairs; the claim is an equivalence over all pairs, including unset ones that differ only in attributes.", "anchors": ["wreport/var.cc: Var::diff, Var::operator=="]}
{"id": "C15", "title": "Assigning a variable makes it equal to the source", "statement": "After assigning one variable to another (by copy or by move) the target compares equal to what the source was and no memory outside the target's value buffer is touched.", "quantifier": "for every pair of target and source variables of any types and lengths", "why_tests_cant": "Depends on the pair of old and new descriptor (type and buffer size); the failing pairs corrupt memory silently.", "anchors": ["wreport/var.cc: Var::operator=(const Var&), Var::operator=(Var&&), Var::allocate, Var::copy_value, Var::move_value"]}
{"id": "C16", "title": "Bit writer appends exactly the requested bits", "statement": "Writing a sequence of (value, width) pairs to a BUFR output buffer produces the concatenation of the low 'width' bits of each value, most significant first, zero-padded to a byte at the end.", "quantifier": "for every finite sequence of pairs with widths 1..32, at every bit alignment", "why_tests_cant": "Bit alignment interacts with widths across an unbounded sequence.", "anchors": ["wreport/buffers/bufr.cc: BufrOutput::add_bits, BufrOutput::flush, raw_append"]}
{"id": "C17", "title": "Bit reader returns what the writer wrote", "statement": "Reading back with the same widths from a buffer written by the BUFR bit writer returns the same values in the same order, starting at any byte offset and with anything following.", "quantifier": "for every finite sequence of (value, width) pairs with widths 1..32 and any trailing data", "why_tests_cant": "Unbounded sequences at all alignments.", "anchors": ["wreport/bufr/input.h: Input::get_bits", "wreport/buffers/bufr.cc: BufrOutput::add_bits"]}
{"id": "C18", "title": "Bit reader never reads past the end of the message", "statement": "Requesting bits from a message either returns bits that lie inside the message or raises a parse error; it never accesses memory outside the buffer.", "quantifier": "for every message, every sequence of bit requests of widths 0..32", "why_tests_cant": "An out-of-bounds read is usually invisible in tests, and depends on exact cursor positions.", "anchors": ["wreport/bufr/input.h: Input::get_bits", "wreport/bufr/input.cc: Input::scan_section_length"]}
{"id": "C19", "title": "String field round trip", "statement": "A string variable written to BUFR data and read back has the same text, when the text is non-empty, has no trailing blanks and is not made only of 0xff bytes; the text is blank-padded to the field width on the wire.", "quantifier": "for every string that fits the field, every field width in bits, at every bit alignment; at least one byte follows the field, as the end section does in a message", "why_tests_cant": "Unbounded strings and alignments; blank trimming and the missing marker collide only for special contents.", "anchors": ["wreport/buffers/bufr.cc: BufrOutput::append_string", "wreport/bufr/input.cc: Input::decode_string"]}
{"id": "C20", "title": "Missing values decode as missing", "statement": "A missing value of any type and width is written to BUFR data so that it decodes as missing, occupying exactly the declared width.", "quantifier": "for every field type and every width", "why_tests_cant": "Depends on width: strings wider than 32 bits go through a different shift than numbers.", "anchors": ["wreport/buffers/bufr.cc: BufrOutput::append_missing, BufrOutput::append_var", "wreport/bufr/input.cc: Input::decode_number, Input::decode_string, Input::decode_binary"]}
{"id": "C21", "title": "Binary field round trip", "statement": "A binary variable written to BUFR data and read back has the same bits, unless all of them are ones.", "quantifier": "for every bit length and every content, at every alignment; at least one byte follows the field, as the end section does in a message", "why_tests_cant": "All bit lengths modulo 8 and alignments.", "anchors": ["wreport/buffers/bufr.cc: BufrOutput::append_binary", "wreport/bufr/input.cc: Input::decode_binary"]}
{"id": "C22", "title": "Numeric field round trip", "statement": "A numeric variable holding an accepted value, written to BUFR data with its descriptor and read back with the same descriptor, has the same value; writing a missing value reads back missing.", "quantifier": "for every numeric descriptor outside the class of replication factors, every accepted value, every alignment, any rounding within the IEEE bound", "why_tests_cant": "Combines range, scaling, reference and floating point for all descriptors and values.", "anchors": ["wreport/buffers/bufr.cc: BufrOutput::append_var", "wreport/bufr/input.cc: Input::decode_number", "wreport/varinfo.cc"]}
{"id": "C23", "title": "Compressed numbers decode to base plus increment", "statement": "Decoding a compressed numeric element gives each subset the base value plus that subset's increment, missing where the increment is all ones or where the base is missing, and consumes exactly the declared bits.", "quantifier": "for every list of per-subset values (present or missing), every width, base and increment width that can represent them", "why_tests_cant": "Unbounded number of subsets, all widths and missing patterns.", "anchors": ["wreport/bufr/input.cc: Input::decode_compressed_number"]}
{"id": "C24", "title": "Compressed strings decode per subset", "statement": "Decoding a compressed character element gives every subset the common base text when the increment width is zero, and otherwise each subset its own text; it consumes exactly the declared bits.", "quantifier": "for every list of per-subset strings and field width; at least one byte follows the field, as the end section does in a message", "why_tests_cant": "Unbounded lists and strings.", "anchors": ["wreport/bufr/input.cc: Input::decode_string, Input::decode_compressed_base"]}
{"id": "C25", "title": "Constant compressed elements are required to be constant", "statement": "Elements that steer decoding (replication factors, associated-field significance) in compressed messages are accepted only when all subsets share one value, which is what every subset receives; otherwise decoding stops with an error.", "quantifier": "for every compressed bit stream; at least one byte follows the field, as the end section does in a message", "why_tests_cant": "Quantifies over all streams.", "anchors": ["wreport/bufr/input.cc: Input::decode_compressed_semantic_number, Input::decode_compressed_number"]}
{"id": "C26", "title": "BUFR header round trip", "statement": "Encoding a BUFR bulletin and decoding its header returns the same edition, centre, subcentre, category, subcategories, table versions, update sequence, master table number, date and time as far as the edition can carry them.", "quantifier": "for every header field value in the range of its wire field, editions 2, 3, 4", "why_tests_cant": "The field space is a product of a dozen integers per edition.", "anchors": ["wreport/bufr_encoder.cc: Encoder::encode_sec1ed3, Encoder::encode_sec1ed4", "wreport/bufr/decoder.cc: Decoder::decode_sec1ed3, Decoder::decode_sec1ed4"]}
{"id": "C27", "title": "Reference year survives edition 2/3 messages exactly in a century window", "statement": "A reference year written to an edition 2 or 3 message is decoded as the same year if and only if it lies in 1951..2050.", "quantifier": "for every year 0..65535, in messages shorter than 2^24 bytes, the most their length field can tell", "why_tests_cant": "The window boundary is a for-all and an only-if; tests check single years.", "anchors": ["wreport/bufr_encoder.cc: Encoder::encode_sec1ed3", "wreport/bufr/decoder.cc: Decoder::decode_sec1ed3"]}
{"id": "C28", "title": "Optional section round trip", "statement": "The optional section of a BUFR bulletin is returned unchanged after encoding and decoding, and its absence is preserved.", "quantifier": "for every byte string used as optional section", "why_tests_cant": "All lengths and contents, in particular odd lengths.", "anchors": ["wreport/bufr_encoder.cc: Encoder::encode_sec2", "wreport/bufr/decoder.cc: Decoder::decode_header"]}
{"id": "C29", "title": "Data descriptor section round trip", "statement": "The list of data descriptors and the number of subsets are returned unchanged after encoding and decoding.", "quantifier": "for every non-empty list of descriptors and up to 65535 subsets", "why_tests_cant": "Unbounded lists.", "anchors": ["wreport/bufr_encoder.cc: Encoder::encode_sec3", "wreport/bufr/decoder.cc: Decoder::decode_header"]}
{"id": "C30", "title": "Encoded messages are self-delimiting", "statement": "The total length stored in an encoded BUFR message equals its real length, every section length equals the real size of that section, sections are contiguous and the message ends in 7777.", "quantifier": "for every bulletin that can be encoded and whose sections are shorter than 2^24 bytes", "why_tests_cant": "Lengths are patched after writing and depend on all content.", "anchors": ["wreport/bufr_encoder.cc: Encoder::run, Encoder::encode_sec4, Encoder::encode_sec5"]}
{"id": "C31", "title": "Decoder checks section bounds", "statement": "Decoding a BUFR message accepts section lengths only if every section ends inside the message and the end marker follows section 4; otherwise a parse error is raised.", "quantifier": "for every byte string offered as a message", "why_tests_cant": "All malformed messages form an unbounded adversarial space.", "anchors": ["wreport/bufr/input.cc: Input::scan_section_length, Input::scan_lead_sections, Input::scan_other_sections, Input::check_available_data", "wreport/bufr/decoder.cc: Decoder::decode_header, Decoder::decode_data"]}
{"id": "C32", "title": "BUFR data section round trip", "statement": "Encoding the data of a bulletin subset according to its data descriptors and decoding the result with the same descriptors and tables returns the same variables with the same values.", "quantifier": "for every list of data descriptors (elements, fixed and delayed replications, sequences, operators for width, scale, reference and character data), every table, every subset of matching in-range values", "why_tests_cant": "Descriptor programs are an interpreted language with nested replication and operator state; tests cover a finite sample of messages.", "anchors": ["wreport/bulletin/interpreter.cc: Interpreter::run and callbacks", "wreport/bulletin/internals.cc: UncompressedEncoder", "wreport/bufr_encoder.cc", "wreport/bufr/decoder.cc: UncompressedBufrDecoder"]}
{"id": "C33", "title": "Sequence descriptors are pure abbreviations", "statement": "Processing a data descriptor list gives the same result as processing the list with any sequence descriptor replaced by its table definition.", "quantifier": "for every descriptor list, every sequence table, every processing target (encoder, decoder, validator)", "why_tests_cant": "Unbounded lists, nesting and targets.", "anchors": ["wreport/bulletin/interpreter.cc: Interpreter::run, Interpreter::run_d_expansion", "wreport/dtable.cc: DTable::query"]}
{"id": "C34", "title": "Replication is repetition", "statement": "Processing a fixed replication of k descriptors n times gives the same result as processing n copies of those descriptors written out; a delayed replication behaves as the factor element followed by that many copies.", "quantifier": "for every descriptor group, count, nesting and processing target", "why_tests_cant": "Unbounded counts and nesting.", "anchors": ["wreport/bulletin/interpreter.cc: Interpreter::r_replication, Interpreter::run_r_repetition"]}
{"id": "C35", "title": "Operators combine as the manual says", "statement": "The effective width, scale and reference of an element under active width, scale, increase, character-length and reference operators are the table values plus the sum of the active changes, and cancelling an operator restores the table values.", "quantifier": "for every element and every combination of operator parameters", "why_tests_cant": "Product of several 8-bit operator parameters with all elements and the order of operators.", "anchors": ["wreport/bulletin/interpreter.cc: Interpreter::get_varinfo, Interpreter::c_modifier"]}
{"id": "C36", "title": "Data present bitmaps select the intended variables", "statement": "Attributes attached through a data-present bitmap go to exactly the element variables marked present, in the order of the data, counted backwards from the bitmap operator.", "quantifier": "for every subset content, bitmap size, bit pattern and anchor position", "why_tests_cant": "Unbounded subsets and bit patterns.", "anchors": ["wreport/bulletin/bitmaps.cc: Bitmap::Bitmap, Bitmap::next, Bitmaps::define, Bitmaps::next"]}
{"id": "C37", "title": "Associated fields keep their value", "statement": "A quality value decoded from an associated field becomes the attribute which the encoder reads for the same significance, with the same value.", "quantifier": "for every significance code, field width and value", "why_tests_cant": "All 64 significance codes times widths and values.", "anchors": ["wreport/bulletin/associated_fields.cc: AssociatedField::make_attribute, AssociatedField::get_attribute"]}
{"id": "C38", "title": "Changed reference values round trip", "statement": "A reference value override written by the encoder is decoded as the same reference value.", "quantifier": "for every reference value and every operator width that can hold it", "why_tests_cant": "All 32-bit reference values and widths, including zero and negatives.", "anchors": ["wreport/bufr_encoder.cc: define_c03_refval_override", "wreport/bufr/decoder.cc: define_c03_refval_override"]}
{"id": "C39", "title": "Validation guarantees encodability", "statement": "If validating a bulletin subset against its descriptors succeeds, each numeric value fits in the bits it will be written to, so no bits are lost in encoding.", "quantifier": "for every numeric descriptor and value", "why_tests_cant": "All widths and values, including full 32-bit widths.", "anchors": ["wreport/bulletin/dds-validator.cc: DDSValidator::check_fits"]}
{"id": "C40", "title": "Element table lookup", "statement": "Looking up a descriptor in a loaded element table returns the entry with that descriptor if there is one and a not-found error otherwise; loading rejects a table whose descriptors are not strictly increasing.", "quantifier": "for every table and every descriptor", "why_tests_cant": "Binary search over tables of every size.", "anchors": ["wreport/vartable.cc: VartableBase::query, VartableBase::query_entry, VartableBase::obtain"]}
{"id": "C41", "title": "Altered element lookup", "statement": "Asking for an element with changed scale, width and reference returns metadata with exactly those values, the same metadata every time, without disturbing other alterations; unsupported requests raise an error.", "quantifier": "for every sequence of requests on a table", "why_tests_cant": "A cache with history; unbounded request sequences.", "anchors": ["wreport/vartable.cc: VartableEntry::get_altered, VartableBase::query_altered"]}
{"id": "C42", "title": "Sequence table lookup", "statement": "Looking up a sequence descriptor returns exactly the descriptors listed for it in the table file.", "quantifier": "for every table file with sequences in increasing order, every descriptor", "why_tests_cant": "Binary search and shared storage ranges over tables of every size.", "anchors": ["wreport/dtable.cc: DTableBase::query"]}
{"id": "C43", "title": "Table identifiers are totally ordered", "statement": "The order on BUFR and CREX table identifiers is a strict total order consistent with equality, so identifiers can be used as map keys.", "quantifier": "for all identifiers, pairs and triples", "why_tests_cant": "Trichotomy and transitivity over all triples.", "anchors": ["wreport/tableinfo.cc: BufrTableID::operator<, CrexTableID::operator<"]}
{"id": "C44", "title": "Table preference is consistent", "statement": "The 'closest match' comparison between candidate tables is antisymmetric and transitive, so the table selected does not depend on comparison cycles.", "quantifier": "for every wanted identifier and all triples of candidates", "why_tests_cant": "All triples of 5- or 7-field identifiers.", "anchors": ["wreport/tableinfo.cc: BufrTableID::closest_match, CrexTableID::closest_match"]}
{"id": "C45", "title": "Table selection picks a best acceptable table", "statement": "Table selection for a message returns a table that is acceptable (same master table, at least the wanted version), to which no other acceptable available table is preferred; it fails only if no acceptable table exists.", "quantifier": "for every list of available tables and every wanted identifier", "why_tests_cant": "Unbounded directory contents.", "anchors": ["wreport/internals/tabledir.cc: Tabledir::find, Index::find", "wreport/tableinfo.cc"]}
{"id": "C46", "title": "Reading a stream returns each BUFR message exactly", "statement": "Reading repeatedly from a stream made of well-formed BUFR messages, with filler between them that contains no 'B', returns exactly those messages in order with their offsets, then end of file.", "quantifier": "for every finite list of messages and fillers", "why_tests_cant": "Unbounded streams.", "anchors": ["wreport/bulletin.cc: BufrBulletin::read, seek_past_signature"]}
{"id": "C47", "title": "No message start is skipped", "statement": "Reading from a stream finds the first occurrence of the message signature, whatever bytes precede it.", "quantifier": "for every byte stream", "why_tests_cant": "All prefixes, in particular those ending in part of the signature.", "anchors": ["wreport/bulletin.cc: seek_past_signature"]}
{"id": "C48", "title": "Reading a stream returns each CREX message exactly", "statement": "Reading a stream of CREX messages written by the library returns exactly those messages in order.", "quantifier": "for every finite list of CREX messages in which the end marker occurs only at the end", "why_tests_cant": "Unbounded streams; state machine over overlapping markers.", "anchors": ["wreport/bulletin.cc: CrexBulletin::read, CrexBulletin::write"]}
{"id": "C49", "title": "CREX numeric field round trip", "statement": "An integer written to a CREX data field and read back with the same descriptor gives the same integer; missing values read back as missing.", "quantifier": "for every integer with as many digits as the field has, every field width, any following data", "why_tests_cant": "All widths and values, sign handling.", "anchors": ["wreport/buffers/crex.cc: CrexOutput::append_var, CrexOutput::append_missing, CrexInput::parse_value, CrexInput::parse_b", "wreport/crex_decoder.cc: decode_var"]}
{"id": "C50", "title": "CREX string field round trip", "statement": "A string written to a CREX data field and read back gives the same text apart from trailing blanks.", "quantifier": "for every string that fits the field and does not begin with a blank", "why_tests_cant": "All strings, in particular those that look like the missing marker.", "anchors": ["wreport/buffers/crex.cc: CrexOutput::append_var, CrexInput::parse_value", "wreport/crex_decoder.cc: decode_var"]}
{"id": "C51", "title": "CREX check digits count from zero to nine", "statement": "When check digits are in use, the reader accepts exactly the cyclic sequence 0..9 that the writer produces.", "quantifier": "for every number of data fields", "why_tests_cant": "Unbounded sequences; missing fields also advance the digit.", "anchors": ["wreport/buffers/crex.cc: CrexOutput::encode_check_digit, CrexInput::read_check_digit"]}
{"id": "C52", "title": "CREX header parsing terminates", "statement": "Decoding any text as a CREX message finishes with a bulletin or an error.", "quantifier": "for every byte string", "why_tests_cant": "Non-termination on some input among all inputs cannot be excluded by testing.", "anchors": ["wreport/crex_decoder.cc: CREXDecoder::decode_header"]}
{"id": "C53", "title": "Unit conversion is the identity on equal units and invertible between linear units", "statement": "Converting a value from a unit to itself returns it unchanged, and converting with a registered linear conversion and back returns the original value.", "quantifier": "for every registered unit pair and every real value", "why_tests_cant": "A table of factors and offsets, each with a derived reverse; all values.", "anchors": ["wreport/conv.cc: convert_units, convert_units_get_mul"]}
{"id": "C54", "title": "Code table conversions are inverse on their domain", "statement": "Converting cloud type, present/past weather, vertical significance and octant codes to the other coding and back returns the original code, for the codes both tables can represent.", "quantifier": "for every code value", "why_tests_cant": "Finite but two-way; the defined domain and error outside it must both be covered.", "anchors": ["wreport/conv.cc: convert_WMO0500_to_BUFR20012, convert_BUFR20012_to_WMO0500, convert_WMO4677_to_BUFR20003, convert_WMO4561_to_BUFR20004, convert_BUFR08001_to_BUFR08042, convert_BUFR08042_to_BUFR08001, convert_octants_to_degrees, convert_degrees_to_octants"]}
{"id": "C55", "title": "Option overrides are restored", "statement": "After any properly nested sequence of local option overrides has ended, every option has the value it had before.", "quantifier": "for every nesting and interleaving of overrides of several options", "why_tests_cant": "Unbounded nesting.", "anchors": ["wreport/options.h: LocalOverride, local_override"]}
{"id": "C56", "title": "Subset access is bounds checked", "statement": "Asking a bulletin for a subset creates exactly the missing subsets up to that index and preserves existing ones; read-only access to a missing subset raises not-found and changes nothing.", "quantifier": "for every bulletin state and index", "why_tests_cant": "Histories of accesses.", "anchors": ["wreport/bulletin.cc: Bulletin::obtain_subset, Bulletin::subset"]}
{"id": "C57", "title": "Bulletin diff counts differences", "statement": "Comparing two bulletins reports zero differences exactly when header fields, descriptors and subsets are all equal.", "quantifier": "for every pair of bulletins of the same kind", "why_tests_cant": "Pairs of arbitrarily large structures with one independent comparison per field.", "anchors": ["wreport/bulletin.cc: Bulletin::diff, BufrBulletin::diff_details, CrexBulletin::diff_details", "wreport/subset.cc: Subset::diff"]}
{"id": "C58", "title": "Bitmap creation marks the variables that have the attribute", "statement": "Appending a data-present bitmap for an attribute creates a bitmap with one bit per element variable in the covered range, present exactly where the variable has that attribute set, and returns the number of present ones.", "quantifier": "for every subset and operator position", "why_tests_cant": "Unbounded subsets; interplay with operator variables.", "anchors": ["wreport/subset.cc: Subset::append_dpb, Subset::append_c_with_dpb"]}
{"id": "C59", "title": "Descriptor list views", "statement": "Splitting a view of a descriptor list into head/tail or sub-views never loses, duplicates or reorders descriptors, and access outside the view is rejected.", "quantifier": "for every list and every split", "why_tests_cant": "All list sizes and split points.", "anchors": ["wreport/opcodes.h: Opcodes"]}
{"id": "C60", "title": "Made up descriptors match the request", "statement": "Asking the tables for a descriptor for a bitmap, for character data or for unknown binary data gives a descriptor with exactly the requested code and length, whatever was requested before.", "quantifier": "for every sequence of requests", "why_tests_cant": "The answer depends on the history of earlier requests, of which there are unboundedly many; only particular histories show a wrong length or a refusal.", "anchors": ["wreport/tables.cc:79-128"]}
{"id": "C61", "title": "CREX message round trip", "statement": "Encoding a CREX bulletin whose subsets match its data descriptors gives a text whose decoding gives back the header fields that the text carries, the data descriptors, and for every subset a copy of every variable.", "quantifier": "for every header, table, list of descriptors (with replications, sequences and operators), subset and value", "why_tests_cant": "Descriptors, nesting and values combine without bound, and the reader depends on what text happens to follow each field; only particular neighbours are misread.", "anchors": ["wreport/crex_encoder.cc:22-164", "wreport/crex_decoder.cc:22-247"]}
{"id": "C62", "title": "Table file names identify tables", "statement": "A table file whose name follows one of the three supported forms is registered with exactly the edition, master table, versions, centre and subcentre written in its name, and its D table is the file of the same name beginning with D in the same directory.", "quantifier": "for all field values that fit the name and every directory name", "why_tests_cant": "Hundreds of millions of possible names; tests use the distributed ones.", "anchors": ["wreport/internals/tabledir.cc: Dir::refresh, Table::Table"]}
{"id": "C63", "title": "Table directories are searched in the order they were added", "statement": "The directories searched are those added, once each, in the order in which each was first added, regardless of trailing slashes and of searches in between; of equally good tables the one found is the first.", "quantifier": "for every sequence of additions and searches and every directory content", "why_tests_cant": "Unbounded sequences of operations interleaved with caching.", "anchors": ["wreport/internals/tabledir.cc: Tabledirs::add_directory, Query::consider_table, Index::find_bufr"]}
{"id": "C64", "title": "A cleared bulletin is like a new one", "statement": "Clearing a bulletin gives it exactly the contents of a newly created bulletin of its kind, whatever it contained before; in particular no member, table, descriptor or subset survives.", "quantifier": "for every bulletin state", "why_tests_cant": "Every combination of members; a member added later and forgotten in clear would not be noticed.", "anchors": ["wreport/bulletin.cc: Bulletin::clear, BufrBulletin::clear, CrexBulletin::clear", "wreport/bulletin.h"]}
{"id": "C65", "title": "Unit conversion factors are those of the units", "statement": "Converting a value between two units gives the value of the same quantity in the other unit, as the units are defined, up to the precision of the registered factors (one part in 30000, and 0.0002 degrees for temperatures).", "quantifier": "for every registered pair of units, every order of the sorted repository and every finite value", "why_tests_cant": "About two hundred factors and derived reciprocals, of which tests check a handful; the reverse entries are never tested, and which of several duplicates is used depends on the sort.", "anchors": ["wreport/conv.cc: ConvertRepository::ConvertRepository, ConvertRepository::add_linear, ConvertRepository::find, convert_units"]}
{"id": "C66", "title": "Compressed data decodes to the same subsets as uncompressed data", "statement": "Decoding the data section of a compressed BUFR message, written column by column as the regulations say for any subsets with the same structure, gives exactly the values of those subsets, which are also the values that decoding the uncompressed encoding of the same subsets gives; the whole section is consumed.", "quantifier": "for every descriptor list and operator nesting, every number of subsets, all their values, missing or not, and every choice of base values and increment widths allowed by the regulations", "why_tests_cant": "The product of templates, operators, numbers of subsets and values is unbounded, and the library has no encoder of compressed data to compare with.", "anchors": ["wreport/bufr/decoder.cc: CompressedDecoderTarget, DataSectionDecoder", "wreport/bufr/input.cc: Input::decode_compressed_number, Input::decode_string", "wreport/bufr/interpreter.cc"]}
{"id": "C67", "title": "Associated fields of compressed data belong to their subset", "statement": "In compressed data with associated fields, the variable of each subset gets as attribute the associated field of its own subset, and no attribute if that field is missing there.", "quantifier": "for every significance, field width, number of subsets, base value, increments and values", "why_tests_cant": "One variable is reused for all the subsets, so a wrong result needs a particular sequence of present and missing fields.", "anchors": ["wreport/bufr/input.cc: Input::decode_compressed_number_af", "wreport/bufr/associated_fields.cc: AssociatedField::make_attribute", "wreport/bufr/decoder.cc: CompressedDecoderTarget::decode_b_value"]}
{"id": "C68", "title": "Filling a subset appends exactly the requested variables", "statement": "After any sequence of requests to store variables in a subset, the subset holds its previous variables followed, in order, by exactly one variable per request, with the element, the value and the attributes asked for; a request for an element that the table does not have is refused.", "quantifier": "for every subset, table, and finite sequence of requests of any kind (copy, integer, double, text, undefined)", "why_tests_cant": "Histories are unbounded, and each of the overloads builds its variable in its own way.", "anchors": ["wreport/subset.cc: Subset::store_variable*"]}
{"id": "C69", "title": "The CREX decoder accepts only well-formed messages", "statement": "Any text that the CREX decoder accepts is made of the start group, a T group, an A group of three or six characters, descriptors closed by ++, data closed by ++, and the end group 7777, in that order; category and subcategory are those written in the A group.", "quantifier": "for every byte string, table and depth", "why_tests_cant": "The inputs are arbitrary byte strings; tests feed a few malformed messages.", "anchors": ["wreport/crex_decoder.cc: Decoder::decode_header, decode_data, decode_end", "wreport/buffers/crex.cc"]}
{"id": "C70", "title": "Formatted values stand for the stored value", "statement": "The text that formatting a set variable gives denotes exactly the stored value: numbers with as many decimals as the scale, character values as themselves, binary values as two hexadecimal digits per byte; an unset variable gives the text the caller chose. Setting a variable of the same descriptor from that text gives back the same value.", "quantifier": "for every variable, descriptor and stored value, and every rounding that is faithful", "why_tests_cant": "Values, scales and descriptors are unbounded families; tests format a few dozen variables.", "anchors": ["wreport/var.cc: Var::format, Var::setf"]}
{"id": "C71", "title": "Base64 encoding is RFC 4648 and decoding inverts it", "statement": "Encoding any byte string gives its base64 encoding as RFC 4648 defines it (six-bit digits of the bit string, padded with zeros and equal signs); decoding that text gives the byte string back; decoding any text at all reads only inside its table.", "quantifier": "for every byte string", "why_tests_cant": "The inputs are all byte strings of all lengths modulo three; tests use a handful.", "anchors": ["wreport/utils/string.cc: encode_base64, decode_base64, invbase64"]}
{"id": "C72", "title": "URL escaping is inverted by unescaping", "statement": "Decoding the URL encoding of any byte string gives the string back; the encoding uses only letters, digits and -_!*'()%; an escape cut short by the end of the text is ignored.", "quantifier": "for every byte string", "why_tests_cant": "All 256 characters at all positions; a wrapped size comparison matters only for one particular length.", "anchors": ["wreport/utils/string.cc: encode_url, decode_url"]}
{"id": "C73", "title": "C string escapes are inverted by unescaping", "statement": "Unescaping an escaped text gives the text back, stops right after the closing quote and reports how much was parsed; escaped texts have no control characters.", "quantifier": "for every byte string and every text after the closing quote", "why_tests_cant": "Escapes interact with the characters after them (hexadecimal digits, quotes, backslashes); tests try a few combinations.", "anchors": ["wreport/utils/string.cc: encode_cstring, decode_cstring"]}
{"id": "C74", "title": "Splitting and joining are inverse", "statement": "Splitting gives the pieces between the separators found from left to right, and joining them with the separator gives the text back; with skip_empty exactly the pieces that are not empty are given; the iteration always ends.", "quantifier": "for every text, every separator and both modes", "why_tests_cant": "Separators may overlap themselves and may be empty; termination is a statement about all inputs.", "anchors": ["wreport/utils/string.h: Split, join", "wreport/utils/string.cc: Split::const_iterator"]}
{"id": "C75", "title": "Path functions preserve the place a path names", "statement": "appendpath gives the path through both; basename is what follows the last slash; dirname leads one name less far and keeps the root; normpath gives plain names reached only by leaving out dots, names followed by two dots and two dots at the root, and normalising twice is normalising once.", "quantifier": "for every path", "why_tests_cant": "Paths are arbitrary strings with any number of separators and dots; tests list a dozen.", "anchors": ["wreport/utils/string.cc: basename, dirname, appendpath, normpath"]}
{"id": "C76", "title": "Stripping removes exactly the white space at the ends", "statement": "lstrip, rstrip and strip remove all the white space at the ends and nothing else, and the result is the only such text; startswith and endswith decide prefix and suffix.", "quantifier": "for every text", "why_tests_cant": "All texts, including empty ones and ones of white space only.", "anchors": ["wreport/utils/string.cc: lstrip, rstrip, strip", "wreport/utils/string.h: startswith, endswith"]}
{"id": "C77", "title": "Subsets have the structure their descriptors say", "statement": "The variables of a decoded, validated or encoded subset are exactly those its descriptors stand for: one with the code of each element, in order, with sequences replaced by their definitions, groups repeated as many times as the descriptor or the factor variable says, and every mark of a bitmap used by the values it announces.", "quantifier": "for every list of descriptors, tables, subset or input bytes, compressed or not, BUFR or CREX", "why_tests_cant": "Descriptors nest sequences, replications and operators without limit; tests fix a few templates.", "anchors": ["wreport/bulletin/interpreter.cc: run, b_variable, c_modifier, r_replication", "wreport/bufr/decoder.cc: UncompressedDecoderTarget, CompressedDecoderTarget, DataSectionDecoder", "wreport/bulletin/dds-validator.cc", "wreport/crex_decoder.cc: CrexParser"]}
{"id": "C78", "title": "The option to add undefined attributes adds only those", "statement": "Decoding a message with conf_add_undef_attrs gives exactly what decoding it without gives (same outcome, same variables, values and attributes, same bytes read), with in addition an attribute with no value where an associated field is missing.", "quantifier": "for every list of descriptors, tables and input bytes, compressed or not, with every sequence of associated field operators and significances", "why_tests_cant": "The option is one bit set once and read wherever an associated field is decoded; tests compare a few messages.", "anchors": ["wreport/bufr/decoder.cc: decode_data, decode_and_add_b_value_with_associated_field", "wreport/bulletin/associated_fields.cc: make_attribute", "wreport/bufr/input.cc: decode_compressed_number_af"]}
{"id": "C79", "title": "The features scan finds what the descriptors use", "statement": "Scanning a bulletin for features gives, each once and in order, the operators and the kinds of replication that its descriptors and the sequences they mention use, and nothing else.", "quantifier": "for every table, every list of descriptors and every nesting of sequences and replications for which the scan ends without an exception", "why_tests_cant": "Sequences nest to any depth and repeat; a test message shows only a few features.", "anchors": ["wreport/bulletin/dds-scanfeatures.cc", "wreport/bulletin/interpreter.cc: Interpreter::run"]}
{"id": "C80", "title": "The printed outline of descriptors", "statement": "Printing the data descriptors gives one line for each descriptor, in order, with what a replication repeats or a sequence stands for below it and indented one step more, and indentation back to where it was afterwards.", "quantifier": "for every table, list of descriptors, nesting and initial indentation for which printing ends without an exception", "why_tests_cant": "Nesting is unbounded and bitmaps, local operators and left out factors change which lines appear.", "anchors": ["wreport/bulletin/interpreter.cc: Printer", "wreport/bulletin.cc: Bulletin::print_datadesc"]}
{"id": "C81", "title": "The structured printout of a subset", "statement": "The structured printout of a bulletin shows every variable its descriptors take, in order, under the descriptors it is nested in, with its own position and attributes, for every subset that can be encoded.", "quantifier": "for every table, list of descriptors and subset", "why_tests_cant": "The place of an item depends on the path through nested sequences, replications and bitmaps.", "anchors": ["wreport/bulletin/dds-printer.cc", "wreport/bulletin.cc: Bulletin::print_structured", "wreport/bulletin/internals.cc: UncompressedEncoder"]}
{"id": "C82", "title": "Any bytes of a string or binary field are read as what they hold", "statement": "Reading a string field gives a missing value if and only if all its bytes are 0 or 0xff, and otherwise the text before the padding, always with at least the first byte, cut at the first NUL; reading a binary field of whole bytes gives a missing value if all are 0xff and otherwise its bytes. Both use exactly the bits of the field.", "quantifier": "for every content and width of the field, at every bit alignment; at least one byte follows the field, as the end section does in a message", "why_tests_cant": "Messages by other programs hold bytes that the encoder here never writes.", "anchors": ["wreport/bufr/input.cc: Input::decode_string, Input::decode_binary"]}
{"id": "C83", "title": "What is decoded is encoded as it was", "statement": "Encoding the subsets decoded from uncompressed data gives the bits that were read, and decoding those again gives subsets that show the same.", "quantifier": "for every table, list of descriptors, number of subsets and data that can be decoded", "why_tests_cant": "Data written by other programs differs in padding, reference values and attributes in ways no sample covers.", "anchors": ["wreport/bufr/decoder.cc: UncompressedDecoderTarget", "wreport/bufr_encoder.cc: DDSEncoder", "wreport/bulletin/associated_fields.cc"]}
{"id": "C84", "title": "Whatever is decoded is well formed", "statement": "Every value and attribute that decoding gives, from any bytes, has the storage its description says, a description that the library makes, a number within the range of that description, and attributes in strictly increasing order of code.", "quantifier": "for every byte string taken as a BUFR or CREX message, compressed or not, for every table and options that do not clamp", "why_tests_cant": "Damaged and hostile messages are unlimited; a single value out of range breaks code that trusts it.", "anchors": ["wreport/bufr/decoder.cc: DataSectionDecoder", "wreport/bufr/input.cc", "wreport/crex_decoder.cc", "wreport/var.cc"]}
{"id": "C85", "title": "Decoding arbitrary data has no undefined behaviour", "statement": "Decoding any data ends with values or an exception, never with a read out of bounds, an overflow, or a shift by too much.", "quantifier": "for every data section or text, table and list of descriptors", "why_tests_cant": "Fuzzing samples inputs; undefined behaviour may show on none of the machines tried.", "anchors": ["wreport/bufr/input.cc: get_bits", "wreport/bufr/decoder.cc", "wreport/crex_decoder.cc", "wreport/bulletin/interpreter.cc"]}
{"id": "C86", "title": "Decoding depends only on the data it reads", "statement": "If decoding ends at some place of the data, then it gives the same with any other data that has the same bytes up to there.", "quantifier": "for every data, table, list of descriptors and number of subsets, compressed or not, and every other data that agrees with it", "why_tests_cant": "What follows a message in memory is not under the control of a test.", "anchors": ["wreport/bufr/input.h: get_bits", "wreport/bufr/decoder.cc: UncompressedDecoderTarget, CompressedDecoderTarget"]}
{"id": "C87", "title": "Header fields are read from their octets", "statement": "The header of a BUFR message is decoded exactly when sections 1-4 lie inside the data, section 1 has room for its fields, section 2 if present has at least 4 octets and section 3 at least 8; every field then has the value of the octets that the Manual on Codes gives to it in that edition. What follows the data makes no difference.", "quantifier": "for every sequence of bytes", "why_tests_cant": "Tests decode sample messages and look at some fields; this fixes every field and every refusal for any bytes.", "anchors": ["wreport/bufr/decoder.cc: decode_header, decode_sec1ed3, decode_sec1ed4", "wreport/bufr/input.cc: scan_section_length, scan_other_sections, check_available_section_data"]}
{"id": "C88", "title": "Table files say what elements and sequences are", "statement": "An element table loaded from a file has, in the order of the file, exactly the elements that its lines describe in their columns: code, unit, scale, reference value and width, or CREX unit, scale and length; the type and the number of digits follow from these. A file that writes sequences in increasing order is loaded, and looking up a descriptor gives the members written for it.", "quantifier": "for every file of lines written in columns, whatever the values that fit them", "why_tests_cant": "Tests load the tables that are shipped and look at a few elements; local tables are written by others.", "anchors": ["wreport/vartable.cc: getnumber, BufrVartable, CrexVartable", "wreport/dtable.cc: DTableBase"]}
{"id": "C89", "title": "Verbose decoding decodes the same", "statement": "Decoding a BUFR message with a report of what is decoded gives exactly what decoding it without the report gives: the same data, or the same error, and no undefined behaviour that decoding alone does not have. When operators only change how elements are written (201, 202, 207 and 208: width, scale, both with the reference value, length of texts), the report of uncompressed data is the reports of the subsets in order, and each has a line for every operator, replication and sequence, the factor of every delayed replication, and two lines for every other decoded variable, in order, with its code, description, unit and the text of its value, once for every repetition and one step to the right inside replications and sequences; for compressed data there is one such report, of the columns that the subsets are made of, with the values of all subsets in order.", "quantifier": "for every message, tables, compressed or not, with bitmaps, attributes and operators", "why_tests_cant": "The test suite compares the two decoders on the sample messages it ships; the verbose one looks at the last variable added and at positions given by bitmaps, which must exist for every other message too.", "anchors": ["wreport/bufr/decoder.cc: VerboseDataSectionDecoder, print_last_variable_added, print_last_attribute_added, lookup_info", "wreport/bulletin.cc: BufrBulletin::decode_verbose"]}
{"id": "C90", "title": "What a subset gets from compressed data depends only on its own increment", "statement": "When a column of compressed numbers is decoded, the value each subset gets depends on the base value and on the increment of that subset alone: decoding the column for all the subsets gives, in order, what decoding it for each subset alone gives, and fails exactly when decoding it for one of the subsets alone fails.", "quantifier": "For every variable description of up to 32 bits, every base value, every width of 1 to 32 bits for increments, every non-empty list of increments and every setting of options.", "why_tests_cant": "A value left behind by another subset shows only when a value out of range follows one in range and a hook leaves the variable alone; tests decode few columns, none of which has such a combination.", "anchors": ["wreport/bufr/input.cc: Input::decode_compressed_number", "wreport/bufr/input.h: DispatchToSubsets::add_var", "wreport/options.h: DomainErrorHook"]}
{"id": "C91", "title": "Variables own their texts and attributes: no leaks, no double frees", "statement": "Whatever sequence of constructions, copies, moves, assignments, setters, attribute operations and destructions a program performs on variables, no buffer or attribute is used after it was deleted or deleted twice, variables never share one, each variable has the value that it would have if variables were plain values, and when all variables are destroyed nothing remains on the heap.", "quantifier": "all sequences of operations on any number of variables with any descriptors and values, all conversion functions and options, with any hook for values out of range that stores a number", "why_tests_cant": "Ownership bugs need particular sequences of copies, moves and exceptions; tests run a few of them and without a sanitizer do not even see a double free.", "anchors": ["wreport/var.cc: Var::~Var", "wreport/var.cc: Var::copy_value", "wreport/var.cc: Var::move_value", "wreport/var.cc: Var::operator=", "wreport/var.cc: Var::seta", "wreport/var.cc: Var::unseta", "wreport/var.cc: Var::setattrs", "wreport/var.cc: Var::allocate"]}
{"id": "C92", "title": "Comparisons tell about differences to whom listens, and count the same if nobody does", "statement": "Var::diff and Bulletin::diff give the same count with and without a notes target; with one they write complete lines, and none exactly if the count is zero. As long as a notes::Collect exists its stream gets the notes, and after it who got them before.", "quantifier": "for all pairs of variables and bulletins, and all programs of comparisons, set_target and nested Collect blocks", "why_tests_cant": "The values, attributes and header fields that may differ are unbounded, and the paths that format values for notes are reached only by rare combinations (unset against set, extreme numbers, binary values).", "anchors": ["wreport/notes.cc: notes::logf", "wreport/notes.h: notes::Collect", "wreport/var.cc: Var::diff", "wreport/subset.cc: Subset::diff", "wreport/bulletin.cc: Bulletin::diff", "wreport/var.cc: Var::print"]}
{"id": "C93", "title": "What a process has decoded before makes no difference", "statement": "While table files and directories stay as they are, the outcome of decoding a BUFR or CREX message depends on the message, the options and the directories added, and not on what the process has decoded, loaded, failed to load or altered before. A table once read stays and gives the same answers even if its file changes, and everything kept under a file name was read completely from that file at some moment.", "quantifier": "all files, directories, sequences of decoding, loading and alteration requests, all messages", "why_tests_cant": "Tests decode messages in a few orders in one process; tables are shared through static maps and each message can leave alterations in them, so all interleavings count.", "anchors": ["wreport/vartable.cc: Vartable::load_bufr", "wreport/vartable.cc: Vartable::load_crex", "wreport/dtable.cc: DTable::load_bufr", "wreport/dtable.cc: DTable::load_crex", "wreport/tables.cc: Tables::load_bufr", "wreport/bulletin.cc: BufrBulletin::load_tables", "wreport/bulletin.cc: CrexBulletin::load_tables"]}
{"id": "C94", "title": "Loading tables for a bulletin is all or nothing", "statement": "When loading the tables for an identifier succeeds, the bulletin has the element table and the sequence table of one and the same best candidate, as their files say. When it fails, the tables of the bulletin are as they were.", "quantifier": "all files, directories, histories, bulletins and identifiers", "why_tests_cant": "Tests load tables that exist; a failure between the two assignments needs a missing or broken sequence table next to a good element table.", "anchors": ["wreport/tables.cc: Tables::load_bufr", "wreport/tables.cc: Tables::load_crex", "wreport/tables.cc: Tables::loaded"]}
{"id": "C95", "title": "What follows a message does not matter", "statement": "If a message is decoded, then the same bytes followed by any others are decoded to the same header, values and ends of sections.", "quantifier": "for every data, every bytes after it, all tables and options, BUFR compressed or not, and CREX", "why_tests_cant": "What a caller leaves in the buffer after a message can be anything, and a read beyond the end goes unnoticed.", "anchors": ["wreport/bufr/decoder.cc: Decoder::decode_header, Decoder::decode_data", "wreport/bufr/input.h: Input::get_bits", "wreport/crex_decoder.cc: decode_header, decode_data", "wreport/buffers/crex.cc: CrexInput::parse_value"]}
{"id": "C96", "title": "The end of a CREX message", "statement": "A CREX message is accepted exactly if its data section is followed, after spaces, by an optional section, from SUPP to ++, or none, and by 7777.", "quantifier": "for every text", "why_tests_cant": "Any text can stand in the optional section; there is no sample with one.", "anchors": ["wreport/crex_decoder.cc: decode_data"]}
{"id": "C97", "title": "wrep -U copies the messages that cannot be decoded", "statement": "When asked for unparsable messages, wrep writes exactly the messages that decoding refuses, unchanged, in the order in which the files have them, each judged as if it were the only one; given its own output as a file, it writes the same again.", "quantifier": "for every command line that asks for it, all files and contents, all directories of tables, BUFR and CREX", "why_tests_cant": "Any number of files of any bytes; whether a message is judged alone depends on everything decoded before it.", "anchors": ["src/unparsable.cc: CopyUnparsable", "src/input.cc: read_bufr_raw", "src/input.cc: read_crex_raw", "src/wrep.cc: main"]}
{"id": "C98", "title": "wrep --print writes a table of the variables asked for", "statement": "When asked for variables, wrep writes a row for each subset of each message that can be decoded, in order, with the name of the file, the number of the subset, and a column for each code with the value of the first variable that has it.", "quantifier": "for every command line that asks for it, all files and contents, all directories of tables, BUFR and CREX", "why_tests_cant": "All messages and lists of codes; a column that silently goes missing shifts all that follow.", "anchors": ["src/iterate.cc: PrintVars", "src/options.cc: BulletinFullHandler", "src/wrep.cc: main"]}
{"id": "C99", "title": "The command line of wrep means what its help says", "statement": "wrep does what the options in its help text say, in their short and long forms and wherever they stand among the files, and refuses what is not a descriptor.", "quantifier": "for every command line", "why_tests_cant": "Options, lists of codes and files combine without limit.", "anchors": ["src/wrep.cc: main", "src/options.cc: Options::init_varcodes"]}
{"id": "C100", "title": "A printed message tells messages apart", "statement": "Two messages that Bulletin::print prints alike have the same header fields, data descriptors and details, as many subsets, the same variables with the same attributes, and the same values.", "quantifier": "for every two messages, in every environment and with any descriptions of elements", "why_tests_cant": "It is about all pairs of messages: a separator that also occurs in a value, or a field that is not printed, shows only for a pair that differs just there.", "anchors": ["wreport/bulletin.cc: Bulletin::print", "wreport/bulletin.cc: BufrBulletin::print_details", "wreport/bulletin.cc: CrexBulletin::print_details", "wreport/var.cc: Var::print", "wreport/var.cc: Var::print_without_attrs"]}
{"id": "C101", "title": "A Python value put in a variable is what is read from it", "statement": "wreport.Var(varinfo, value) either raises an exception (OverflowError for a number outside the range of the variable, TypeError for a value of the wrong kind) or makes a variable from which enq() returns the value: the same integer, the same string or bytes, or the float that the variable can hold nearest to the one given.", "quantifier": "for all descriptors made by the library and all Python integers, floats, strings, bytes and other objects", "why_tests_cant": "The Python tests store a handful of small values; the conversions between Python objects, C long, int, double and UTF-8 text matter at the edges of types and of character encodings.", "anchors": ["python/var.cc: var_value_from_python", "python/var.cc: var_value_to_python", "python/var.cc: VarDef::_init", "python/utils/values.cc: string_from_python"]}
{"id": "C102", "title": "Every call from Python ends with an object or with the right exception", "statement": "In every Python program using wreport.Var, every call returns an object with no exception set, or raises: KeyError only for reading a value that is not set, OverflowError only for a number that does not fit, UnicodeDecodeError only for text that is not UTF-8, and never SystemError; the variables that the program holds stay well formed.", "quantifier": "for all programs, i.e. all finite sequences of calls on all variables made so far, with all arguments", "why_tests_cant": "The error protocol of the C interface of Python (return value and exception set together) is only observable for the argument values that take the unusual path, in any order of calls.", "anchors": ["python/common.cc: set_wreport_exception", "python/common.h: WREPORT_CATCH_RETURN_PYO", "python/var.cc: VarDef", "python/utils/values.cc: string_to_python"]}
{"id": "C103", "title": "Attributes read from Python are the attributes that were set", "statement": "After any sequence of seta() and unseta(), get_attrs() returns one variable per attribute, in order of code, with the descriptor and value that were set last and no attributes of its own; enqa(code) returns a variable with the same descriptor and value, or None if there is no such attribute.", "quantifier": "for all variables, all sequences of seta and unseta, and all codes", "why_tests_cant": "Attributes are chained through the variables themselves, and the functions copy parts of the chain; which parts depends on the order of the codes.", "anchors": ["python/var.cc: get_attrs", "python/var.cc: enqa", "python/var.cc: seta", "python/var.cc: unseta", "wreport/var.cc: Var::setval", "wreport/var.cc: Var::seta"]}
{"id": "C104", "title": "Tables asked for from Python are the best ones for the numbers given", "statement": "wreport.Vartable.get_bufr and get_crex return the element table of the best candidate for the centre, subcentre, table and versions given, with the contents of its file: the same table that a message with these numbers in its header is decoded with. KeyError is raised exactly when no table can be used, ValueError when neither a name nor a version is given, and numbers that do not fit their field are refused.", "quantifier": "for all contents of the table directories and files, all things the process did before (decoding, loading, other lookups), and all arguments", "why_tests_cant": "The tests ask for one version; caches, earlier lookups, default values for arguments left out and the conversion of Python integers to fields of 8 and 16 bits are only exercised for that one.", "anchors": ["python/vartable.cc: get_bufr", "python/vartable.cc: get_crex", "wreport/vartable.cc: Vartable::get_bufr", "wreport/vartable.cc: Vartable::get_crex", "wreport/internals/tabledir.cc: Tabledirs::find"]}
{"id": "C105", "title": "A Python table is a mapping from codes to their metadata", "statement": "For every table and every string: code in table is true exactly when table[code] returns metadata, whose code is the one asked for; otherwise table[code] raises KeyError. A string that is not a code raises RuntimeError in both, another object TypeError. The code printed by the metadata finds the same metadata again. len(table) is the number of elements, and iterating over the table ends.", "quantifier": "for all tables loaded from any file and all Python objects used as key", "why_tests_cant": "Membership, lookup, length and iteration are separate functions that have to agree for all codes, including malformed ones and codes written in different ways.", "anchors": ["python/vartable.cc: sq_contains", "python/vartable.cc: mp_subscript", "python/vartable.cc: sq_length", "python/vartable.cc: sq_item", "python/varinfo.cc: code", "wreport/vartable.cc: VartableBase::contains"]}
{"id": "C106", "title": "Variables read from Lua have the value they hold", "statement": "For every variable: var:enqi(), var:enqd() and var:enqc() give nil exactly when the variable is not set; otherwise the stored integer, the number to within rounding, the decimal text or the string it holds. Asking a text for a number is a Lua error. var:code() is the text of its code, and tostring(var) is the value as text, or (undef). The contents of binary variables are given unchanged.", "quantifier": "for all variables and all values", "why_tests_cant": "The Lua test sets one variable of each kind; binary contents, every code letter and unset variables of every type are not covered.", "anchors": ["wreport/var-lua.cc: dbalua_var_enqi", "wreport/var-lua.cc: dbalua_var_enqd", "wreport/var-lua.cc: dbalua_var_enqc", "wreport/var-lua.cc: dbalua_var_code", "wreport/var-lua.cc: dbalua_var_tostring"]}
{"id": "C107", "title": "wrep --tables says which tables each message uses", "statement": "With any command line that asks for tables, wrep writes a line of titles and then one line for each message whose header can be read and whose tables are found, in the order in which the files have them: the name of the file, the offset of the message in it, and the originating centre, the subcentre and the versions of the master and local tables it asks for (for CREX: master table number, edition and version). Nothing else is written, each message is treated as if it were the only one, and two messages with the same numbers on their lines use the same tables.", "quantifier": "for all command lines, all files with any bytes, all directories of tables", "why_tests_cant": "The tests of the program do not exist; a test could only look at a few files, while messages that are refused, the caches of tables and the single title line interact over any sequence of files.", "anchors": ["src/output.cc: PrintTables", "src/options.cc: BulletinHeadHandler::handle_raw_bufr", "src/options.cc: BulletinHeadHandler::handle_raw_crex", "src/wrep.cc: main"]}
{"id": "C108", "title": "wrep --features lists the features of each message", "statement": "With any command line that asks for features, wrep writes one line for each message whose header can be read, whose tables are found and whose descriptors can be scanned, in the order in which the files have them: the name of the file, the offset of the message in it, and the features its descriptors use, without repetitions, in order and separated by commas. Nothing is written about the others, and each message is treated as if it were the only one.", "quantifier": "for all command lines, all files with any bytes, all directories of tables", "why_tests_cant": "There are no tests of the program; the property is about all sequences of messages and all descriptors in them, and about what earlier messages leave in the caches.", "anchors": ["src/output.cc: PrintFeatures", "wreport/bulletin/dds-scanfeatures.cc: ScanFeatures", "src/options.cc: BulletinHeadHandler::handle_raw_bufr", "src/options.cc: BulletinHeadHandler::handle_raw_crex"]}
{"id": "C109", "title": "wrep --trace tells how messages are decoded", "statement": "With a command line that asks for a trace of the decoding process, wrep writes a trace of every message that can be decoded, whether BUFR or CREX, in the order in which the files have them: the report of decoding of C89, with the values of all elements.", "quantifier": "for all command lines, all files with any bytes, all directories of tables", "why_tests_cant": "That nothing at all is written in one of the two formats is a statement about all inputs, and for which operators values are left out cannot be sampled.", "anchors": ["src/output.cc: PrintTrace", "src/wrep.cc: main"]}
{"id": "C110", "title": "round_decimal gives the number that a variable would hold", "statement": "For every number within the limits of a numeric description, _Varinfo::round_decimal gives the number that a variable with that description holds after it has been set to it. The result is, up to double rounding, the decimal number nearest to the argument among those with as many digits as the scale allows, and rounding the result again does not change it.", "quantifier": "for all descriptions with scales from -16 to 16, all numbers, all rounding functions of double arithmetic", "why_tests_cant": "The function has no tests; agreement of two roundings done by different library functions has to hold for every double, and it fails just at the halves.", "anchors": ["wreport/varinfo.cc: _Varinfo::round_decimal", "wreport/varinfo.cc: _Varinfo::encode_decimal", "wreport/var.cc: Var::assign_d_checked"]}
{"id": "C111", "title": "Descriptions read from Python", "statement": "The attributes type, code, len, unit, scale, bit_ref and bit_len of a wreport.Varinfo can always be read, and are what the description says: the code and the type are texts that the library reads back as the same code and type. Two descriptions made by the library from which a program reads the same are the same, including the limits of the values they allow, which Python cannot read.", "quantifier": "for all descriptions the library can make from tables and operators", "why_tests_cant": "Tests read the attributes of a few table entries; that nothing a variable depends on is hidden needs all pairs of descriptions, and units are cut at a byte, not at a character, which only shows with long units that are not ASCII.", "anchors": ["python/varinfo.cc: GetSetters of VarinfoDef", "python/utils/values.cc: cstring_to_python", "wreport/varinfo.cc: _Varinfo::set_bufr", "wreport/varinfo.cc: _Varinfo::compute_range"]}
{"id": "C112", "title": "Conversion of units from Python", "statement": "wreport.convert_units called with any three objects returns a float or raises TypeError, ValueError, UnicodeEncodeError, OverflowError or NotImplementedError, never anything else, and never has undefined behaviour. Between equal units it returns its argument; between units that the library does not know it raises NotImplementedError; converting there and back returns the number up to rounding.", "quantifier": "for all Python objects as arguments, all orders in which the sort may leave the conversions, all rounding functions of double arithmetic", "why_tests_cant": "Tests convert a few numbers; infinities and NaN, texts with NULs or without UTF-8 form and numbers too large for a double are never tried.", "anchors": ["python/wreport.cc: convert_units", "wreport/conv.cc: convert_units", "python/common.cc: set_wreport_exception"]}
{"id": "C113", "title": "Imported element tables say what the WMO lists", "statement": "The element table files that wrep-importtable writes from any list of elements are loaded by the library, and the BUFR and CREX tables that result have exactly the listed elements, with their unit, scale, reference value and width.", "quantifier": "all lists of elements in any order, with any names, units, scales, reference values and widths", "why_tests_cant": "The script and the loaders agree on the positions of columns only; a text or a number that shifts them goes unnoticed until an element is decoded wrongly, and the tests never load what the script writes.", "anchors": ["src/wrep-importtable: TableB.make_xml_b_lines", "wreport/vartable.cc: BufrVartable", "wreport/vartable.cc: CrexVartable"]}
{"id": "C114", "title": "Imported sequence tables expand as the WMO lists", "statement": "The sequence table file that wrep-importtable writes from any list of pairs of a sequence and one of its members is loaded by the library, and each sequence expands to its members in the order in which they are listed; other codes are not found.", "quantifier": "all lists of pairs that are not empty, with the members of sequences in any way mixed", "why_tests_cant": "Grouping, sorting and counting of members interact for any number and order of pairs, and the tests never load what the script writes.", "anchors": ["src/wrep-importtable: TableD.parse_xml", "src/wrep-importtable: TableD.output_lines", "wreport/dtable.cc: DTableBase"]}
{"id": "C115", "title": "Imported table files are found under their version", "statement": "The files that wrep-importtable writes for a version of the WMO tables are registered by the library as WMO tables of that version, for BUFR and for CREX, and the sequence files go with the element files.", "quantifier": "all versions and subversions", "why_tests_cant": "Names are made by one program and read by another, and only a few versions are in the tests.", "anchors": ["src/wrep-importtable: write_files", "wreport/internals/tabledir.cc: Dir::refresh"]}
{"id": "C116", "title": "wrep prints the contents of every message that can be decoded", "statement": "With a command line that names no other action, wrep writes for each message that can be decoded, in the order in which the files have them, its head (category, centre, date, tables, descriptors, edition) and one line for each variable and attribute with its subset, position, code, description, unit and value, and nothing else. Each message is decoded as if it were the only one, and printing a message that has been decoded never fails.", "quantifier": "for all command lines, all files with any bytes, all directories of tables", "why_tests_cant": "Tests of the program print a few files; that tables kept from earlier messages, values of any kind and refused messages in between change nothing is about all sequences of messages.", "anchors": ["src/output.cc: PrintContents", "src/options.cc: BulletinFullHandler", "wreport/bulletin.cc: Bulletin::print", "src/wrep.cc: main"]}
{"id": "C117", "title": "wrep -D prints the outline of the descriptors of every message", "statement": "With a command line that asks for data descriptors, wrep writes for each message whose header can be read and whose tables are there, in the order in which the files have them, a line for each descriptor with those of sequences and replications indented below, and nothing else.", "quantifier": "for all command lines, all files with any bytes, all directories of tables", "why_tests_cant": "Nesting of descriptors and the order of refused and accepted messages are unbounded.", "anchors": ["src/output.cc: PrintDDS", "src/options.cc: BulletinHeadHandler", "wreport/bulletin.cc: Bulletin::print_datadesc"]}
{"id": "C118", "title": "wrep -s prints each item of a message on a line of its own", "statement": "With a command line that asks for the structure of messages, wrep writes for each message that can be decoded, in the order in which the files have them, its head and then each variable and attribute in the order of the descriptors, on lines of their own, with the number of the subset, its position, the sequences and replications it is nested in, its code and its value.", "quantifier": "for all command lines, all files with any bytes, all directories of tables", "why_tests_cant": "Which items occur depends on operators, bitmaps and nesting in the message; the tests look at no output of this action.", "anchors": ["src/output.cc: PrintStructure", "wreport/bulletin.cc: Bulletin::print_structured", "wreport/bulletin/dds-printer.cc: DDSPrinter"]}
{"id": "C119", "title": "wrep -L lists every table that can be used", "statement": "Asked for the list of tables, wrep writes exactly one line for each file that is a table in the default directories, in the order in which they are searched, with its path without extension and the table that it is; and from that text the kind and all the numbers of the table can be read back.", "quantifier": "for all command lines, environments, directories and names of files", "why_tests_cant": "No test looks at this output; that two different tables are never shown alike is a statement about all pairs of identifiers.", "anchors": ["src/wrep.cc: main", "wreport/internals/tabledir.cc: Index::print", "wreport/internals/tabledir.cc: Tabledirs::print", "wreport/internals/tabledir.cc: Tabledirs::get", "wreport/tableinfo.cc: BufrTableID::print", "wreport/tableinfo.cc: CrexTableID::print"]}
{"id": "C120", "title": "The explanation of a choice of tables agrees with the choice", "statement": "Explaining how a table is selected prints one line for each table in the order of the search with the best BUFR and CREX tables among those up to it, and at the end the table that the search itself finds. Whether an explanation was asked for changes nothing that is found later.", "quantifier": "for all sequences of operations on directories of tables, all their contents and all identifiers wanted", "why_tests_cant": "The explanation is other code than the search with its caches; that they agree is about all histories. The only use in the tests is commented out.", "anchors": ["wreport/internals/tabledir.cc: Query::explain_search", "wreport/internals/tabledir.cc: Query::explain_result", "wreport/internals/tabledir.cc: Index::explain_find_bufr", "wreport/internals/tabledir.cc: Index::explain_find_crex"]}
{"id": "C121", "title": "wrep -i names the directories that are searched", "statement": "Asked for information, wrep names the directories that are searched for tables, in that order: those of the environment variables WREPORT_EXTRA_TABLES and WREPORT_TABLES if they are set, and the compiled-in one.", "quantifier": "for all command lines and environments", "why_tests_cant": "The test environment sets the variables; printing a null pointer happens to work with some C libraries.", "anchors": ["src/info.cc: do_info", "wreport/internals/tabledir.cc: Tabledirs::add_default_directories"]}
{"id": "C122", "title": "Pressure falls with height", "statement": "convert_icao_to_press gives the pressure of the standard atmosphere at height zero, a positive pressure at every height, and a lower pressure at a greater height.", "quantifier": "for all heights and all pairs of heights", "why_tests_cant": "Two formulas meet at 11000 metres and their constants decide whether they agree there; a test at a few heights sees differences of a ten millionth of a hectopascal only if it looks at the right pair.", "anchors": ["wreport/conv.cc: convert_icao_to_press"]}
{"id": "C123", "title": "The program for fuzzing reports what it cannot decode", "statement": "afl-test ends, and it ends with status 0 exactly when it is given one file that can be read to its end and every BUFR message in it can be decoded with the values of its subsets.", "quantifier": "for all argument lists, all file contents and all table directories", "why_tests_cant": "A fuzzer takes status 0 to mean that a file was decoded; that the values are never looked at does not show in any run that succeeds, and which files stop it depends on tables loaded for the messages before.", "anchors": ["src/afl-test.cc: main", "wreport/bulletin.cc: BufrBulletin::decode_header"]}
{"id": "C124", "title": "The program with examples understands the options in its help", "statement": "A command line made of options that the help text of examples lists, by letter or by name, makes it do the last thing that is asked for, write the message or the help text, with status 0; with any other option it writes nothing to standard output and its status is 1.", "quantifier": "for all argument lists and all messages", "why_tests_cant": "Options may be abbreviated, joined and repeated in any order, and that one of the listed options is refused wherever it stands is a statement about all command lines.", "anchors": ["src/examples.cc: main", "src/examples.cc: do_help"]}
