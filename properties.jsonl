{"id": "C01", "title": "Bit-level reads return exactly the addressed bits", "statement": "InputStream.readBits(address, nbits, endian) on an in-memory stream succeeds exactly when address >= 0 and address+nbits does not run past the last byte of the data, and then returns the number spelled by the nbits stream bits starting at that bit address: most significant bit first inside each byte for BIG_ENDIAN, least significant bit first for LITTLE_ENDIAN. Otherwise it raises ReadStreamError.", "quantifier": "every byte string, every bit address, every bit count, both endians", "why_tests_cant": "A test fixes a few (address, nbits) pairs; the shift/mask arithmetic has 8 x 8 alignment cases times unbounded lengths, and an off-by-one only shows on particular alignments.", "anchors": ["hachoir/stream/input.py: StringInputStream.read, InputStream.readBits", "hachoir/core/bits.py: str2long"]}
{"id": "C02", "title": "Signed integers read back in two's complement", "statement": "InputStream.readInteger(address, signed, nbits, endian) returns for nbits >= 1 the two's complement interpretation of the same bits readBits returns when signed is true (so always in [-2^(nbits-1), 2^(nbits-1)) and congruent to the unsigned value modulo 2^nbits) and the unsigned value otherwise.", "quantifier": "every stream, address, width >= 1 and endian", "why_tests_cant": "The sign boundary moves with every width; tests sample widths 8/16/32 only.", "anchors": ["hachoir/stream/input.py: InputStream.readInteger"]}
{"id": "C03", "title": "Adjacent reads compose", "statement": "Reading m+n bits at an address equals combining the read of the first m bits and the read of the n bits after them (value = first*2^n + second for BIG_ENDIAN, first + second*2^m for LITTLE_ENDIAN), so cutting a field into sub-fields never changes the decoded number.", "quantifier": "every stream, every address, every m and n, both endians", "why_tests_cant": "All ways to cut a field at all alignments cannot be enumerated.", "anchors": ["hachoir/stream/input.py: InputStream.readBits"]}
{"id": "C04", "title": "Byte reads return exactly the addressed bytes", "statement": "readBytes(address, n) at a byte-aligned address returns the n bytes of the source starting there; it raises ReadStreamError when fewer than n bytes are left and InputStreamError when the address is not byte aligned; it never returns a short or shifted answer.", "quantifier": "every stream content, every address and every count", "why_tests_cant": "Short reads happen only at ends of data, which vary with every input.", "anchors": ["hachoir/stream/input.py: InputStream.readBytes, StringInputStream.read"]}
{"id": "C05", "title": "searchBytes returns the first occurrence in the window", "statement": "searchBytes(needle, start, end) returns the smallest byte-aligned address a >= start such that the needle occurs at a and ends at or before end, and None when there is no such address, independently of how the scan is cut into chunks.", "quantifier": "every stream, needle, start and end; needles that straddle the internal read chunks included", "why_tests_cant": "The chunk loop has a carry-over of len(needle)-1 bytes; bugs only appear for needles crossing a chunk boundary at particular offsets.", "anchors": ["hachoir/stream/input.py: InputStream.searchBytes"]}
{"id": "C06", "title": "A sub-stream shows only its window of the parent", "statement": "Reads on an InputSubStream opened at (offset, size) return the same bits as reads of the parent at offset+address, and a read that leaves [0,size) is refused instead of returning bytes that belong to whatever follows the window in the parent.", "quantifier": "every parent stream, window and read", "why_tests_cant": "Tests read inside the window; leaking data past the end needs the right parent content.", "anchors": ["hachoir/stream/input.py: InputSubStream.read"]}
{"id": "C07", "title": "The seekable pipe cache is transparent", "statement": "Over a non-seekable source, any sequence of seek/read on the caching pipe returns, for each read, the same bytes that a seekable file with the same contents would return, or raises the 'buffers too small' error when a needed old block has been discarded; it never returns other bytes. Blocks are only ever discarded from the start, and the most recent 256 blocks read from the source are never discarded.", "quantifier": "every source content, every sequence of seeks and reads of any size, every order of block reuse", "why_tests_cant": "The cache is a doubly linked LRU list with positions shared with the block table; corruptions need long access histories (more than 256 blocks of 64 KiB).", "anchors": ["hachoir/stream/input.py: InputPipe"]}
{"id": "C08", "title": "A stream's reported size never changes once known", "statement": "Once the caching pipe has found the end of its source and published a size, the size is the exact length of the source and later reads, including reads past the end, do not change it.", "quantifier": "every source and every read history", "why_tests_cant": "Needs a read past end of file after the end was discovered, with a partial last block.", "anchors": ["hachoir/stream/input.py: InputPipe.read, InputStream._setSize"]}
{"id": "C09", "title": "Written bit fields read back", "statement": "Writing any sequence of (value, width) pairs, each value fitting its width, with OutputStream.writeBits and one fixed endian, and padding to a whole number of bytes, yields bytes from which readBits at the cumulative offsets returns the same values.", "quantifier": "every sequence of widths and values, both endians", "why_tests_cant": "Every alignment of every field in sequences of unbounded length has to be right.", "anchors": ["hachoir/stream/output.py: OutputStream.writeBits", "hachoir/stream/input.py: InputStream.readBits"]}
{"id": "C10", "title": "Single-bit writes are single-bit fields", "statement": "OutputStream.writeBit(state, endian) has the same effect on the output as writeBits(1, state, endian), so that eight written flags can be read back individually.", "quantifier": "every sequence of flags, both endians, every bit position", "why_tests_cant": "Tests that write one flag or all-equal flags do not see that two bit positions collide.", "anchors": ["hachoir/stream/output.py: OutputStream.writeBit"]}
{"id": "C11", "title": "Written integers read back", "statement": "OutputStream.writeInteger(value, signed, size, endian) followed by readInteger with the same parameters returns value for every value in range, and emits exactly size bytes.", "quantifier": "every value in range, every size, both endians, signed and unsigned", "why_tests_cant": "Round trips depend on sign handling at every width.", "anchors": ["hachoir/stream/output.py: OutputStream.writeInteger", "hachoir/core/bits.py: long2raw", "hachoir/stream/input.py: InputStream.readInteger"]}
{"id": "C12", "title": "Integer <-> raw bytes conversion round-trips", "statement": "str2long(long2raw(n, endian, size), endian) = n for every non-negative n for big and little endian; long2raw gives exactly size bytes when n < 256^size; and long2raw(str2long(s, endian), endian, len(s)) = s for every non-empty byte string.", "quantifier": "every natural number, every byte string, both endians", "why_tests_cant": "Unbounded numbers; padding and byte order errors show up only at particular lengths.", "anchors": ["hachoir/core/bits.py: str2long, long2raw"]}
{"id": "C13", "title": "Byte swaps are involutions and match middle-endian order", "statement": "swap16 and swap32 are their own inverse on 16/32-bit values and reverse the byte order; arrswapmid/strswapmid swap each pair of bytes, are their own inverse on even-length data, and refuse odd-length data; MIDDLE_ENDIAN str2long is the big endian value of the pair-swapped data.", "quantifier": "every 16-bit value, every 32-bit value, every byte string", "why_tests_cant": "2^32 values and unbounded strings.", "anchors": ["hachoir/core/bits.py: swap16, swap32, arrswapmid, strswapmid, str2long"]}
{"id": "C14", "title": "Bit counting and binary text conversions are exact", "statement": "countBits(n) is the number of binary digits of n (1 for 0); bin2long of a text of '0'/'1' (other characters ignored) is the number with these digits in the given bit order; bin2long(long2bin(size, n, endian), endian) = n for n < 2^size.", "quantifier": "every natural number, every width, every digit string, both endians", "why_tests_cant": "countBits is a doubling/halving search whose errors can appear at any power of two.", "anchors": ["hachoir/core/bits.py: countBits, long2bin, bin2long, byte2bin"]}
{"id": "C15", "title": "Alignment arithmetic", "statement": "For align > 0, alignValue(value, align) is the least multiple of align that is >= value and value + paddingSize(value, align) = alignValue(value, align), with 0 <= paddingSize < align; align = 0 raises ZeroDivisionError.", "quantifier": "all values and all alignments", "why_tests_cant": "Unbounded arithmetic domain.", "anchors": ["hachoir/core/tools.py: alignValue, paddingSize"]}
{"id": "C16", "title": "Binary searches are correct", "statement": "lowerBound(seq, test) returns the first index where the (monotone) test fails, or len(seq); binarySearch(seq, cmp) returns an index whose element compares equal whenever one exists in a sequence ordered for cmp, and None otherwise; both terminate and never index out of range.", "quantifier": "every sequence length, every monotone predicate, every consistent comparison", "why_tests_cant": "Termination and boundary conditions depend on every length/target position combination.", "anchors": ["hachoir/core/tools.py: lowerBound, binarySearch"]}
{"id": "C17", "title": "Printable text never contains control characters", "statement": "makePrintable(data, charset) for ASCII/ISO-8859-1/UTF-8 output contains no character in 0x00-0x1F or 0x7F, whatever the input bytes or text and in smart as well as raw mode; plain printable ASCII text passes through unchanged.", "quantifier": "every input byte string or text", "why_tests_cant": "Terminal injection needs one particular unescaped code point out of all inputs.", "anchors": ["hachoir/core/tools.py: makePrintable, makeUnicode, controlchars"]}
{"id": "C18", "title": "Ordered dictionary behaves like an ordered map with unique keys", "statement": "After any sequence of append, item assignment, replace with a key that is fresh, insert and delete on the field dictionary, lookups by key, lookups by index, index(), length, iteration over keys and over values all agree with one ordered list of key/value pairs without duplicate keys; rejected operations (duplicate key, bad index, missing key) leave it unchanged.", "quantifier": "every sequence of operations", "why_tests_cant": "Index tables get stale only after particular interleavings of inserts and deletes.", "anchors": ["hachoir/core/dict.py: Dict"]}
{"id": "C19", "title": "Fields of a field set tile its content", "statement": "At every moment while a field set is being read, its fields are contiguous: the first one starts at 0, each next one starts where the previous ends, and the amount consumed equals the sum of the field sizes.", "quantifier": "every generator of fields (names without explicit clashing numbers, any sizes, any errors), every access history anywhere in the tree", "why_tests_cant": "Histories of lazy accesses and error recoveries are unbounded.", "anchors": ["hachoir/field/generic_field_set.py: GenericFieldSet._addField, _fixFieldSize, _fixLastField, _stopFeeding"]}
{"id": "C20", "title": "A finished field set with a declared size covers it exactly", "statement": "When a field set that was given a size is completely read with automatic fixing on, its fields exactly cover [0, size): overlong content is cut with a raw field, missing content is filled with a raw field, and a parser exception in the middle still ends in full coverage; with automatic fixing off, under- or overrun is reported as ParserError.", "quantifier": "every declared size, every generator behaviour including failure at any point", "why_tests_cant": "Crash points inside the generator are arbitrary.", "anchors": ["hachoir/field/generic_field_set.py: _stopFeeding, _fixLastField, _fixFieldSize, _truncate"]}
{"id": "C21", "title": "Field names are unique inside a field set", "statement": "All fields of a field set have different names at all times; a name ending in [] gets the next free counter value of its prefix (x[0], x[1], ... in order of appearance); a name that is already in use gets the next number of its own (name[0], ...).", "quantifier": "every sequence of field names", "why_tests_cant": "Clashes between literal names like a[0] and generated ones depend on the whole history.", "anchors": ["hachoir/field/generic_field_set.py: setUniqueFieldName, _addField", "hachoir/core/dict.py: Dict.append"]}
{"id": "C22", "title": "Lazy access is independent of access order", "statement": "Asking for a field by name, by index, by iterating, by len() or by reading k more fields, in any order, always yields the same fields (names, addresses, sizes) as reading the whole field set at once: the sequence seen so far is always a prefix of the final one and a field once returned stays the same. The only exceptions are the fields created while reading ends: the access by name that triggers them reports MissingField once, and a first iteration may leave out the last such field.", "quantifier": "every generator and every interleaving of access operations", "why_tests_cant": "Access interleavings are unbounded.", "anchors": ["hachoir/field/generic_field_set.py: readFirstFields, readMoreFields, __iter__, __len__, _getField, getField"]}
{"id": "C23", "title": "Lookup by address finds the covering field", "statement": "getFieldByAddress(a) on a completely read field set returns the unique non-empty field whose bit range contains a, and no field when a lies outside the content.", "quantifier": "every tiling and every address", "why_tests_cant": "All addresses of all layouts.", "anchors": ["hachoir/field/generic_field_set.py: getFieldByAddress", "hachoir/core/tools.py: lowerBound"]}
{"id": "C24", "title": "Replacing or re-parsing fields preserves the layout", "statement": "Replacing a field by a list of fields, or writing newly discovered fields into an address range, keeps the field set contiguous and its total size and all other fields unchanged; a replacement whose sizes do not match or that hits an unaligned boundary is rejected without changing the layout.", "quantifier": "every layout, every replacement list, every address", "why_tests_cant": "All overlaps between new and old fields.", "anchors": ["hachoir/field/generic_field_set.py: replaceField, writeFieldsIn"]}
{"id": "C25", "title": "Paths identify fields", "statement": "root[field.path] is the field itself for every field of the tree; relative navigation ('..', '.') moves to the parent and stays; asking for a name that does not exist raises MissingField.", "quantifier": "every tree of uniquely named fields whose names contain no '/' and are not dots only", "why_tests_cant": "Trees are unbounded in depth and width.", "anchors": ["hachoir/field/field.py: Field.getField, Field._getField, Field.path", "hachoir/field/basic_field_set.py"]}
{"id": "C26", "title": "Gap computation is exact", "statement": "The gaps reported between already parsed blocks are in increasing order, non-empty, disjoint, inside the range, and cover exactly the positions of the range that no block covers.", "quantifier": "every range and every set of (overlapping, unordered, empty) blocks", "why_tests_cant": "Arbitrary overlap patterns.", "anchors": ["hachoir/field/seekable_field_set.py: getgaps"]}
{"id": "C27", "title": "Array view matches the numbered fields", "statement": "array(key) of a field set gives the field key[i] for every i and its length is the number n of fields key[0..n-1], whatever accesses were made before, including accesses to missing indices.", "quantifier": "every field set and every access history", "why_tests_cant": "The length is cached from previous (failed) accesses.", "anchors": ["hachoir/field/fake_array.py: FakeArray"]}
{"id": "C28", "title": "Saving an unmodified file reproduces it", "statement": "Writing an editable field tree to which no edit was made produces exactly the input bytes.", "quantifier": "every field tree over every byte-sized input, at every nesting depth", "why_tests_cant": "Trees with bit fields at all alignments.", "anchors": ["hachoir/editor/fieldset.py: EditableFieldSet.writeInto", "hachoir/editor/field.py: FakeField.writeInto", "hachoir/stream/output.py: copyBytesFrom, copyBitsFrom"]}
{"id": "C29", "title": "An edited tree is written as the edited sequence", "statement": "After any deletions, replacements and insertions, the written output is the concatenation of the contents of the fields in edited order; size equals the sum of the sizes and every field's address equals the sum of the sizes before it.", "quantifier": "every sequence of edits", "why_tests_cant": "Edit histories are unbounded.", "anchors": ["hachoir/editor/fieldset.py: EditableFieldSet"]}
{"id": "C30", "title": "Insertion puts new fields where asked", "statement": "insertAfter(name, fields...) places the fields in the given order directly after name, insertBefore directly before it, insert at the end, also when other insertions have been made before.", "quantifier": "every sequence of insertions", "why_tests_cant": "Order mistakes only show after repeated insertions around the same field.", "anchors": ["hachoir/editor/fieldset.py: EditableFieldSet._insert, insertAfter, insertBefore, insert"]}
{"id": "C31", "title": "Regex simplification preserves the language", "statement": "Building a regular expression with the & and | operators or through repetition, with all the simplifications applied by the library, gives an expression that matches exactly the strings of the concatenation, union or repetition of the operands.", "quantifier": "all expressions and all texts", "why_tests_cant": "Language equality over all strings.", "anchors": ["hachoir/regex/regex.py: Regex.__and__, Regex.__or__, RegexAnd, RegexOr, RegexRange, RegexRepeat, RegexString"]}
{"id": "C32", "title": "Pattern length bounds are sound", "statement": "Every text matched by an expression has a length between minLength() and maxLength() (no upper bound if None).", "quantifier": "all expressions and all matched texts", "why_tests_cant": "Languages are infinite.", "anchors": ["hachoir/regex/regex.py: minLength, maxLength"]}
{"id": "C33", "title": "Combining expressions does not modify the operands", "statement": "Computing a & b or a | b leaves a and b matching the same texts as before.", "quantifier": "all expressions and all sequences of combinations that share operands", "why_tests_cant": "Aliasing only shows when an operand is reused later.", "anchors": ["hachoir/regex/regex.py: RegexAnd._and"]}
{"id": "C34", "title": "Huffman tables are prefix codes and decode what was encoded", "statement": "For every list of code lengths whose Kraft sum does not exceed 1, the table built from it maps distinct codes to symbols, no code is a prefix of another, every symbol of non-zero length has a code of that length, and decoding the concatenated codes of any symbol sequence returns that sequence and consumes exactly its bits.", "quantifier": "all code length lists (any alphabet size) and all symbol sequences", "why_tests_cant": "Unbounded alphabets and messages.", "anchors": ["hachoir/parser/archive/zlib.py: build_tree, HuffmanCode", "hachoir/parser/archive/bzip2_parser.py", "hachoir/parser/archive/lzx.py"]}
{"id": "C35", "title": "LZ back-reference copying is exact", "statement": "extend_data(data, length, offset) appends the length bytes obtained by copying one byte at a time from offset bytes back (so overlapping copies repeat), for every length and every 1 <= offset <= len(data).", "quantifier": "all histories, lengths and offsets", "why_tests_cant": "Overlap patterns (length a multiple, non multiple, smaller than offset) at all sizes.", "anchors": ["hachoir/parser/archive/zlib.py: extend_data", "hachoir/parser/archive/lzx.py"]}
{"id": "C36", "title": "Inflating returns the compressed data", "statement": "For every byte string and every way to encode it as a sequence of DEFLATE blocks (stored, fixed or dynamic Huffman), the library's inflate returns the original bytes.", "quantifier": "all data and all valid encodings", "why_tests_cant": "The space of encodings of even one string is infinite.", "anchors": ["hachoir/parser/archive/zlib.py: DeflateBlock, zlib_inflate, Deflate"]}
{"id": "C37", "title": "Metadata values stay free of duplicates and truncations", "statement": "After adding any sequence of values under a metadata key, the stored values are pairwise different, contain no empty text, no text that is a prefix of another, and respect the key's type and filter.", "quantifier": "all sequences of added values", "why_tests_cant": "Depends on the whole history of additions.", "anchors": ["hachoir/metadata/metadata_item.py: Data.add", "hachoir/metadata/filter.py"]}
{"id": "C38", "title": "Metadata export is ordered and filtered by priority", "statement": "exportPlaintext(priority) lists exactly the non-empty items whose priority does not exceed the (clamped) limit, in order of increasing priority, one line per value, and returns nothing when there is none.", "quantifier": "all metadata contents and limits", "why_tests_cant": "All combinations of contents.", "anchors": ["hachoir/metadata/metadata.py: Metadata.exportPlaintext, __iter__"]}
{"id": "C39", "title": "Parser guessing returns the first validating parser", "statement": "The parser returned for a stream is the first in candidate order that accepts the stream; candidates are ordered by the given tags and each is tried at most once; failures of one candidate (exceptions included) never prevent the next ones from being tried.", "quantifier": "all parser lists, tags and validation outcomes", "why_tests_cant": "All subsets of matching/failing parsers.", "anchors": ["hachoir/parser/guess.py: QueryParser"]}
{"id": "C40", "title": "Carving finds every signature", "statement": "Scanning a file for embedded files reports every occurrence of every registered signature that starts inside the scanned range, wherever it lies relative to the internal slices, and terminates.", "quantifier": "all file contents, sizes, offsets and signature sets", "why_tests_cant": "A signature that straddles a slice boundary is a measure-zero event for tests.", "anchors": ["hachoir/subfile/search.py: SearchSubfile.main, findMagic", "hachoir/subfile/pattern.py"]}
{"id": "C41", "title": "Decompressing sub-streams deliver the decompressed bytes in order", "statement": "Successive read(n) calls on a compressed sub-stream deliver consecutive parts of the decompressor's total output, each of exactly n bytes until the output ends, independently of how the compressed input is chunked.", "quantifier": "all decompressors, inputs and read sizes", "why_tests_cant": "All chunkings.", "anchors": ["hachoir/field/sub_file.py: CompressedStream"]}
{"id": "C42", "title": "Terminated strings stop at the first terminator", "statement": "A C string or line field consists of the text up to and including the first terminator: its content contains no terminator character and the size is content plus terminator; a missing terminator is an error.", "quantifier": "all stream contents, all charsets and addresses", "why_tests_cant": "Terminators can straddle characters in multi-byte charsets.", "anchors": ["hachoir/field/string_field.py: GenericString"]}
{"id": "C43", "title": "Concatenated and fragmented streams read like one stream", "statement": "A stream made of fragments (or of two streams) reads, at every address and size, as the concatenation of the pieces, also when the fragment list is discovered lazily.", "quantifier": "all lists of fragments, all reads in any order", "why_tests_cant": "Reads crossing any number of fragment boundaries in any order.", "anchors": ["hachoir/stream/input.py: FragmentedStream, ConcatStream"]}
{"id": "C44", "title": "File view of a stream behaves like a file", "statement": "The file object of a stream obeys the file protocol: after any sequence of seek/read/tell, tell is the position and read(n) returns the next min(n, remaining) bytes.", "quantifier": "all sequences of seek/read", "why_tests_cant": "Histories.", "anchors": ["hachoir/stream/input.py: FileFromInputStream"]}
{"id": "C45", "title": "Timestamps convert exactly", "statement": "UNIX, Mac, UUID and MS-DOS timestamps convert to the calendar date and time they denote; out of range values are rejected, never wrapped to another date.", "quantifier": "all timestamp values", "why_tests_cant": "Leap years and range ends over the whole range.", "anchors": ["hachoir/core/tools.py: timestampUNIX, timestampMac32, timestampUUID60", "hachoir/field/timestamp.py"]}
{"id": "C46", "title": "Copying between streams is exact", "statement": "Copying n bits (or bytes) from an input stream to an output stream appends exactly these bits to the output, whatever the alignment on both sides; a range that leaves the input is refused.", "quantifier": "all contents, addresses, lengths, alignments and both byte orders", "why_tests_cant": "Buffered copy loop over all lengths; unaligned copies depend on the bits already pending in the output.", "anchors": ["hachoir/stream/output.py: OutputStream.copyBitsFrom, copyBytesFrom"]}
{"id": "C47", "title": "Every bit of the file belongs to exactly one leaf", "statement": "When a file is read completely, every bit of it belongs to exactly one leaf field, counted with absolute addresses through all nesting; while reading goes on no bit belongs to two leaves and no leaf reaches behind the end of the file or of the field set holding it.", "quantifier": "all parsers (any fields, sizes, nesting, errors), all orders of access", "why_tests_cant": "Trees are unbounded; absolute addresses are sums over all ancestors.", "anchors": ["hachoir/field/field.py: Field.absolute_address", "hachoir/field/generic_field_set.py"]}
{"id": "C48", "title": "The text of an expression is read back", "statement": "parse(escapeRegex(text)) is the expression for exactly that text, for every text; the printed form of a character range is parsed as a range of the same characters; the parser returns or raises an error for every text.", "quantifier": "all texts, all ranges", "why_tests_cant": "Unbounded texts with special characters anywhere.", "anchors": ["hachoir/regex/parser.py: parse, _parse, parseRange, parseOr", "hachoir/regex/regex.py: escapeRegex, RegexRange._str"]}
{"id": "C49", "title": "Searching many patterns at once finds exactly these patterns", "statement": "The merged expression of a PatternMatching matches exactly the texts added with addString (and what the added expressions match); getPattern returns the user data given with the text that was matched; no match is longer than max_length.", "quantifier": "all lists of patterns, all texts", "why_tests_cant": "The merge rewrites prefixes and ranges across any number of patterns.", "anchors": ["hachoir/regex/pattern.py: PatternMatching"]}
{"id": "C50", "title": "Announced, truncated and stripped strings", "statement": "A string field of fixed size or with a length in front holds exactly the announced bytes behind the prefix and has the size prefix plus content; a truncation pattern cuts the text at its first occurrence, stripping removes exactly the given characters at both ends.", "quantifier": "all stream contents, addresses, lengths, patterns and character sets", "why_tests_cant": "All lengths and texts; off-by-one errors at the prefix only show in the field that follows.", "anchors": ["hachoir/field/string_field.py: GenericString.__init__, createValue"]}
{"id": "C51", "title": "Newline normalisation keeps the lines", "statement": "normalizeNewline returns a text with the same non-empty lines in the same order, without carriage returns and without blank lines in between; it begins (ends) with a newline exactly when the text begins (ends) with a line break, and a text that is already normal is unchanged.", "quantifier": "all texts with any mixture of CR, LF and CRLF", "why_tests_cant": "Every mixture of the three conventions in any number and order.", "anchors": ["hachoir/core/tools.py: normalizeNewline"]}
{"id": "C52", "title": "The metadata dictionary agrees with the plain text", "statement": "exportDictionary has exactly one entry for each key that exportPlaintext shows under the same priority limit, in the same order, with the same names and values.", "quantifier": "all metadata states reachable by setting keys, all priority limits", "why_tests_cant": "All states and all collisions of names.", "anchors": ["hachoir/metadata/metadata.py: Metadata.exportDictionary, exportPlaintext"]}
{"id": "C53", "title": "Metadata groups are all kept, numbered in order", "statement": "Groups added with 'name[]' are called name[1], name[2], ... in the order they were added, groups without any value are left out, no other group is lost, and both exports show the groups in that order.", "quantifier": "all histories of addGroup", "why_tests_cant": "All interleavings of numbered, named and empty groups.", "anchors": ["hachoir/metadata/metadata.py: MultipleMetadata.addGroup, exportPlaintext, exportDictionary"]}
{"id": "C54", "title": "Base-128 integers are read exactly", "statement": "A variable-length integer field of 7-bit groups (MIDI, CHM, ASN.1 OID, MP4 descriptor, SWF, mapsforge, git, ID3) has exactly the value its groups denote and covers exactly its bytes; every number the format can hold is read back from its encoding; a number with more groups than allowed is refused, an unfinished one reports the end of the data, and a field of a stated width holds only numbers of that width.", "quantifier": "all stream contents, all start addresses, all numbers", "why_tests_cant": "Numbers of any number of groups anywhere in the data; a size wrong by one byte only shows in the fields behind.", "anchors": ["hachoir/parser/audio/midi.py: Integer", "hachoir/parser/misc/chm.py: CWord", "hachoir/parser/container/asn1.py: OID_Integer", "hachoir/parser/container/mp4.py: InstanceLength", "hachoir/parser/container/action_script.py: FlashPackedInteger", "hachoir/parser/misc/mapsforge_map.py: UIntVbe, IntVbe", "hachoir/parser/misc/git_pack.py: VarLengthInt, TypeAndSize", "hachoir/parser/audio/id3.py: ID3_Size"]}
{"id": "C55", "title": "Integers whose first byte announces their length", "statement": "7z, Matroska and ASN.1 numbers have exactly the value their announced bytes denote and cover exactly these bytes; Matroska's all-ones means unknown and its signed numbers carry the documented offset; Xiph lacing reads every number back and divides a lacing table without gap and without rest.", "quantifier": "all stream contents, all start addresses, all numbers and tables", "why_tests_cant": "All lengths and contents; a wrong size shifts every later field.", "anchors": ["hachoir/parser/archive/sevenzip.py: SZUInt64", "hachoir/parser/container/mkv.py: RawInt, Unsigned, Signed", "hachoir/parser/container/asn1.py: ASNInteger", "hachoir/parser/container/ogg.py: XiphInt, Lacing"]}
{"id": "C56", "title": "Git deltas are divided into git's instructions", "statement": "The delta parser divides every delta into exactly the instructions git executes: same kinds, same extents, same inserted bytes, same copy offsets and sizes.", "quantifier": "all lists of instructions", "why_tests_cant": "Any number of instructions with any of the 128 combinations of operand bytes.", "anchors": ["hachoir/parser/misc/git_pack.py: DeltaInstruction, ObjOfsDeltaParser"]}
{"id": "C57", "title": "A stream of an OLE2 file is its chain of blocks", "statement": "Following a block chain always ends, never yields a block twice, and reports a loop or a reserved value as an error; the fragments made of a chain are its maximal runs of consecutive blocks in order; the joined data of a stream are exactly the contents of its blocks in chain order, and each stream is read either as a big or as a small stream, never as both.", "quantifier": "all allocation tables (well formed or not), all start blocks, all file contents and sector sizes", "why_tests_cant": "Loops and jumps of any length in tables of any size.", "anchors": ["hachoir/parser/misc/ole2.py: OLE2_File.getChain, parseProperty, seekBlock", "hachoir/parser/misc/msoffice.py: RootEntry.parseProperty", "hachoir/field/fragment.py: FragmentGroup.createInputStream"]}
{"id": "C58", "title": "Bencoded values are read as themselves", "statement": "Every bencoded value (integers, strings, lists, dictionaries nested to any depth) within the documented limits is read with exactly its value and covers exactly its bytes, wherever it stands in the data.", "quantifier": "all bencoded values, all surrounding data", "why_tests_cant": "Unbounded nesting; delimiters may occur inside strings.", "anchors": ["hachoir/parser/misc/torrent.py: Entry, Integer, TorrentString, List, Dictionary, DictionaryItem"]}
{"id": "C59", "title": "The LZW codes of a GIF image are the codes that were sent", "statement": "For a picture compressed by any GIF LZW encoder (any cut of the pixels into phrases, any clear codes), the fields code[] of the image data have the sizes and values of the codes sent, each is described by the pixels it stands for, the concatenated descriptions are the pixels of the picture, the last 'Current Decoded Length' is their number and the fields stop right behind the end code.", "quantifier": "all pixel sequences, all ways to cut them into phrases and segments, all minimum code sizes from 2 bits, all data behind the end code", "why_tests_cant": "The code size changes with the history and each code may refer to any earlier one, including the one being defined; a slip desynchronises everything behind it.", "anchors": ["hachoir/parser/image/gif.py: GifImageBlock.createFields"]}
{"id": "C60", "title": "Run-length text evaluates back to the list", "statement": "rle_repr(chain) is a Python expression (a sum of list displays and repeated displays) whose value is chain, for every list of numbers; hence different lists are described by different texts.", "quantifier": "all lists of non-negative integers", "why_tests_cant": "Runs and single items of any length in any order; merging of items depends on the text made so far.", "anchors": ["hachoir/parser/image/gif.py: rle_repr"]}
{"id": "C61", "title": "Durations are told by their largest units", "statement": "humanDuration writes at most three counts with their units: no zero counts, decreasing units, no count that reaches the next larger unit; what the text leaves out is less than the smallest unit written, or less than a millisecond when there are fewer than three counts.", "quantifier": "all durations in microseconds or milliseconds", "why_tests_cant": "All durations; carries between units show only at particular values.", "anchors": ["hachoir/core/tools.py: humanDuration"]}
{"id": "C62", "title": "Sizes and frequencies are told within half a tenth", "statement": "humanFilesize, humanBitSize, humanBitRate and humanFrequency write small numbers exactly and larger ones in the first unit where they are below 1024 (1000), within half a tenth of the true quotient up to one part in 2^50 although floats are divided repeatedly; file sizes below 1024 TB are rounded exactly.", "quantifier": "all non-negative integers", "why_tests_cant": "Rounding errors of repeated float divisions for every number.", "anchors": ["hachoir/core/tools.py: humanFilesize, humanBitSize, humanBitRate, humanFrequency"]}
{"id": "C63", "title": "Hexadecimal numbers have the width of their field", "statement": "hexadecimal shows a field of n bits as 0x and n/4 (rounded up) lower case digits that read back as the value, so different values of a field look different.", "quantifier": "all sizes, all values of that size", "why_tests_cant": "All sizes, also those that are not multiples of four.", "anchors": ["hachoir/core/text_handler.py: hexadecimal", "hachoir/core/tools.py: alignValue"]}
{"id": "C64", "title": "Unix modes are shown as ls -l does", "statement": "humanUnixAttributes gives the ten letters of ls -l (kind of file, rights, set-uid, set-gid and sticky bits) and the mode in octal; different modes look different.", "quantifier": "all modes", "why_tests_cant": "Sixteen bits and more that interact in three of the letters.", "anchors": ["hachoir/core/tools.py: humanUnixAttributes, _ftypelet"]}
{"id": "C65", "title": "Padding is called null only when it is", "statement": "A padding field reports its pattern exactly if its content is the pattern repeated, and null bytes or bits are shown as <null> exactly if all their bits are zero.", "quantifier": "all stream contents, addresses, sizes and patterns", "why_tests_cant": "All contents; a single bit anywhere in the field counts.", "anchors": ["hachoir/field/padding.py: PaddingBytes.checkPattern, PaddingBits.checkPattern, NullBytes, NullBits"]}
{"id": "C66", "title": "Dates written with digits are read as they say", "statement": "parseDatetime reads a text as a numeric date exactly if, white space around aside, it consists of the fields of one of the four forms (year; year, month, day; the same with a time; month first with a time) with any separators, and the date exists; it then returns the date the fields denote. What humanDatetime writes is read back as the same time.", "quantifier": "all texts, all dates and times from year 1 to 9999", "why_tests_cant": "All texts and separators, all days of the calendar.", "anchors": ["hachoir/metadata/setter.py: parseDatetime", "hachoir/core/tools.py: humanDatetime"]}
{"id": "C67", "title": "LZX data comes out as it went in", "statement": "lzx_decompress of a file of LZX blocks (verbatim, aligned offset and stored ones, in any order, with any code lengths, matches and repeated distances, across frames and up to the window size) returns exactly the bytes the blocks stand for when no jumps are translated; with a translation the number of bytes is the same.", "quantifier": "all window sizes of 15 to 21 bits, all sequences of blocks and all their encodings", "why_tests_cant": "The state (window, three recent distances, code lengths sent as differences, alignment at frames) is carried through all blocks; any sequence of them is possible.", "anchors": ["hachoir/parser/archive/lzx.py: lzx_decompress, LZXStream, LZXBlock, LZXPreTreeEncodedTree"]}
{"id": "C68", "title": "Translated jumps of LZX data come back", "statement": "When the header of an LZX file gives a file size, the targets of E8 instructions, made absolute by the compressor frame by frame, are made relative again: the output is the original data whatever the cuts into blocks.", "quantifier": "all data below 2 GiB, all file sizes, all cuts into blocks", "why_tests_cant": "Instructions anywhere relative to the ends of frames and blocks, operands that look like instructions.", "anchors": ["hachoir/parser/archive/lzx.py: LZXBlock.createFields (Intel jump fixups)"]}
{"id": "C69", "title": "The charset guessed for bytes fits them", "statement": "guessBytesCharset answers ASCII exactly for bytes below 128, UTF-8 exactly for texts in UTF-8 that are not ASCII (or behind the mark of UTF-8), UTF-16 exactly behind its marks, and otherwise the first of ISO-8859-1, ISO-8859-15, MacRoman, ISO-8859-7 whose characters cover the bytes, else the default. Without a byte order mark the bytes can be decoded with the charset that was guessed.", "quantifier": "all byte strings, all defaults", "why_tests_cant": "All byte strings; overlong forms, surrogates and cut sequences anywhere in them decide.", "anchors": ["hachoir/core/i18n.py: guessBytesCharset, UTF_BOMS, CHARSET_CHARACTERS"]}
{"id": "C70", "title": "String fields convert bytes to the text they encode", "statement": "The value of a string field is the text whose encoding its bytes are: for UTF-8 whether the charset is given or guessed, for UTF-16 also when the last zero byte is missing; bytes that are no text in the charset of the field are read as ISO-8859-1, so the conversion never fails.", "quantifier": "all texts and all byte strings", "why_tests_cant": "All texts with characters of one to four bytes or surrogate pairs, all invalid byte strings.", "anchors": ["hachoir/field/string_field.py: GenericString._convertText", "hachoir/core/i18n.py: guessBytesCharset"]}
{"id": "C71", "title": "A stripped RIFF file is a RIFF file", "statement": "Stripping a RIFF file (AVI, WAVE) whose size fields are right removes exactly the chosen chunks (metadata, index, sample count, JUNK, at any depth of lists but not in the movie), changes nothing else, and leaves all size fields right: of every list and of the file. The number of bits that is returned is what the file lost. When the index is stripped the flag that announces it is cleared.", "quantifier": "all RIFF trees with right size fields, all levels", "why_tests_cant": "All trees of chunks: sizes of nested lists, odd sizes with padding, trailing bytes.", "anchors": ["hachoir/strip.py: RiffStripper.strip, RiffStripper.stripSub, BasicStripper.removeFields"]}
{"id": "C72", "title": "The other strippers remove what they name, and only that", "statement": "Stripping metadata from PNG, JPEG, MPEG audio and AU files removes exactly the fields of the named kinds, keeps all others in order, and returns the number of bits removed; the offset of the audio data of an AU file is still right afterwards; without metadata or without the level the file is left as it is.", "quantifier": "all field lists, all levels", "why_tests_cant": "All numbers and orders of fields, all field names.", "anchors": ["hachoir/strip.py: CheckStripper.strip, PngStripper, JpegStripper, MpegAudioStripper, AuStripper, TarStripper"]}
{"id": "C73", "title": "Blocks of bzip2 archives are read as they were written", "statement": "A block written by any bzip2 compressor is read with its checksum, pointer, alphabet and selectors, the descriptions of its Huffman codes spell out exactly the text of the block (runs undone, move-to-front undone), and the block ends exactly behind its last bit. For any stream: the end of a block is told once and last, only symbols of the alphabet are named, every selector names a table.", "quantifier": "all blocks: all alphabets, all code length tables and ways to write them, all selectors, all texts; all streams", "why_tests_cant": "All texts, run lengths, tables and changes of table every 50 codes; a test file shows one combination.", "anchors": ["hachoir/parser/archive/bzip2_parser.py: Bzip2Block, Bzip2Selectors, Bzip2Lengths, ZeroTerminatedNumber, move_to_front", "hachoir/parser/archive/zlib.py: HuffmanCode, build_tree"]}
{"id": "C74", "title": "Files of bzip2 blocks are read to the end", "statement": "A bzip2 file of any number of blocks is read block by block, in order, with the checksum of the file, and the last field ends at the byte behind the end of the stream.", "quantifier": "all lists of valid blocks, all checksums", "why_tests_cant": "Any number of blocks, none of which starts at a byte boundary.", "anchors": ["hachoir/parser/archive/bzip2_parser.py: Bzip2Stream, Bzip2Parser"]}
{"id": "C75", "title": "Seeking forward makes exactly the missing padding", "statement": "seekBit and seekByte refuse to go back, make no field when the field set is at the address already, and otherwise a padding field that ends exactly at the address (bytes when the distance is a multiple of eight, null padding when asked for), so that the next field starts there.", "quantifier": "all addresses, relative and absolute, all states of the field set with enough room", "why_tests_cant": "Unbounded addresses and states.", "anchors": ["hachoir/field/generic_field_set.py: GenericFieldSet.seekBit, seekByte", "hachoir/field/helper.py: createPaddingField, createNullField"]}
{"id": "C76", "title": "Seekable field sets keep their fields and have no holes", "statement": "A seekable field set whose parser moves to and fro and yields fields inside it has, when it is finished, every one of these fields at the address where it was yielded, the size it was given (or the size its fields need), and unparsed fields in exactly the holes. Whatever the parser does, a field set that is finished without an exception has no bit outside its fields.", "quantifier": "all sequences of seeks, fields, field sets and exceptions, with and without a known size", "why_tests_cant": "Orders and overlaps of fields and wrong offsets are unbounded.", "anchors": ["hachoir/field/seekable_field_set.py: RootSeekableFieldSet.seekBit, seekByte, _fixLastField, _stopFeeding", "hachoir/field/generic_field_set.py: GenericFieldSet._addField, _fixFieldSize, _deleteField"]}
{"id": "C77", "title": "NTFS run lists", "statement": "The fields of a run list tell where each run of a non-resident attribute lies: its value is the list of the lengths and first clusters of the runs (the relative offsets summed up), in their order, and it ends with the end mark.", "quantifier": "all lists of runs, all widths of the stored numbers, any bytes behind the end mark", "why_tests_cant": "Runs, widths of the numbers and signs combine without bound.", "anchors": ["hachoir/parser/file_system/ntfs.py: RunListEntry.createFields, createValue, RunList.createFields, createValue"]}
{"id": "C78", "title": "ASN.1 objects are read as they were encoded", "statement": "Reading the distinguished encoding of a tree of ASN.1 objects gives back the tree: class, form and tag of every object, the contents of every leaf and the nesting, and exactly the bytes of the object are used.", "quantifier": "all trees, all lengths in short and long form, any bytes around", "why_tests_cant": "Trees are unbounded in depth and width; lengths have unboundedly many encodings.", "anchors": ["hachoir/parser/container/asn1.py: Object.createFields, ASNInteger, OID_Integer, readSequence, readSet, readObjectID, readBitString, readOctetString"]}
{"id": "C79", "title": "ASN.1 object identifiers are described by their dotted text", "statement": "The description of an object identifier is the numbers of the identifier in decimal, joined with dots; the first two numbers are taken apart from their common first number.", "quantifier": "all identifiers with numbers below 2^56", "why_tests_cant": "Unboundedly many identifiers.", "anchors": ["hachoir/parser/container/asn1.py: formatObjectID, formatFirstObjectID, readObjectID, OID_Integer"]}
{"id": "C80", "title": "ASN.1 times are described as the time they tell", "statement": "The description of a UTC time is the time it tells, with the years 50 to 99 in the 20th and 00 to 49 in the 21st century.", "quantifier": "all valid times from 1950 to 2049, all forms", "why_tests_cant": "All dates and times, several forms.", "anchors": ["hachoir/parser/container/asn1.py: formatUTCTime"]}
{"id": "C81", "title": "Events call exactly the handlers connected to them", "statement": "Raising an event of a field set calls the handlers connected to this event of this field set, then the handlers connected to the event for the whole tree, each once per connection and in the order of connection, and no other handler; connecting to an event that does not exist is refused and changes nothing.", "quantifier": "all programs that connect handlers and raise events on the field sets of a tree", "why_tests_cant": "Orders of connections and raises over many field sets are unbounded.", "anchors": ["hachoir/core/event_handler.py: EventHandler", "hachoir/field/basic_field_set.py: BasicFieldSet.connectEvent, raiseEvent, _event_handler, _global_event_handler"]}
{"id": "C82", "title": "Static field sets have the size of their fields", "statement": "Every instance of a static field set has the sum of the sizes of the fields of its format as its size, whatever other classes were instantiated before; a generic vector of n such items has n times the size of an item.", "quantifier": "all tables of classes (formats, derivation, nesting) and all orders of instantiation", "why_tests_cant": "The size is kept in the class: the outcome depends on the history of all instances in the process.", "anchors": ["hachoir/field/static_field_set.py: StaticFieldSet.__new__, _computeItemSize, createFields", "hachoir/field/vector.py: GenericVector.__init__"]}
{"id": "C83", "title": "Network addresses are shown as they are written", "statement": "An IPv4 address is shown as its four bytes in decimal joined by dots, a MAC address as two hexadecimal digits per byte joined by colons, and an IPv6 address in network order as eight groups of four hexadecimal digits.", "quantifier": "all addresses at all places of all inputs", "why_tests_cant": "2^32, 2^48 and 2^128 addresses.", "anchors": ["hachoir/parser/network/common.py: IPv4_Address.createDisplay, IPv6_Address.createDisplay, MAC48_Address.createDisplay"]}
{"id": "C84", "title": "GUIDs are shown as they are written", "statement": "A GUID stored in little endian is shown in the form used by registries (8-4-4-4-12 digits), different GUIDs have different texts, and its fields are those of RFC 4122 (version, variant).", "quantifier": "all 16 bytes at all places of all inputs", "why_tests_cant": "2^128 GUIDs.", "anchors": ["hachoir/parser/common/win32.py: GUID.createFields, createValue"]}
{"id": "C85", "title": "Directories of EXIF and TIFF files are read with their values", "statement": "The entries of an image file directory are read with tag, type and value: values of up to four bytes from the entry, larger ones from the offset told in the entry, in the byte order of the file, signed and rational types included, and the offset of the next directory.", "quantifier": "all directories (numbers, types, counts and offsets of entries) in all inputs, both byte orders", "why_tests_cant": "Types, counts, places and byte orders combine without bound.", "anchors": ["hachoir/parser/image/exif.py: BasicIFDEntry.createFields, IFD.createFields, getEntryValues, ValueArray, rationalFactory", "hachoir/field/seekable_field_set.py: seekBit, seekByte"]}
{"id": "C86", "title": "All directories of a TIFF file are found, and the search ends", "statement": "The parser finds exactly the directories that can be reached from the first one by the links to the next directory and the pointers to EXIF, GPS, interoperability and sub-image directories, and comes to an end on every file.", "quantifier": "all files, all graphs of links between directories", "why_tests_cant": "Graphs of links are unbounded; that a search ends cannot be tested.", "anchors": ["hachoir/parser/image/exif.py: TIFF, IFD_TAGS"]}
{"id": "C87", "title": "Floating point fields show the number that is stored", "statement": "The sign, exponent and mantissa of a floating point field are those of the stored IEEE 754 number and make up its value; an 80 bit number (sample rates of AIFF files) has the stored value, exactly if it fits into a Python float and rounded otherwise; integers below 2^53 read as themselves; numbers out of range raise ValueError.", "quantifier": "all bytes at all byte addresses, all sizes of exponent and fraction, all numbers", "why_tests_cant": "There are 2^80 numbers; rounding errors are a statement about all of them.", "anchors": ["hachoir/field/float.py: FloatMantissa, FloatExponent, floatFactory, Float32, Float64, Float80", "hachoir/parser/audio/aiff.py: Common"]}
{"id": "C88", "title": "Descriptors of Java classes are shown as Java declarations", "statement": "The descriptor of a field or method is shown as the declaration it stands for: types with their arrays and class names with dots, parameters in order, the result first; texts that are no descriptors raise an error, and the parser always ends.", "quantifier": "all types, parameter lists and names; all texts for the rejection", "why_tests_cant": "Types nest without bound; rejection is a statement about all texts.", "anchors": ["hachoir/parser/program/java.py: eat_descriptor, parse_field_descriptor, parse_method_descriptor, parse_any_descriptor"]}
{"id": "C89", "title": "Constants of Java classes have their numbers and texts", "statement": "The entries of the constant pool of a Java class are read with their values under the numbers of the specification (long and double take two), an index is resolved exactly if a constant of an expected type has this number, and the text of a constant is the declaration or literal it stands for with all references followed.", "quantifier": "all pools of all constants, all indexes", "why_tests_cant": "Pools are sequences of any length with references between any entries.", "anchors": ["hachoir/parser/program/java.py: ConstantPool.createFields, CPInfo, CPIndexBase._get_cp_entry"]}
{"id": "C90", "title": "Code of Java methods is read as its instructions", "statement": "The code of a method is read as the instructions that are stored: names, offsets, operands with sign, instructions with the wide prefix, and switches with their padding and tables.", "quantifier": "all sequences of instructions of the Java virtual machine at all addresses", "why_tests_cant": "Switches have any length and their padding depends on everything before; sequences are unbounded.", "anchors": ["hachoir/parser/program/java.py: JavaBytecode, JavaOpcode and its subclasses", "hachoir/core/tools.py: paddingSize"]}
{"id": "C91", "title": "Partitions are found where the partition table puts them", "statement": "The fields of a disk image with a master boot record are the boot record, one field for every used entry of the table at the sector and of the size given by the entry, and padding, without holes; if partitions overlap or leave the disk there is an error. Head, sector and cylinder are shown as stored. Partitions inside of extended partitions are found by their path.", "quantifier": "all boot sectors with all values of the entries, all disk sizes, all paths", "why_tests_cant": "The order and the gaps depend on all entries together, and tables nest without bound.", "anchors": ["hachoir/parser/file_system/mbr.py: CylinderNumber, PartitionHeader, MasterBootRecord, Partition.createFields, MSDos_HardDrive.validate"]}
{"id": "C92", "title": "Frames of MPEG audio are found with their sizes", "statement": "The size of a frame is the one of the standards for all versions, layers, rates and paddings; the search for the first frame returns the first place with a valid header; a file of frames with other bytes in front is read as padding and exactly these frames, of which the last may be cut.", "quantifier": "all headers, all bytes before the frames, all sequences of frames", "why_tests_cant": "Each place depends on all frames before; the search is about all bytes of the file.", "anchors": ["hachoir/parser/audio/mpeg_audio.py: Frame.getFrameSize, Frame.isValid, findSynchronizeBits, Frames.createFields"]}
{"id": "C93", "title": "Atoms of MP4 files are found with tags, places and nesting", "statement": "A file of atoms is read as these atoms: tag, address, size of header and content, with sizes of four bytes, of eight bytes or up to the end, GUIDs of uuid atoms, and the atoms inside of atoms to any depth.", "quantifier": "all trees of atoms, all forms of headers, all contents", "why_tests_cant": "Atoms nest without bound and the place of each depends on all before it.", "anchors": ["hachoir/parser/container/mp4.py: Atom.createFields, AtomList.createFields, MP4File.createFields"]}
{"id": "C94", "title": "JPEG files are divided into chunks and image data", "statement": "The fields of a JPEG file are its markers, its segments with the sizes given in them, and behind scans and restart markers the image data up to the next marker, where FF 00 is data, or up to the end of the file.", "quantifier": "all sequences of markers and segments with all contents, all entropy coded data, files up to 100 MiB", "why_tests_cant": "The end of the image data is searched in bytes of any kind and length, and each place depends on all before it.", "anchors": ["hachoir/parser/image/jpeg.py: JpegChunk, JpegImageData.__init__, JpegFile.createFields"]}
{"id": "C95", "title": "Huffman coded blocks of JPEG files have the coefficients of the standard", "statement": "Huffman tables are the canonical codes for their counts and values. A code is read with the byte 00 behind FF left out. A block gives the DC difference and the AC coefficients with the runs of zeros, and its end.", "quantifier": "all tables, all places of codes in the data, all blocks", "why_tests_cant": "Codes, extra bits and stuffed bytes can meet in any way; what is read depends on all bits before.", "anchors": ["hachoir/parser/image/jpeg.py: HuffmanTable, HuffmanCode, JpegHuffmanImageUnit"]}
{"id": "C96", "title": "Elements and blocks of Matroska files", "statement": "A Matroska file is read as the tree of its elements: identifiers and sizes of variable length, masters with their children, elements of unknown size up to the end of their parent; a block gives the frames of its lace with Xiph, EBML or fixed sizes.", "quantifier": "all trees of elements of the schema, all lengths of identifiers and sizes, all laces with at least two frames, all places in the file", "why_tests_cant": "Sizes are nested and of variable length; each place depends on all sizes before it, and the sizes of frames on the differences before.", "anchors": ["hachoir/parser/container/mkv.py: EBML, MkvFile.createFields, Lace, Block"]}
{"id": "C97", "title": "Allocation tables and dates of FAT file systems", "statement": "The entries of a FAT12, FAT16 or FAT32 table are read as written, and each is described as free, reserved, bad, the end of a chain or the next cluster. The dates of directory entries are shown as the calendar day and time they stand for, and days that do not exist as invalid. The clusters of a file are those its chain gives.", "quantifier": "all tables of any length, all entries, all calendar days from 1980 to 2107 and all times of day", "why_tests_cant": "Two entries of 12 bits share three bytes at any place of the table; dates are valid or not by the calendar; tests show a few.", "anchors": ["hachoir/parser/file_system/fat.py: FAT, Date, FAT_FS.clusters"]}
{"id": "C98", "title": "Pages, streams and packets of Ogg files", "statement": "The pages of an Ogg file are read with their header and the parts of packets that their table of segments gives, also when the last part goes on in the next page. A stream is the pages with its serial number up to its last page, and its packets are the parts put together.", "quantifier": "all pages with all tables of segments and contents, all sequences of pages, all places in the file", "why_tests_cant": "Sizes are sums of bytes of 255 that can be cut by the end of a page at any place; streams can be mixed in any order.", "anchors": ["hachoir/parser/container/ogg.py: Lacing, OggPage, Segments, Packets, OggFile.createFields"]}
{"id": "C99", "title": "Chunks, header and time of PNG pictures", "statement": "A PNG file is read as its chunks, each with its tag, content and checksum, up to the end of the file. The header gives the size, depth and kind of the picture, a time the calendar day and time of day, and the metadata the number of bits per pixel, the format and the number of colours. The size of the content is the end of the last chunk.", "quantifier": "all sequences of chunks of any sizes and contents, all headers, all calendar days, all files", "why_tests_cant": "Each chunk begins where the sizes before it say; contents are any bytes, also those of the mark of the end; depth and kind of picture give many combinations.", "anchors": ["hachoir/parser/image/png.py: Chunk, headerParse, getBitsPerPixel, timestampParse, PngFile.createFields, PngFile.createContentSize", "hachoir/metadata/image.py: PngMetadata.useHeader"]}
{"id": "C100", "title": "Files of tar archives", "statement": "An archive is read as its files: the columns of each header without the blanks around them, the size as the octal number written, the content of that size and the rest of the last block, up to the first block of zeros or the end. The content size of the archive is the end of that block. An archive with a known mark and octal numbers is accepted.", "quantifier": "all lists of files with all names, numbers and contents, all paddings of columns, whatever comes behind the end", "why_tests_cant": "Each header is found only by the octal sizes of all files before; columns can be padded in many ways.", "anchors": ["hachoir/parser/archive/tar.py: FileEntry.createFields, FileEntry.octal2int, FileEntry.createDescription, TarFile.createFields, TarFile.validate, TarFile.createContentSize", "hachoir/metadata/archive.py: TarMetadata.extractFile"]}
{"id": "C101", "title": "Records of ZIP archives", "statement": "An archive is read as its records: files with name, flags, sizes, extra fields, content and descriptor, entries of the directory, the end of the directory with the comment, signature and locator, each found at its place, whatever lies between and behind them. A file without any record is refused. The content of a file is found also if the archive was written to a pipe and the sizes follow the content, and the content size of an archive is the end of its last record.", "quantifier": "all lists of records with all names, numbers and contents, everything without marks between and behind them", "why_tests_cant": "Each record is found only by the lengths of those before; what is between records is searched byte by byte.", "anchors": ["hachoir/parser/archive/zip.py: ZipStartCommonFields, ZipGeneralFlags, FileEntry.createFields, FileEntry.resync, ExtraFields.createFields, ZipCentralDirectory.createFields, ZipEndCentralDirectory.createFields, Zip64EndCentralDirectory.createFields, Zip64EndCentralDirectoryLocator.createFields, ZipFile.createFields, ZipFile.createContentSize", "hachoir/metadata/archive.py: ZipMetadata.processFile"]}
{"id": "C102", "title": "Headers and contents of gzip archives", "statement": "The header of a gzip archive is read as written: flags, time, extra field, name, comment and check sum as far as the flags announce them; the content is everything between the header and the last eight bytes, which are the check sum and the size. An archive is accepted exactly if the method is known and the reserved bits are zero. The metadata show time, name, comment and both sizes.", "quantifier": "all headers with all combinations of optional parts, all names, comments and contents", "why_tests_cant": "The content is found only by the lengths of all optional parts before it, some of which end at a zero byte.", "anchors": ["hachoir/parser/archive/gzip_parser.py: GzipParser.createFields, GzipParser.validate", "hachoir/metadata/archive.py: GzipMetadata.useHeader"]}
{"id": "C103", "title": "Files of Unix archives", "statement": "An archive of ar is read as its files: the header line of each, and behind it the content of the size that the header tells, with the line feeds between files; a file without the mark of archives is refused.", "quantifier": "all lists of files with all names, numbers and contents, any number of line feeds between them", "why_tests_cant": "Each file is found only by the decimal sizes of all files before; the columns are told apart by blanks only.", "anchors": ["hachoir/parser/archive/ar.py: ArchiveFileEntry.createFields, ArchiveFile.createFields, ArchiveFile.validate"]}
{"id": "C104", "title": "ID3 tags of version 1", "statement": "The last 128 bytes of an MP3 file, if they begin with TAG, are read as song, artist, album, year, comment, track number (if the tag has one) and genre, without the blanks around the texts.", "quantifier": "all texts, track numbers and genres", "why_tests_cant": "Whether there is a track number or a genre is guessed from two bytes that may also belong to the comment; tests cover some combinations.", "anchors": ["hachoir/parser/audio/id3.py: ID3v1.createFields, ID3v1.getVersion"]}
{"id": "C105", "title": "Frames of ID3 tags of version 2", "statement": "A tag of version 2.2, 2.3 or 2.4 is read as its frames, each with identifier, size and content; texts in all encodings of the standard, titles, comments and languages are those written; the metadata are the texts of the frames that have a meaning, 'title: text' if there is a title, and nothing else.", "quantifier": "all lists of frames, all texts in all encodings, any padding", "why_tests_cant": "Three formats of frames and four encodings combine; each frame is found only by the sizes of all frames before it.", "anchors": ["hachoir/parser/audio/id3.py: ID3v2.createFields, ID3_Chunk.createFields, ID3_StringCharset, ID3_Comment, ID3_StringTitle, ID3_Picture24, ID3_Size", "hachoir/metadata/audio.py: MpegAudioMetadata.processID3v2, readID3v2"]}
{"id": "C106", "title": "Chunks and texts of RIFF files", "statement": "A RIFF file (WAVE, AVI, CDDA, animated cursors) is read as its tree of chunks, each at its place with its size, a byte of padding behind odd sizes not counted; what comes behind the file does not matter. A file is accepted exactly if its type is known. The texts of the INFO list, up to the first NUL and without the spaces around, become the metadata.", "quantifier": "all trees of chunks of any depth, all contents, all bytes behind the file", "why_tests_cant": "Chunks nest, and each is found only by the sizes of all before; odd sizes shift everything behind.", "anchors": ["hachoir/parser/container/riff.py: RiffFile.createFields, RiffFile.validate, Chunk.__init__, Chunk.createFields, parseText", "hachoir/metadata/riff.py: RiffMetadata.extractInfo, processChunk"]}
{"id": "C107", "title": "Properties of WAVE files", "statement": "Channels, bits per sample and sample rate of a WAVE file are those of its format; for uncompressed codecs the bit rate is their product and the duration the number of bits by the bit rate; with a fact chunk the duration is the number of samples by the rate.", "quantifier": "all formats, all sizes, chunks in any order", "why_tests_cant": "The numbers come from chunks that may be anywhere in the file; tests have a few files.", "anchors": ["hachoir/parser/container/riff.py: parseWAVFormat, parseWAVFact", "hachoir/metadata/riff.py: RiffMetadata.extractWAVE"]}
{"id": "C108", "title": "Events of MIDI files", "statement": "A MIDI file is read as its header and tracks, and every track as its events: delta time, command (also when it is left out because it is the one of the event before), data, and the place in the file. Channel messages of all kinds, texts, tempo, SMPTE offset, time signature and all other meta events have the values that were written.", "quantifier": "all numbers of tracks, all sequences of events, all encodings of the numbers, with and without running status", "why_tests_cant": "Events have no length: each is found only if all before were read right, and the meaning of a byte depends on the events before.", "anchors": ["hachoir/parser/audio/midi.py: Integer, Command.createFields, Track, Header, MidiFile.createFields, MidiFile.validate, parseNote, parseSMPTEOffset, parseTempo, parseTimeSignature"]}
{"id": "C109", "title": "Size of a MIDI file inside other data", "statement": "The content size of a MIDI file is the end of its last track, whatever follows.", "quantifier": "all numbers of tracks, all contents of tracks, all bytes behind the file", "why_tests_cant": "The end is searched by a pattern of bytes; whether the pattern can occur elsewhere is a question about all files.", "anchors": ["hachoir/parser/audio/midi.py: MidiFile.createContentSize"]}
{"id": "C110", "title": "Names of notes", "statement": "Every note number of MIDI has the name and the octave of the note.", "quantifier": "all 128 notes", "why_tests_cant": "A wrong entry of the table shifts the names of some notes only; tests look at one or two notes.", "anchors": ["hachoir/parser/common/tracker.py: NOTE_NAME", "hachoir/parser/audio/midi.py: parseNote"]}
{"id": "C111", "title": "AMF values are read as they were written", "statement": "A value of AMF 0 (numbers, booleans, strings, objects, arrays with keys, arrays with numbers, dates, at any depth) is read as the tree of fields that was written, and it ends where its bytes end; different values are shown differently.", "quantifier": "all values of any depth and width, at any place", "why_tests_cant": "Values nest without sizes, so that one wrong field moves everything behind it; tests have one file.", "anchors": ["hachoir/parser/video/amf.py: AMFObject, Attribute, parseUTF8, parseDouble, parseBool, parseArray, parseObjectAttributes, parseMixedArray, parseDate"]}
{"id": "C112", "title": "Tags of Flash videos", "statement": "A Flash video is accepted and divided into its tags, each at its place with type, size, time, the numbers between them and the content: codec, sampling rate, width and channels of sound, frame type and codec of pictures, values of metadata.", "quantifier": "all sequences of tags of all types, all contents", "why_tests_cant": "A tag is found only with the sizes of all before; tests have one file.", "anchors": ["hachoir/parser/video/flv.py: FlvFile.createFields, FlvFile.validate, Header, Chunk, parseAudio, parseVideo, parseAMF"]}
{"id": "C113", "title": "What is told of a Flash video", "statement": "Sample rate, bits per sample and channels told of a Flash video are those of its first tag of sound; the values told are the properties of its metadata, all of them and in order.", "quantifier": "all tags before and behind, all properties", "why_tests_cant": "The properties may stand in any order and among others; tests have one file.", "anchors": ["hachoir/metadata/video.py: FlvMetadata.extract, extractAudio, extractAMF, useAmfEntry"]}
{"id": "C114", "title": "Blocks of FLAC files", "statement": "A FLAC file is accepted, all its metadata blocks are found at their places, and stream info, seek table and the header of the first frame are read as they were written.", "quantifier": "all sequences of blocks of all types and contents, all values of the fields", "why_tests_cant": "Blocks follow each other by their sizes, and fields of the stream info share bytes; tests have one file.", "anchors": ["hachoir/parser/audio/flac.py: FlacParser, Metadata, MetadataBlock, StreamInfo, SeekTable, SeekPoint, Frame"]}
{"id": "C115", "title": "What is told of a FLAC file", "statement": "Of a FLAC file exactly these are told: channels, bits per sample, sample rate, the duration (samples by rate), and the comments with known names, all of them, in order, in any case of the letters and with the whole value.", "quantifier": "all stream infos, all comments, wherever the blocks are", "why_tests_cant": "Names come in any case and values may contain the separator; tests have one file.", "anchors": ["hachoir/metadata/audio.py: FlacMetadata, readVorbisComment, VORBIS_KEY_TO_ATTR", "hachoir/parser/container/ogg.py: parseVorbisComment"]}
{"id": "C116", "title": "Sun/NeXT audio files", "statement": "A Sun/NeXT audio file is accepted, its text and samples are found at their places, the content size is the size of the file, and the duration told is the number of bits of the samples by channels, bits per sample and rate.", "quantifier": "all texts, samples, rates and codecs with samples of fixed size", "why_tests_cant": "The duration depends on five fields; tests have one file.", "anchors": ["hachoir/parser/audio/au.py: AuFile", "hachoir/metadata/audio.py: AuMetadata, computeBitRate"]}
{"id": "C117", "title": "AIFF files", "statement": "An AIFF or AIFC file is accepted, its chunks are found at their places (with a byte behind odd sizes), the content size is the size of the file, and channels, bits, rate and duration told are those of its common chunk.", "quantifier": "all sequences of chunks, all values of the common chunk", "why_tests_cant": "Chunks come in any order, and the rate is a number of 80 bits; tests have one file.", "anchors": ["hachoir/parser/audio/aiff.py: AiffFile, Chunk, parseCommon", "hachoir/metadata/audio.py: AiffMetadata"]}
{"id": "C118", "title": "GIF files", "statement": "A GIF file is accepted and its screen, colors, images and extensions of every kind are read as they were written and found at their places, up to its \";\"; the number of repetitions of an animation is read.", "quantifier": "all sequences of images and extensions, all blocks, all values of the fields", "why_tests_cant": "Items follow each other by the sizes of their blocks, and color maps depend on bits of the flags; tests have one file.", "anchors": ["hachoir/parser/image/gif.py: GifFile, Image, Extension, ScreenDescriptor, parseGraphicControl, parseComments, parseApplicationExtension, parseTextExtension, defaultExtensionParser"]}
{"id": "C119", "title": "Content size and metadata of GIF files", "statement": "The content size of a GIF file is its size, and of it are told width, height, bits of a pixel, the number of colors, whether it is transparent, and its comments, each of them whole, in order.", "quantifier": "all files: all sequences of images and extensions", "why_tests_cant": "The size is found by a search for two bytes which may be anywhere; tests have one file.", "anchors": ["hachoir/parser/image/gif.py: GifFile.createContentSize", "hachoir/metadata/image.py: GifMetadata"]}
{"id": "C120", "title": "BMP files", "statement": "A bitmap is accepted, its header in every version, its palette and the place of its pixels are read as they were written, and width, height, bits of a pixel, colors, resolution, compression and version are told.", "quantifier": "all headers of 12, 40 and 108 bytes, all palettes, all gaps before the pixels", "why_tests_cant": "Which fields exist depends on the header's size and the palette on two more fields; tests have one file.", "anchors": ["hachoir/parser/image/bmp.py: BmpFile, BmpHeader", "hachoir/metadata/image.py: BmpMetadata"]}
{"id": "C121", "title": "Pixels of BMP files", "statement": "Of an uncompressed bitmap `line[y]` holds the pixels of line y from the top, from left to right, with their colors; the padding of the lines belongs to no pixel.", "quantifier": "all widths and heights, pixels of 4, 8, 24 and 32 bits, all pixels", "why_tests_cant": "Lines are stored from the bottom and are padded to a multiple of four bytes; which pixel is where depends on width and bits.", "anchors": ["hachoir/parser/image/bmp.py: ImageLine, ImagePixels, Pixel4bit, parseImageData"]}
{"id": "C122", "title": "Icons and cursors", "statement": "Every icon of an icon or cursor file is found at its place with its header, palette and pixels; the content size is the size of the file; width, height, colors and bits of every icon are told.", "quantifier": "all numbers of icons, all headers, palettes and sizes of icons", "why_tests_cant": "Every icon's place depends on the sizes of all before it; tests have one file.", "anchors": ["hachoir/parser/image/ico.py: IcoFile, IconHeader, IconData", "hachoir/parser/common/win32.py: BitmapInfoHeader", "hachoir/metadata/image.py: IcoMetadata"]}
{"id": "C123", "title": "PCX pictures", "statement": "The header, palette and pixels of a PCX picture are found, and its width, height, resolution, bits of a pixel and number of colors are told.", "quantifier": "all headers, palettes and pixels", "why_tests_cant": "The palette is found from the end of the file, and the size of the picture is a difference of fields; tests have one file.", "anchors": ["hachoir/parser/image/pcx.py: PcxFile", "hachoir/metadata/image.py: PcxMetadata"]}
{"id": "C124", "title": "Targa pictures", "statement": "The header, name, palette and pixels of a Targa picture are found, and its width, height, bits of a pixel, number of colors and encoding are told.", "quantifier": "all headers, names, palettes and pixels", "why_tests_cant": "The size of the palette depends on two fields; tests have one file, without palette.", "anchors": ["hachoir/parser/image/tga.py: TargaFile", "hachoir/metadata/image.py: TargaMetadata"]}
{"id": "C125", "title": "Streams of 7z archives", "statement": "What an archive tells of its packed streams, folders, coders, bindings, sizes and digests, and of the streams in its folders, is read as it was written.", "quantifier": "all lists of packed streams, folders with any coders and bindings, and sub streams", "why_tests_cant": "How many numbers follow depends on many numbers before, each of variable length; tests have few archives.", "anchors": ["hachoir/parser/archive/sevenzip.py: SZUInt64, SevenZipBitVector, Digests, PackInfo, Coder, CoderList, Folder, UnpackInfo, SubStreamInfo, StreamsInfo"]}
{"id": "C126", "title": "Files of 7z archives", "statement": "Which files are empty, directories or anti-items, and the names, times and attributes of all files are read as they were written.", "quantifier": "all numbers of files and all properties in any order", "why_tests_cant": "The length of every bit vector depends on the files before; names end at a search.", "anchors": ["hachoir/parser/archive/sevenzip.py: FilesInfo, EmptyStreamProperty, EmptyFileProperty, FileTimeProperty, FileNames, FileAttributes, ArchiveProperty"]}
{"id": "C127", "title": "7z archives", "statement": "The header of an archive is found behind the packed data and read as it was written, the parts of the body are the packed data and the packed header where they are, and the content size is the size of the archive.", "quantifier": "all archives with any packed data and any header, packed or not", "why_tests_cant": "The header's place and content depend on the whole archive; tests have few.", "anchors": ["hachoir/parser/archive/sevenzip.py: SevenZipParser, SignatureHeader, StartHeader, Body, NextHeader, Header"]}
{"id": "C128", "title": "Objects of compiled Python modules", "statement": "Whatever object marshal has written for a version of Python (numbers, texts, sequences, dictionaries, slices and code with all its objects) is read as it was written.", "quantifier": "all objects of any depth, all versions", "why_tests_cant": "Objects nest without bounds and the layout of code depends on the version; tests have few files.", "anchors": ["hachoir/parser/program/python.py: Object, parseString, parseStringRef, parseInt32, parseInt64, parseLong, parseFloat, parseBinaryFloat, parseComplex, parseBinaryComplex, parseTuple, parseSmallTuple, parseDict, parseRef, parseASCII, parseShortASCII, parseSlice, parseCode"]}
{"id": "C129", "title": "Values of Python objects", "statement": "The value of an object, with all references to objects and to interned texts in it, is the value Python loads.", "quantifier": "all objects that Python can have written, with any references, in Python 2 and Python 3", "why_tests_cant": "References are resolved from tables that depend on all objects before; tests have few.", "anchors": ["hachoir/parser/program/python.py: Object.createValue, createStringValue, createStringRefValue, createLongValue, createRefValue, tupleValueCreator, createDictValue"]}
{"id": "C130", "title": "Compiled Python files", "statement": "Files of every version of Python are accepted; magic number, flags, hash, time and size of the source and the code are read as they were written.", "quantifier": "all magic numbers, times, sizes and hashes, all code", "why_tests_cant": "There are 239 magic numbers with different headers; tests have few of these versions.", "anchors": ["hachoir/parser/program/python.py: PythonCompiledFile.MAGIC, validate, getVersion, createFields"]}
{"id": "C131", "title": "Files of Microsoft, Mozilla and Starfighter archives", "statement": "The index of an archive is read as it was written and the data of its files are found, wherever they are and in whatever order.", "quantifier": "all lists of files, names, contents and places without overlap", "why_tests_cant": "Places and sizes come from the data; tests have one archive at most.", "anchors": ["hachoir/parser/archive/mar.py: FileIndex, MarFile", "hachoir/parser/archive/mozilla_ar.py: IndexEntry, MozillaArchive", "hachoir/parser/archive/prs_pak.py: FileEntry, PRSPakFile"]}
{"id": "C132", "title": "Microsoft cabinets", "statement": "Header, folders, files and data blocks of a cabinet, with reserved areas and names of neighbours, are read as they were written, wherever the data of the folders are; the content of folders and the list of their files are available.", "quantifier": "all cabinets with any number of folders, files and blocks, any order and place of the data", "why_tests_cant": "What fields there are depends on flags and counts; tests have one cabinet.", "anchors": ["hachoir/parser/archive/cab.py: Folder, File, CabFileAttributes, Flags, DataBlock, FolderData, CabFile"]}
{"id": "C133", "title": "Properties of RPM packages", "statement": "All values of both sets of properties of an RPM package are read as they were written, wherever in the store they are and in whatever order, and the content is what follows the header.", "quantifier": "all packages with any number of items of any type, any place of the values", "why_tests_cant": "The size of a set is computed from the place of one item; tests have one package.", "anchors": ["hachoir/parser/archive/rpm.py: ItemContent, Item, PropertySet, RpmFile"]}
{"id": "C134", "title": "Binary property lists", "statement": "All objects of a binary property list are read as they were written, however their sizes are written and wherever they are; a reference leads to the object of that number.", "quantifier": "all lists of objects, sizes of references and offsets, places of objects", "why_tests_cant": "Widths and places come from the data; tests have at most one list.", "anchors": ["hachoir/parser/misc/bplist.py: BPListTrailer, BPListOffsetTable, BPListSize, BPListObjectRef, BPListArray, BPListDict, BPListObject, BPList"]}
{"id": "C135", "title": "Packets of network captures", "statement": "All packets of a capture are read as they were captured: time, the layers (Ethernet or Linux's cooked captures, ARP, IPv4, IPv6, TCP with options, UDP, ICMP, ICMPv6, rejected packets inside ICMP), each followed by the layer it announces, and the data behind.", "quantifier": "all captures with any number of packets, any chain of layers, any options", "why_tests_cant": "Which fields there are depends on numbers in the packet; tests have no capture.", "anchors": ["hachoir/parser/network/tcpdump.py: ARP, TCP_Option, TCP, UDP, ICMP, ICMPv6, IP, IPv4, IPv6, Layer2, Unicast, Ethernet, Packet, TcpdumpFile"]}
{"id": "C136", "title": "ELF programs", "statement": "The header, the headers of segments and sections, the bytes of sections and the names of sections of all ELF files, of 32 and 64 bits, little and big endian, are read as they were written, wherever the file says they are.", "quantifier": "all ELF files, any number of segments and sections in any order, overlapping or not", "why_tests_cant": "Four layouts, flags in the reverse order for big endian, places told by the file; tests have a single little endian file.", "anchors": ["hachoir/parser/program/elf.py: ElfHeader, SectionFlags, SymbolStringTableOffset, SectionHeader32, SectionHeader64, ProgramFlags, ProgramHeader32, ProgramHeader64, ElfFile"]}
{"id": "C137", "title": "Windows and MS-DOS programs", "statement": "The kind of a program (Windows, 16-bit Windows, MS-DOS) is found; headers, directories and sections of Windows programs are read as they were written, the bytes of all sections where their headers say; addresses in memory are turned into places of the file; the size of the program is told from its headers.", "quantifier": "all programs: PE32 and PE32+, any number of directories, sections in any order", "why_tests_cant": "Places are told by the file, kinds overlap; tests have a few programs.", "anchors": ["hachoir/parser/program/exe.py: MSDosHeader, ExeFile", "hachoir/parser/program/exe_pe.py: PE_Header, PE_OptHeader, DataDirectory, SectionHeader", "hachoir/parser/program/exe_ne.py: NE_Header"]}
{"id": "C138", "title": "Mac OS programs", "statement": "The header, all commands and the segments and sections they describe of Mach-O programs, of 32 and 64 bits, little and big endian, are read as they were written; of universal programs all the programs they hold.", "quantifier": "all programs, any number of commands, segments and sections, universal programs with any number of architectures", "why_tests_cant": "Four layouts and places told by the file; tests have a single program.", "anchors": ["hachoir/parser/program/macho.py: MachoHeader, SegmentCommand, SegmentCommand64, MachoSection, MachoSection64, MachoLoadCommand, MachoFileBase, MachoFile, MachoFatArch, MachoFatFile"]}
{"id": "C139", "title": "ARJ archives", "statement": "All members of an ARJ archive are read as they were written: names, comments, times, flags, sizes, extended headers and packed bytes; other files are refused.", "quantifier": "all archives, any number of members", "why_tests_cant": "Headers are of variable size; tests have no ARJ archive.", "anchors": ["hachoir/parser/archive/arj.py: BaseBlock, Header, Block, ArjParser"]}
{"id": "C140", "title": "Discs and swap files", "statement": "The descriptors of an ISO 9660 disc are read as they were written, so that names and sizes are those of the disc; header, bad pages and pages of Linux swap files are read and the number of usable pages is told.", "quantifier": "all discs with any number of descriptors; all swap files with any number of pages", "why_tests_cant": "Sizes of real discs are in both orders of bytes; tests have no disc.", "anchors": ["hachoir/parser/file_system/iso9660.py: PrimaryVolumeDescriptor, BootRecord, Terminator, Volume, ISO9660", "hachoir/parser/file_system/linux_swap.py: LinuxSwapFile, Page"]}
{"id": "C141", "title": "Amiga modules", "statement": "The header of a ProTracker module, its samples, the order of its patterns, all patterns and sounds are read as they were written; fine tunes are told as signed numbers and only known types of modules are accepted.", "quantifier": "all modules, any number of patterns, any sizes of samples", "why_tests_cant": "The number of patterns is the greatest position played; tests have no module.", "anchors": ["hachoir/parser/audio/mod.py: Header, SampleInfo, Pattern, AmigaModule, getFineTune"]}
{"id": "C142", "title": "3D Studio files", "statement": "All chunks of a 3D Studio file are read as they were written, however deep they are nested: names, vertices, faces, mapping coordinates, matrices, colours and versions; only files with a known version are accepted.", "quantifier": "all trees of chunks of any depth", "why_tests_cant": "Files are trees; tests have one model.", "anchors": ["hachoir/parser/misc/file_3ds.py: Chunk, File3ds", "hachoir/parser/misc/common.py: Vertex, MapUV"]}
{"id": "C143", "title": "RealAudio and RealMedia", "statement": "All RealAudio files of version 3 and 4 and all chunks of RealMedia files are read as they were written; the duration told is that of the data at the codec's rate, and files with a video stream are told to be videos.", "quantifier": "all files, any number of chunks, streams and properties", "why_tests_cant": "Properties and streams are counted by the file; tests have few files.", "anchors": ["hachoir/parser/audio/real_audio.py: Metadata, RealAudioFile", "hachoir/parser/container/realmedia.py: parseHeader, parseFileProperties, parseContentDescription, StreamInfo, NameValueProperty, LogicalFileInfo, Chunk, RealMediaFile", "hachoir/metadata/audio.py: RealAudioMetadata"]}
{"id": "C144", "title": "MPEG transport streams", "statement": "All packets of a transport stream are read as they were written: program, counter, adaptation field with its clocks, and payload; damaged bytes between packets are skipped.", "quantifier": "all streams, any number of packets, any payloads and adaptation fields, up to 207 damaged bytes without a synchronization byte before each packet", "why_tests_cant": "Where a packet begins depends on all before it; tests have one undamaged stream.", "anchors": ["hachoir/parser/video/mpeg_ts.py: AdaptationField, Packet, MPEG_TS.createFields"]}
{"id": "C145", "title": "Searching texts", "statement": "Searching a file lists exactly the texts at any depth that contain the pattern (in either case if so wanted), in their order with their addresses, and the address printed tells the place of the text.", "quantifier": "all trees of fields, all patterns, all addresses", "why_tests_cant": "Trees have any depth and any number of texts; tests search none.", "anchors": ["hachoir/grep.py: Grep.grep, Grep.match, ConsoleGrep.onMatch, ConsoleGrep.searchFile"]}
{"id": "C146", "title": "JPEG metadata", "statement": "Quantization tables, frame headers and JFIF headers are read as they were written; the quality told is the one given to the encoder, coarser tables are never told to be better; size, depth and resolution are those of the image, and position, height and date those of the place where it was taken.", "quantifier": "all tables, all qualities, all frames, all positions in any order of entries", "why_tests_cant": "Quality is an estimate over 128 coefficients; tests have two photos.", "anchors": ["hachoir/parser/image/jpeg.py: QuantizationTable, DefineQuantizationTable, StartOfFrame, JpegChunkApp0", "hachoir/metadata/jpeg.py: JpegMetadata.computeQuality, startOfFrame, extractAPP0, readGPS, deg2float"]}
{"id": "C147", "title": "IPTC and Photoshop records", "statement": "All IPTC records and all Photoshop resources are read as they were written; authors, titles, places, comments and the date with its time are told as they were written.", "quantifier": "all lists of records and resources, all texts and dates", "why_tests_cant": "Records are counted by what is left of a resource; tests have one photo.", "anchors": ["hachoir/parser/image/iptc.py: IPTC_Size, IPTC_Chunk, IPTC", "hachoir/parser/image/photoshop_metadata.py: Photoshop8BIM, PhotoshopMetadata", "hachoir/metadata/jpeg.py: JpegMetadata.parseIPTC"]}
{"id": "C148", "title": "Finder files", "statement": "The nodes of the tree of a .DS_Store file are visited each once, with all their records as they were written; the blocks, directories and free lists of its allocator are read as they were written.", "quantifier": "all allocators, all trees of any depth and width, all records of the known types", "why_tests_cant": "Nodes refer to blocks anywhere in the file and a tree has any shape; tests have none.", "anchors": ["hachoir/parser/misc/dsstore.py: BlockAddress, BudHeader, BudAllocator, DSDB, DSRecord, BTNode, DSStore.createFields"]}
{"id": "C149", "title": "TIFF images", "statement": "The image directories of a TIFF file are followed in the order of their links, and the strips or tiles of each picture are found with their bytes, in both byte orders.", "quantifier": "all numbers of directories and strips, all places of the strips, both byte orders", "why_tests_cant": "Directories are linked in any order and strips lie anywhere in the file; tests have a few files.", "anchors": ["hachoir/parser/image/tiff.py: getStrips, ImageFile.createFields, TiffFile.createFields"]}
{"id": "C150", "title": "Photoshop pictures", "statement": "The header, the colours, the resources and the layers of a Photoshop picture are read as they were written, and the width, height, channels and colour mode that metadata tell are those of the header.", "quantifier": "all headers, all lists of resources, all sizes of the sections", "why_tests_cant": "The sections have any size and the resources any number; tests have one file.", "anchors": ["hachoir/parser/image/psd.py: Config, PsdFile.createFields, PsdFile.validate", "hachoir/metadata/image.py: PsdMetadata.extract"]}
{"id": "C151", "title": "X11 fonts", "statement": "All tables of a PCF font are found, and the names and texts of its properties and the names of its glyphs are those in the pools, in both byte orders.", "quantifier": "all numbers of tables, properties and glyphs, all orders of the entries and places in the pools", "why_tests_cant": "The entries have any order and the names lie anywhere in the pool; tests have one font.", "anchors": ["hachoir/parser/misc/pcf.py: TOC, Properties, GlyphNames, PcfFile.createFields, PcfFile.validate"]}
{"id": "C152", "title": "Windows Media files", "statement": "The objects of a Windows Media (ASF) file are read as they were written, each to its end whatever its contents, and the title, author, sizes, rates and codecs that metadata tell are those in the file.", "quantifier": "all trees of objects, all descriptors and streams, all numbers of streams", "why_tests_cant": "Objects are nested and have any order; the numbers of streams and descriptors are not bounded. Tests have one file.", "anchors": ["hachoir/parser/video/asf.py: Object, Header, StreamProperty, FileProperty, CodecList, BitRateList, ExtendedContentDescription, Metadata, AsfFile.validate, AsfFile.createFields", "hachoir/metadata/video.py: AsfMetadata"]}
{"id": "C153", "title": "Windows shortcuts", "statement": "The items, the places, the texts and the blocks of a Windows shortcut are read as they were written, whatever flags are set and whatever bytes lie between the parts, and a shortcut is recognised by its head alone.", "quantifier": "all sets of flags, all lists of items and blocks, all offsets of the parts, all texts", "why_tests_cant": "The flags choose the parts, and the offsets the places of the parts; tests have one shortcut.", "anchors": ["hachoir/parser/misc/lnk.py: ItemIdList, ItemId, LocalVolumeTable, NetworkVolumeTable, FileLocationInfo, LnkString, ExtraInfo, text_hot_key, LnkFile.validate, LnkFile.createFields"]}
{"id": "C154", "title": "RAR archives", "statement": "All blocks of a RAR archive are found in their order, each with its end, and files are told with their names, sizes and data.", "quantifier": "all lists of blocks, all types of blocks, all names, all sizes of heads and data", "why_tests_cant": "Blocks have any number, type and size, and the flags choose the fields; tests have one archive.", "anchors": ["hachoir/parser/archive/rar.py: Block, FileFlags, specialHeader, fileBody, ExtTime, RarFile.validate, RarFile.createFields"]}
{"id": "C155", "title": "Playing time of MPEG audio files", "statement": "The bit rate, channels and sample rate that are told for an MPEG audio file are those of its frames, and the playing time differs from the time the frames play by at most a slot per frame and the bytes in front of them.", "quantifier": "all files of any number of frames of any version, layer, rates and padding, behind any other bytes, and all qualities of extraction", "why_tests_cant": "Files have thousands of frames of 2688 kinds, and the guess of a constant rate depends on the first eleven; tests have a few files.", "anchors": ["hachoir/metadata/audio.py: MpegAudioMetadata.extract, computeBitrate, computeVariableBitrate", "hachoir/parser/audio/mpeg_audio.py: Frames.looksConstantBitRate, Frame.getBitRate, Frame.getSampleRate, Frame.getNbChannel"]}
{"id": "C156", "title": "Flash movies", "statement": "All tags of a Flash movie are found in their order with their codes and contents; the frame, frame rate and number of frames that are told are those of the movie.", "quantifier": "all movies of any number of tags of any code and length (in both forms), all rectangles of any number of bits", "why_tests_cant": "Numbers in rectangles have any number of bits, and the flags of tags choose the fields; tests have one movie.", "anchors": ["hachoir/parser/container/swf.py: RECT, Tag, parseBackgroundColor, parseDefineSound, parseStartSound, parseSoundHeader, parseSoundBlock, parseVideoFrame, parseExport, parseProductInfo, parseScriptLimits, parseSymbolClass, parseBinaryData, SwfFile.validate, SwfFile.createFields", "hachoir/metadata/misc.py: SwfMetadata.extract"]}
{"id": "C157", "title": "FastTracker modules", "statement": "All patterns with their rows and notes, and all instruments with their samples and the data of these, are found in a FastTracker module; the size that is told for a module is that of the module, whatever follows it.", "quantifier": "all modules of any number of channels, patterns, rows, instruments and samples, notes packed or not, data of any length; any bytes behind the module", "why_tests_cant": "Notes have 1 to 6 bytes after the flags of their first one, and the size of instruments is found by adding the lengths of their samples; tests have one module.", "anchors": ["hachoir/parser/audio/xm.py: SampleType, SampleHeader, StuffType, InstrumentSecondHeader, createInstrumentContentSize, Instrument, NoteInfo, Effect, Note, Row, createPatternContentSize, Pattern, Header, XMModule.validate, XMModule.createFields, XMModule.createContentSize"]}
{"id": "C158", "title": "Files told of archives", "statement": "Metadata of a ZIP, TAR or CAB archive have a group for each of its first files (as many as the quality asks for, all for the best), in their order, each with the name, sizes, date and compression rate of that file.", "quantifier": "all archives of any number of files, all names, sizes and dates, all qualities", "why_tests_cant": "Groups are made one after the other in a dictionary that refuses repeated names, exceptions are hidden, and values pass filters; tests have archives of a few files.", "anchors": ["hachoir/metadata/archive.py: maxNbFile, computeCompressionRate, ZipMetadata, TarMetadata, CabMetadata", "hachoir/metadata/metadata.py: Metadata.get, MultipleMetadata.addGroup", "hachoir/metadata/safe.py: fault_tolerant"]}
{"id": "C159", "title": "Dates with names of months", "statement": "A text with the name of a month given as a date is read as that date exactly when it has one of the three forms in use (day, month, year and time with a time zone; weekday, month, day, time, year; month and year), and it is told with its time zone.", "quantifier": "all texts, all separators, all names in any case, all time zones", "why_tests_cant": "Texts are cut at separators and tried form after form with strptime; tests have a few dates, all of time zones east of Greenwich.", "anchors": ["hachoir/metadata/setter.py: parseDatetime, setDatetime", "hachoir/metadata/timezone.py: createTimezone", "hachoir/metadata/filter.py: DatetimeFilter"]}
{"id": "C160", "title": "What Ogg files tell", "statement": "Each known comment NAME=VALUE of an Ogg or FLAC file is told as its attribute, whatever the case of its name and whatever the other comments; each Vorbis stream is told with its rate and channels; the playing time is the position of the last page over the sample rate.", "quantifier": "all lists of comments of any length, all vendors, all lists of pages and headers, all positions, all qualities", "why_tests_cant": "Comments go one by one into a registry that drops and replaces values, exceptions are hidden, and pages are skipped; tests have a few files with a few comments.", "anchors": ["hachoir/metadata/audio.py: VORBIS_KEY_TO_ATTR, readVorbisComment, OggMetadata", "hachoir/metadata/metadata_item.py: Data.add", "hachoir/metadata/setter.py: setTrackNumber, setTrackTotal", "hachoir/metadata/safe.py: fault_tolerant, getValue"]}
{"id": "C161", "title": "Directories, modes and inodes of EXT2 file systems", "statement": "A directory of an EXT2 file system is read as the list of its names with their inodes and types; an inode of a device, a symbolic link, a file with extents or a file with a list of blocks is read as such with all its numbers; the mode of a file is shown as ls shows it.", "quantifier": "all directories with records of any length, all modes, all inodes of every kind, system and size", "why_tests_cant": "The kind of an inode depends on its mode, on bits of its flags and on numbers that come behind; tests read one image with a few files.", "anchors": ["hachoir/parser/file_system/ext2.py: DirectoryEntry, Directory, FileMode, InodeFlags, ExtentNode, Inode"]}
{"id": "C162", "title": "Groups and files of EXT2 file systems", "statement": "The groups of an EXT2 file system hold each of its blocks once, and blocks and inodes are shown with their numbers; the description tells the space that is used; the fragments of a file joined are its content.", "quantifier": "all superblocks, all groups, all images, all lists of blocks with and without an indirect block", "why_tests_cant": "Sizes of groups, first blocks, holes, and blocks in other groups are combined freely; the only test image is small, with one group.", "anchors": ["hachoir/parser/file_system/ext2.py: SuperBlock, GroupDescriptor, Bitmap, Group, EXT2_FS", "hachoir/field/fragment.py: FragmentGroup, CustomFragment", "hachoir/field/seekable_field_set.py: seekBit"]}
{"id": "C163", "title": "Tables of TrueType fonts", "statement": "All tables of a TrueType or OpenType font are found whatever their order in the file and the bytes between them, unknown tables are kept as bytes, and a table that cannot be read does not keep the others from being read; the header, limits, PostScript and variation tables are read with the values OpenType gives them.", "quantifier": "all fonts with any number of tables in any order, all headers, all glyph lists, all axes and instances", "why_tests_cant": "The order of the tables, the gaps, the widths of bit fields, signs, and the choice of records by sizes computed from other fields combine freely; tests read one font.", "anchors": ["hachoir/parser/misc/ttf.py: TrueTypeFontFile, TableHeader, FontHeader, parseMaxp, parsePost, parseFvar, Tag, Version16Dot16, Fixed, AxisRecord, InstanceRecord"]}
{"id": "C164", "title": "Names and dates told of TrueType fonts", "statement": "Each name record of a font is found as the bytes at its place in the table whatever the order, overlap and sharing of the records, and the metadata tells of each kind of name all texts, with the dates, the comments on units and direction of the font.", "quantifier": "all lists of name records with offsets in any order and shared strings, all headers, all dates, all charsets", "why_tests_cant": "Names are laid out sorted by offset with duplicates dropped, then looked up by address; which text is told depends on all the other records. Tests compare a few fields of one font.", "anchors": ["hachoir/parser/misc/ttf.py: parseNames, NameHeader", "hachoir/metadata/misc.py: TrueTypeFontMetadata"]}
{"id": "C165", "title": "Messages of Garmin FIT files", "statement": "The messages of a FIT file are read with the layout that the last definition of their local type gives: each field with its size, kind and byte order, all messages up to the size in the header, and then the checksum.", "quantifier": "all files: all headers, all sequences of definitions and data messages, all fields", "why_tests_cant": "The layout of every message depends on the definitions before it (sixteen local types that can be redefined, each with its own byte order); tests do not have FIT files with redefinitions or both byte orders.", "anchors": ["hachoir/parser/misc/fit.py: FITFile, Header, NormalRecordHeader, DefinitionMessage, DataMessage, FieldDefinition, CRC"]}
{"id": "C166", "title": "Properties of Office documents", "statement": "A summary stream gives all sections and all properties of their index with the values at their places: numbers, flags, texts in the code page given before, wide texts, times and spans, and lists; a property can be found by its place.", "quantifier": "all summary streams, all numbers of sections and properties at any places, all types, all code pages", "why_tests_cant": "The charset of a text depends on the properties before it, the places are in an index, and finding a property is a binary search over fields that depends on gaps and order. Tests read the summary of two files.", "anchors": ["hachoir/parser/misc/msoffice_summary.py: Summary, SummarySection, SummaryIndex, PropertyIndex, PropertyContent", "hachoir/field/seekable_field_set.py: SeekableFieldSet", "hachoir/field/generic_field_set.py: getFieldByAddress"]}
{"id": "C167", "title": "What is told of Office documents", "statement": "The metadata of an Office document has all titles, authors and programs of the document summary and of the summary in order, its dates of creation and change, its number of pages, and comments that name the other properties.", "quantifier": "all lists of properties with any values, all code pages, all dates, encrypted or not", "why_tests_cant": "What is told of one property depends on all others (order, texts that begin with one another, gaps between them). Tests compare a few values of two documents.", "anchors": ["hachoir/metadata/misc.py: OLE2_Metadata.useSummary, useProperty, useWordDocument"]}
{"id": "C168", "title": "Serialized Java objects", "statement": "A stream of serialized Java objects is read as it was written: classes, objects with the values of their class and its super classes in order, arrays, enums, proxies, exceptions, block data, and references by handle to classes written before.", "quantifier": "all streams that the grammar of Java serialization gives, of any depth, with any classes, references and resets", "why_tests_cant": "How many bytes a value takes depends on class descriptions anywhere before it, found by handles that every object counts up and resets clear; the grammar is recursive without bound. The project has no test file for this parser.", "anchors": ["hachoir/parser/program/java_serialized.py: SerializedContent, SerializedClassDesc, ObjectValue, SerializedObject, SerializedArray, SerializedReference, ClassAnnotation, WriteObjectContents, SerializedProxyClassDesc, JavaSerializedFile"]}
{"id": "C169", "title": "What is told of torrents", "statement": "The metadata of a torrent file are what the file says: the URL is the announce address, the file name and size are those of the dictionary info, the creation date is the moment of that many seconds since 1970, the comments are the comment and the piece length; keys that are missing or of another type are told of as nothing, and never stop the others.", "quantifier": "all bencoded dictionaries whose keys have distinct names, with values of any type and any nesting, and all settings", "why_tests_cant": "Any key can be missing, of another type, empty or long, in any order and mixed with any others; each combination takes another way through the parser's values, the filters of the attributes and the exceptions that are ignored.", "anchors": ["hachoir/metadata/misc.py: TorrentMetadata.extract, processRoot, processInfo", "hachoir/parser/misc/torrent.py: DictionaryItem, TorrentString, Integer", "hachoir/metadata/metadata_item.py: Data.add"]}
{"id": "C170", "title": "Image data of PNG pictures", "statement": "The field compressed_data of the first chunk IDAT of a PNG file, opened as a stream, is the content of all the chunks IDAT of the file, joined in their order: every read inside returns the bits of the joined data, every read behind its end is an error, whatever was read before and whatever other chunks are in the file.", "quantifier": "all sequences of chunks at any place of any file, with any number of IDAT chunks of any sizes but none empty, all histories of reads and all addresses and sizes", "why_tests_cant": "The fields are linked lazily, from one chunk to the next that has to be searched in a file that is still being parsed, and reads may begin and end in any of the chunks and come in any order; a test has one division into chunks and one history of reads.", "anchors": ["hachoir/parser/image/png.py: ImageData, Chunk", "hachoir/field/link.py: Fragment", "hachoir/stream/input.py: FragmentedStream"]}
{"id": "C171", "title": "Gimp pictures", "statement": "Reading a Gimp picture (XCF) gives what was written: the version in its signature, the size and type of the picture, the properties of the picture and of every layer with their typed data (offsets, resolution, compression, parasites and so on) up to the property of type 0, and the layers, with their names and sizes, at the offsets of the table, which has wider numbers from version 11 on.", "quantifier": "all versions up to 999, all lists of properties of any length and kind, all tables of layers that are one behind the other, whatever is between and behind them", "why_tests_cant": "The width of offsets and the presence of the precision depend on the version, the data of a property on its type, and layers are found through offsets; a test has one version and one picture.", "anchors": ["hachoir/parser/image/xcf.py: XcfFile, XcfLayer, XcfProperty, XcfParasites, XcfParasiteEntry, readProperties, GimpBoolean"]}
{"id": "C172", "title": "Gnome keyrings", "statement": "Reading a Gnome keyring gives what was written: versions, name, times, flags, the number of hash rounds, the salt, the items with their attributes and the enciphered data; and the deciphered data gives the digest and the secrets with their texts, times, attributes and access lists. A missing text has the value ''.", "quantifier": "all keyrings with any number of items, attributes, secrets and access lists, all texts up to 65535 bytes, all paddings", "why_tests_cant": "Every size depends on counts and sizes before it, and the end of the secrets is guessed from the rest of the data; a test has one keyring.", "anchors": ["hachoir/parser/misc/gnome_keyring.py: KeyringString, Attribute, ACL, Item, Items, EncryptedItem, EncryptedData, GnomeKeyring"]}
{"id": "C173", "title": "Jobs of the Windows task scheduler", "statement": "Reading a .job file gives what was written: the flags, the time of the last run, the program with its parameters and directory, the author and comment, the reserved data and all triggers, whatever their sizes are; files of the five known versions of Windows, and no others, are taken.", "quantifier": "all jobs with texts of any length up to 32767 units, any number of triggers each with any bytes behind its known fields, all reserved data", "why_tests_cant": "All places depend on the sizes of five texts, the reserved data and each trigger; a test has one job.", "anchors": ["hachoir/parser/misc/mstask.py: TaskTrigger, MSTaskFile", "hachoir/parser/common/win32.py: PascalStringWin16"]}
{"id": "C174", "title": "Speed of a search", "statement": "After any calls of update, the rates DataRate keeps are the last `size` of the speeds between the calls that count, those at least a second after the last one that did; average is their mean, None as long as there are fewer than min_size, and lies between the slowest and the fastest speed; never more than `size` rates are kept, and the rates times their times are the whole way made.", "quantifier": "all histories of calls at all times with all offsets, all sizes", "why_tests_cant": "The state depends on the whole history of calls and on the clock; a test has one history.", "anchors": ["hachoir/subfile/data_rate.py: DataRate"]}
{"id": "C175", "title": "Attributes of MS-DOS files", "statement": "The value of a field of MS-DOS attributes, of 16 or 32 bits, is the list of the names of the attributes that are set in the number, sorted by importance, cut with dots behind the fourth, or (none).", "quantifier": "all numbers of 16 and 32 bits", "why_tests_cant": "There are 2^32 numbers, and the loop stops in the middle for many of them; a test has a few.", "anchors": ["hachoir/parser/common/msdos.py: MSDOSFileAttr16, MSDOSFileAttr32"]}
{"id": "C176", "title": "Apple bills of materials", "statement": "Every object of an Apple BOM file is the bytes of the file at the offset and of the size its entry in the table tells, in any order and wherever they are, with entries of size 0 passed over; so are the header and the parts of the second table.", "quantifier": "all files with any number of objects, whose entries are in the file, in any order and overlapping or not", "why_tests_cant": "The table is found through an offset, the objects through the table, and the fields are out of order; a test has one file.", "anchors": ["hachoir/parser/archive/bomstore.py: BomTrailerEntry, BomTrailer, BomFile", "hachoir/field/seekable_field_set.py: RootSeekableFieldSet.seekByte"]}
{"id": "C177", "title": "Palm resource files", "statement": "If the first resource of a Palm resource file follows the table, every resource is the bytes of the file from its offset up to the offset of the next one, the last up to the end of the file, and the header and the table are read as they were written.", "quantifier": "all files with any number of resources whose offsets increase", "why_tests_cant": "The sizes are not stored but differences of offsets, and the parts follow each other; a test has one file.", "anchors": ["hachoir/parser/program/prc.py: PRCHeader, ResourceHeader, PRCFile"]}
{"id": "C178", "title": "Fonts of LucasArts games", "statement": "A font is read as it was written: the codes, the sizes of its characters, and every point of their pictures, however many characters there are and whatever their sizes, if no picture is empty.", "quantifier": "all fonts with any number of characters of any sizes", "why_tests_cant": "The size of every picture is told by a table before all of them; a test has one font.", "anchors": ["hachoir/parser/game/laf.py: CharData, CharBitmap, CharInfo, LafFile", "hachoir/field/vector.py: GenericVector"]}
{"id": "C179", "title": "ReiserFS file systems", "statement": "The superblock of a ReiserFS file system is read as it was written, and the state shown of every block is its bit in the bitmap that tells of it: the first bitmap behind the superblock, the others in the first of the blocks they tell of.", "quantifier": "all file systems with blocks of any size above 204 bytes and any number of bitmaps", "why_tests_cant": "The bitmaps are as far apart as a block has bits; a test file would need hundreds of megabytes to have a second one.", "anchors": ["hachoir/parser/file_system/reiser_fs.py: BlockState, BitmapBlock, BitmapBlockGroup, SuperBlock, REISER_FS"]}
{"id": "C180", "title": "Messages", "statement": "Whatever a program does, every message that is wanted is on the screen, in the buffer of its level, at the end of the log file and told to the callback, each once and in order, as far as each of these is asked for at that time; errors are always wanted, warnings unless it is to be quiet, others if it is also to be verbose; no file loses a line.", "quantifier": "all sequences of messages, changes of the settings, changes of the log file and shutdowns, with any files on the disk", "why_tests_cant": "The settings and the file may change between any two messages; a test has one sequence.", "anchors": ["hachoir/core/log.py: Log.newMessage, Log.setFilename, Log.shutdown, Logger", "hachoir/core/config.py: quiet, verbose, debug"]}
{"id": "C181", "title": "Calls of limited time", "statement": "A function called with a limit of time is ended by Timeout exactly if it takes as long as the limit (in whole seconds, rounded up, at least one), and otherwise ends as it would by itself; the handler of signals is then the one of before, however deep such calls are in each other and however they end.", "quantifier": "all functions that work, raise and call other functions with limits, all limits that are fractions, and all states of the signals", "why_tests_cant": "The time is real and the handlers are of the whole process; a test has one function and one limit.", "anchors": ["hachoir/core/timeout.py: fixTimeout, limitedTime, signalHandler"]}
{"id": "C182", "title": "Bytes shown in the window", "statement": "The cache of the window gives, for every range, the bytes of the file in that range (also where it goes behind the end), whatever was looked at before and whatever the size of the chunks, and leaves the place in the file as it was.", "quantifier": "all files, ranges, sizes of chunks, and sequences of earlier hints and ranges", "why_tests_cant": "The first and the last chunk are cut, they may be the same, and chunks are remembered and forgotten; a test has a few ranges.", "anchors": ["hachoir/wx/hex_view/file_cache.py: FileCache.get_chunk, FileCache.hint, FileCache.get"]}
{"id": "C183", "title": "Window of bytes", "statement": "When a field is selected, the window is moved so that all of its bytes are in view if they have room, by the least number of pixels, and from the first row of the field otherwise; exactly the bytes of the field are marked in the rows drawn, and every row has the bytes of the file at the address it tells.", "quantifier": "all files, fields, windows, sizes of characters, and places of the window before", "why_tests_cant": "The geometry depends on five numbers; a test would need a display.", "anchors": ["hachoir/wx/hex_view/hex_view.py: hex_view_t.scroll_to, hex_view_t.highlight_region, hex_view_t.OnPaint, hex_view_t.on_field_selected, HexViewLayout.textrows"]}
{"id": "C184", "title": "Tree of fields in the window", "statement": "Below a node of the tree there is one item for each field set among the first fields of the node, in order and without repetition, and a last item for the others exactly when not all were gone through; a field set that is to be shown has an item; without one to be shown, as many fields are gone through as the limit says.", "quantifier": "all nodes with fields of distinct names, all sequences of requests (expand, more, find)", "why_tests_cant": "The items depend on all the requests before, and the limit of 1000 fields is above what tests have.", "anchors": ["hachoir/wx/tree_view/tree_view.py: tree_view_t.enumerate_node, FieldNodeData"]}
{"id": "C185", "title": "Calls of limited memory", "statement": "A function called with a limit of memory never has more than this limit beyond what the process had before; a function that needs no more is not refused; it returns or raises what it would under the limit; and the limit of the process is the same afterwards.", "quantifier": "all functions that take and give back memory and raise, all limits, all processes with or without limits of their own", "why_tests_cant": "Tests run without a limit of their own and call one function.", "anchors": ["hachoir/core/memory.py: limitedMemory, getMemoryLimit, setMemoryLimit"]}
{"id": "C186", "title": "List of fields in the window", "statement": "Every row of the list shows the field of its place (the first row the parent, if there is one), whatever rows were looked at before; there are never more rows than fields, never fewer than before, and going to the last row again and again comes to the last field; selecting a row selects the field it shows.", "quantifier": "all field sets, all sequences of rows looked at, all trees of fields with proper names", "why_tests_cant": "Rows are added 1000 at a time as they are looked at, and selection goes through the text of the row; a test would need a display.", "anchors": ["hachoir/wx/field_view/field_view_imp.py: field_view_imp_t.fill_view, field_view_imp_t.OnGetItemTextImp, field_view_imp_t.on_item_selected", "hachoir/wx/field_view/format.py: format_name", "hachoir/field/field.py: Field.getField"]}
{"id": "C187", "title": "What is told of a disc", "statement": "The metadata of an ISO 9660 disc tell its dates of creation and of change as they are written on it (none for zeros or for digits that are no date), its names as titles, publisher and preparer as authors, the application as producer and the copyright; blank fields are not told.", "quantifier": "all dates, all texts of the descriptor, all settings of the metadata", "why_tests_cant": "Dates are cut out of a text by place, and assigned texts depend on those before; a test has one disc.", "anchors": ["hachoir/metadata/file_system.py: ISO9660_Metadata.extract, ISO9660_Metadata.readTimestamp", "hachoir/metadata/metadata_item.py: Data.add"]}
{"id": "C188", "title": "Help files of Windows", "statement": "The header of a help file and the entry of its directory are read as they were written, wherever the directory is; a file is accepted exactly if it tells its magic and its length.", "quantifier": "all headers, directories and places of the directory", "why_tests_cant": "The repository has no test with a help file.", "anchors": ["hachoir/parser/misc/hlp.py: HlpFile.createFields, HlpFile.validate, FileEntry.createFields", "hachoir/field/padding.py: PaddingBytes.__init__"]}
{"id": "C189", "title": "Names of the fields of a set, and videos of a Spider-Man game", "statement": "The field asked for as `key[]` is named `key[n]`, n being the number of fields asked for so before it, whatever stands between them; a second field of a plain name is numbered from zero. The chunks of a Spider-Man video are read as they were written and are found by these names: `video[n]` is the n-th chunk of video data.", "quantifier": "all lists of asked names and all lists of chunks", "why_tests_cant": "Tests look at a few names of a few files; the numbering has to hold for every interleaving of names.", "anchors": ["hachoir/field/generic_field_set.py: GenericFieldSet._addField", "hachoir/field/basic_field_set.py: BasicFieldSet.setUniqueFieldName", "hachoir/parser/game/spider_man_video.py: Chunk, SpiderManVideoFile.createFields, SpiderManVideoFile.validate"]}
{"id": "C190", "title": "Firmware volumes", "statement": "The volumes of a firmware file, the files of each, aligned to eight bytes, and their sections, nested to any depth, are read as they were written; the first volume is accepted exactly if it has the signature.", "quantifier": "all volumes, files and sections of any depth", "why_tests_cant": "The repository has no test with a firmware volume; nesting and alignment have no bound.", "anchors": ["hachoir/parser/misc/pifv.py: FileSection, File, FirmwareVolume, PIFVFile.createFields, PIFVFile.validate"]}
{"id": "C191", "title": "Games of the Nintendo DS", "statement": "The sum made with the table is the CRC-16 of the message bit by bit, so a change of one character always changes it, but over the bytes of a file it is never made and its field has no description; directories, the table of names, the table of places and the contents of files are read as they were written, wherever they are; a header is accepted exactly if its numbers are in their ranges.", "quantifier": "all messages and values to begin with, all directories and names of up to 127 bytes, all tables and places, all numbers of the header", "why_tests_cant": "The repository has one game of the Nintendo DS and its test does not look at sums; messages, directories and places have no bound.", "anchors": ["hachoir/parser/program/nds.py: CRC16, Crc16.createDescription, FileNameEntry, Directory, FileNameTable, FATContent, NdsFile.validate, NdsFile.createFields, DeviceSize", "hachoir/field/field.py: Field.description"]}
{"id": "C192", "title": "Pictures of games of Blizzard", "statement": "A block of colours is read as written up to the first pixel with a colour between both colours, which raises an error; the order that selects three or four colours is that of the numbers of the colours; alphas are interpolated as the format has it; all JPEG pictures of a file are read as written, and of the pictures without compression only the first.", "quantifier": "all colours, pixels and alphas of blocks, all pictures and places of a file", "why_tests_cant": "The repository has no test with a picture of this format; the float numbers come only from the true division of Python 3, behind the first picture or in interpolated pixels.", "anchors": ["hachoir/parser/game/blp.py: Generic2DArray, BLP1File.createFields, interp_avg, color_name, DXT1, DXT5Alpha"]}
{"id": "C193", "title": "Benchmarks", "statement": "A benchmark ends whatever the times of the calls are; it calls the function exactly as many times as fit into the maximum time by the first call, within the minimum and maximum numbers; its statistics have the least, greatest and summed time of all calls; it is refused if the times add up to zero, and fails with a division by zero if the first call takes no time.", "quantifier": "all limits, all sequences of times of calls, also negative ones", "why_tests_cant": "Times come from the clock, so a test sees one sequence of them only; batches depend on averages of all calls before.", "anchors": ["hachoir/core/benchmark.py: BenchmarkStat, Benchmark.__init__, Benchmark._run, Benchmark.validateStat, Benchmark.run"]}
{"id": "C194", "title": "The command for metadata", "statement": "hachoir-metadata processes all files in the order given, also behind files that fail, shows names exactly if there are several files, and its status at exit is 0 exactly if all files were understood; an exception of a parser ends it, and with a benchmark the status is always 1.", "quantifier": "all lists of files, all options, all outcomes of parsers and extractors", "why_tests_cant": "The test of the command runs one file with one set of options; lists of files and outcomes have no bound.", "anchors": ["hachoir/metadata/main.py: processFile, processFiles, benchmarkMetadata, profile, main", "hachoir/core/profiler.py: runProfiler"]}
{"id": "C195", "title": "Walking over the tree of the text viewer", "statement": "In the tree shown by hachoir-urwid, the next line of a node is the line shown behind it and the previous line the one in front of it, for every tree of opened nodes; so up and down undo each other, nothing is in front of the root and nothing behind the last line.", "quantifier": "all trees of opened nodes, all lines of them", "why_tests_cant": "The viewer needs a terminal and has no test; trees have no bound in depth or width.", "anchors": ["hachoir/urwid.py: Node.sync, Walker.get_next, Walker.get_prev"]}
{"id": "C196", "title": "ACE archives", "statement": "Of every ACE archive made of headers, files and new recovery blocks, the parser lists all blocks in order with their fields, names, comments, further bytes of the head and packed bytes. A block of another kind, among them the old recovery blocks the parser has code for, is never read, whatever it holds, and ends the list: no file behind it is listed. Without a header in front no file is listed. A file is accepted exactly when the signature is behind its first 7 bytes.", "quantifier": "all archives, any number of blocks, all sizes, flags, names and comments; for the end of the list: all bytes in and behind the block", "why_tests_cant": "The test suite has one small ACE archive without recovery blocks; archives have no bound in size and the bytes of blocks cannot be enumerated.", "anchors": ["hachoir/parser/archive/ace.py: markerHeader, fileHeader, fileBody, recoveryHeader, newRecoveryHeader, parseHeader, parseBody, Block, AceFile", "hachoir/field/generic_field_set.py: _fixFeedError"]}
{"id": "C197", "title": "Windows metafiles", "statement": "Of every WMF file, with or without the header of Aldus, and of every EMF file the parser tells the header (with the description of an EMF file) and all records in order with the numbers, points and bytes of their parameters; the size of records is counted in words of 2 bytes in WMF files and in bytes in EMF files. The size told of a WMF file inside other data is the place behind its last record if the bytes of that record are nowhere before; it is never larger, but smaller when they are inside the parameters of another record.", "quantifier": "all files, any number of records, all functions and parameters, any data behind the file", "why_tests_cant": "The test suite looks at a few fields of three files; records have no bound in number and size, and the bytes of the last record may be anywhere.", "anchors": ["hachoir/parser/image/wmf.py: META, EMF_META, Function, EMF_Header, PlaceableHeader, WMF_File.createFields, WMF_File.createContentSize"]}
{"id": "C198", "title": "Models of Renderdroid", "statement": "Of every 3do file, in both orders of bytes, the parser tells all materials, sets of meshes, vertices, places in textures, faces with their indices, normals, nodes and the numbers at the end, each with its value.", "quantifier": "all files, any number of materials, sets, meshes, vertices, faces and nodes, both orders of bytes", "why_tests_cant": "No file of this kind is in the test suite; counts have no bound and every list depends on numbers read before it.", "anchors": ["hachoir/parser/misc/file_3do.py: Vector, Face, Mesh, Geoset, Node, Nodes, Materials, File3do.createFields", "hachoir/field/padding.py: PaddingBytes.__init__"]}
{"id": "C199", "title": "Metadata of Windows metafiles", "statement": "Of a file with the header of Aldus the size of its rectangle is told as width and height, with 24 bits per pixel; of an EMF file the size of its device, the count of colours of the palette with 8 bits per pixel or 24 bits per pixel without palette, the text before the first null character of the description as producer and the one behind it as title. Numbers out of their range and blank texts are not told, and nothing is told of other files.", "quantifier": "all headers, all descriptions, all numbers, any configuration", "why_tests_cant": "The test suite looks at three files; rectangles may have any corners, also negative sizes, and descriptions any number of null characters and blanks.", "anchors": ["hachoir/metadata/image.py: WmfMetadata.extract", "hachoir/parser/image/wmf.py: EMF_Header, PlaceableHeader, WMF_File.isEMF, WMF_File.isAPM", "hachoir/metadata/register.py: registerAllItems"]}
{"id": "C200", "title": "The table of metadata", "statement": "The export to a table has one line for every document whose metadata can be told, in the order in which the documents are found, with the name of the file and the texts of the fields asked for, which can be read back from the line; no name and no text breaks a line. Every document is counted once, as valid or invalid, and a file that cannot be read does not keep others from being told.", "quantifier": "all trees of directories, all names of files, all outcomes of parsers, all texts of metadata, all lists of fields", "why_tests_cant": "No test runs the export; names and texts may have any characters, and documents any order.", "anchors": ["hachoir/metadata/csv.py: Extractor.main, Extractor.findFiles, Extractor.processFile, main", "hachoir/core/tools.py: makePrintable"]}
{"id": "C201", "title": "What ModPlug adds to music", "statement": "Behind a module of music, the blocks that ModPlug adds are told in order up to the end of the file or the song block: comments with all their text, channel settings with all their numbers, the sets of the MIDI block, the extensions of instruments and of the song with their data, and plugins; every byte of the file is in a field.", "quantifier": "all lists of blocks, all contents and sizes of blocks, all codes of extensions, all types of other blocks, all bytes behind them", "why_tests_cant": "No module among the test files has such blocks; types, sizes and contents are arbitrary and blocks follow each other in any order.", "anchors": ["hachoir/parser/audio/modplug.py: ParseModplugMetadata, ModplugBlock, parseComments, parseMidiConfig, parseChannelSettings, parseFields, parsePlugin"]}
{"id": "C202", "title": "Version information of programs", "statement": "Of the version information of a program every key is told with its last value that is not blank, without the blanks and null characters around it: as the title, author, copyright, version or creation date if the key is known, as a comment with the key otherwise, and not at all for the four keys that only repeat other things. If there are both a description of the file and a name of the product, the titles are the description and then the name, in whatever order they are stored.", "quantifier": "all lists of nodes, with any names and values, missing ones included", "why_tests_cant": "The test programs have few keys, each once; keys may be repeated, missing, blank or in any order.", "anchors": ["hachoir/metadata/program.py: ExeMetadata.readVersionInfo, ExeMetadata.KEY_TO_ATTR, ExeMetadata.SKIP_KEY"]}
{"id": "C203", "title": "Files that are carved out", "statement": "The search for embedded files writes one file for every file found that has a known size below 100 MB, passes the filter and is not the whole of what is searched, in the order in which they are found; no two files written have the same name, and each file that lies within what is searched is written with exactly its bytes.", "quantifier": "all contents, all lists of files found, at any offsets, with any sizes and suffixes", "why_tests_cant": "Tests carve a few files out of small inputs; numbers grow beyond four digits and suffixes follow digits, so that names could meet only after thousands of files.", "anchors": ["hachoir/subfile/output.py: Output.createFilename, Output.writeFile", "hachoir/subfile/search.py: SearchSubfile.processParser, SearchSubfile.searchSubfiles", "hachoir/parser/parser.py: HachoirParser.createFilenameSuffix"]}
