{"id": "C01", "title": "Unsigned LEB128 round trip", "statement": "For every u64 value v and every trailing byte string, reading an unsigned LEB128 from write_uleb128(v) followed by the trailing bytes returns v and leaves exactly the trailing bytes; the count returned by the writer is the number of bytes it emitted and is between 1 and 10.", "quantifier": "all v in 0..2^64 and all byte strings following the encoding", "why_tests_cant": "2^64 values times unbounded suffixes", "anchors": ["src/write/util.rs: write_uleb128", "src/read/util.rs: Bytes::read_uleb128"]}
{"id": "C02", "title": "Unsigned LEB128 reader accepts exactly the in-range encodings", "statement": "Bytes::read_uleb128 never panics and succeeds exactly when the input starts with a byte group whose last byte alone has the high bit clear, that is at most 10 bytes long and whose base-128 value is below 2^64; it then returns that value and the rest of the input. It never silently wraps or truncates.", "quantifier": "all byte strings", "why_tests_cant": "unbounded set of inputs including overlong and overflowing encodings", "anchors": ["src/read/util.rs: Bytes::read_uleb128"]}
{"id": "C03", "title": "Signed LEB128 round trip", "statement": "For every i64 value v and every trailing byte string, reading a signed LEB128 from write_sleb128(v) followed by the trailing bytes returns v and leaves exactly the trailing bytes, and the returned count equals the number of bytes emitted (1..10).", "quantifier": "all v in -2^63..2^63 and all byte strings following the encoding", "why_tests_cant": "2^64 values times unbounded suffixes", "anchors": ["src/write/util.rs: write_sleb128", "src/read/util.rs: Bytes::read_sleb128"]}
{"id": "C04", "title": "Signed LEB128 reader is exact and total", "statement": "Bytes::read_sleb128 never panics; when it succeeds the value returned is the two's complement base-128 value of the bytes consumed and it consumes one complete group of at most 10 bytes; it rejects encodings whose value does not fit an i64.", "quantifier": "all byte strings", "why_tests_cant": "unbounded set of inputs", "anchors": ["src/read/util.rs: Bytes::read_sleb128"]}
{"id": "C05", "title": "Slice reads return exactly the requested range or an error", "statement": "For a byte-slice data source, read_bytes_at(offset,size) returns the bytes offset..offset+size when that range lies in the data, the empty slice when size is 0, and an error otherwise (including when offset+size exceeds 2^64); the cursor version advances the cursor by size on success and leaves it unchanged on failure. Nothing panics.", "quantifier": "all data, all u64 offsets and sizes", "why_tests_cant": "offset/size arithmetic edge cases at 2^64 are unbounded in number", "anchors": ["src/read/read_ref.rs: ReadRef for &[u8], read_bytes, read_at, read_slice_at"]}
{"id": "C06", "title": "Delimited reads stop at the first delimiter inside the range", "statement": "read_bytes_at_until(start..end, d) on a byte slice succeeds exactly when start..end lies in the data and contains d; the result is the bytes from start up to the first d. String table lookups StringTable::get inherit this: the result contains no NUL, is followed by a NUL and lies between the table's start and end.", "quantifier": "all data, ranges, delimiters", "why_tests_cant": "all positions of the delimiter relative to the range", "anchors": ["src/read/read_ref.rs: read_bytes_at_until", "src/read/util.rs: StringTable::get"]}
{"id": "C07", "title": "Byte cursor reads consume exactly what they return", "statement": "Every Bytes read (skip, read_bytes, read, read_slice, read_string) either returns the leading bytes and leaves exactly the remaining ones, or fails and leaves the cursor empty, so a later read of one or more bytes fails too; none panics.", "quantifier": "all byte strings and all sequences of cursor operations", "why_tests_cant": "unbounded operation sequences", "anchors": ["src/read/util.rs: Bytes"]}
{"id": "C08", "title": "Cached file reads are indistinguishable from in-memory reads", "statement": "Whatever reads were made before on the same ReadCache, read_bytes_at through the cache gives the same result as read_bytes_at on the whole contents held in memory. For read_bytes_at_until the same holds when the string and delimiter fit in the range and are shorter than the cache's 4096-byte limit and no earlier read used the same start and delimiter with a larger range end.", "quantifier": "all file contents, all histories of reads", "why_tests_cant": "results could depend on any history of earlier reads", "anchors": ["src/read/read_cache.rs: ReadCache, ReadCacheRange"]}
{"id": "C09", "title": "String table writer: every string can be read back", "statement": "After any sequence of string additions to the writer's string table (any order, any duplicates, any suffix relationships), writing the table produces bytes in which, for every added string, the offset reported for it is the start of that string followed by a NUL, so StringTable::get on the written bytes returns the string.", "quantifier": "all finite sets of NUL-free byte strings, all insertion orders, all base offsets", "why_tests_cant": "suffix sharing depends on the whole set of strings", "anchors": ["src/write/string.rs: StringTable::add/write/get_offset, sort", "src/read/util.rs: StringTable::get"]}
{"id": "C10", "title": "String table size equals what is written; ids deduplicate", "statement": "StringTable::size(base) equals the size returned by write(base), which equals base plus the number of bytes emitted. Adding equal strings gives equal ids and different strings different ids. Every added string's text is returned by get.", "quantifier": "all sets of strings and base offsets", "why_tests_cant": "depends on the whole set", "anchors": ["src/write/string.rs: StringTable::size/write/add/get"]}
{"id": "C11", "title": "Output buffers agree with each other", "statement": "Any sequence of write/align/resize-free operations leaves the in-memory Vec buffer, the counting buffer and an error-free streaming buffer with the same length, and Vec and streaming with the same bytes. After the underlying stream reports an error, nothing more is sent to it until the error is collected.", "quantifier": "all operation sequences, all byte strings", "why_tests_cant": "unbounded operation sequences and failure points", "anchors": ["src/write/util.rs: WritableBuffer, StreamingBuffer, CountingBuffer"]}
{"id": "C12", "title": "Alignment rounds up to the least multiple", "statement": "For every power-of-two size and offset where offset+size does not overflow, the crate's align functions return the least multiple of size that is at least offset; write_align pads with zero bytes to exactly that length.", "quantifier": "all offsets, all power-of-two alignments", "why_tests_cant": "unbounded values", "anchors": ["src/write/util.rs: align, align_u32, align_u64, write_align", "src/read/util.rs: align"]}
{"id": "C13", "title": "Symbol map address lookup", "statement": "SymbolMap built from any list of symbols: the entry returned for an address is one with the greatest start address not above it, none is returned exactly when every symbol starts above it; the containing lookup returns it only if the address lies within the symbol's size.", "quantifier": "all symbol lists (any order, duplicates) and addresses", "why_tests_cant": "depends on the whole list; binary search boundaries", "anchors": ["src/read/symbol_map.rs: SymbolMap"]}
{"id": "C14", "title": "Symbol map builder deduplicates by address and guesses sizes", "statement": "The map built from symbols and section ends has strictly increasing addresses, contains only addresses of named defined symbols, keeps for each address a symbol of the best priority, fills in a zero size only up to the next known start or section end, and has an entry for every such symbol's address (unless every known address is the last one of the address space, when it is empty).", "quantifier": "all sets of symbols and sections", "why_tests_cant": "depends on the whole set", "anchors": ["src/read/symbol_map.rs: SymbolMapBuilder"]}
{"id": "C15", "title": "Archive member iteration terminates and members stay in bounds", "statement": "Iterating the members of any (untrusted) archive terminates: each yielded member advances the cursor by at least the member header, an error ends the iteration, every in-file member's data range lies after its header and before the next member for common, thin and z/OS archives (so ranges do not overlap); AIX big archives yield exactly the members their index names, in order; parsing and iterating never panic; member data is exactly the named range of the file or an error.", "quantifier": "all byte strings presented as an archive", "why_tests_cant": "adversarial size fields", "anchors": ["src/read/archive.rs: ArchiveFile::members, ArchiveMemberIterator, ArchiveMember::parse"]}
{"id": "C16", "title": "Archive numeric fields", "statement": "Decimal header fields are parsed as the number written before the first space; non digits are rejected; values above u64 are rejected rather than wrapped; formatting a number in decimal and padding with spaces parses back.", "quantifier": "all byte strings", "why_tests_cant": "all field contents", "anchors": ["src/read/archive.rs: parse_u64_digits"]}
{"id": "C17", "title": "SysV ELF hash table: every hashed symbol is found", "statement": "For any list of symbol names, the hash table emitted by the writer with any non-zero bucket count, read back by the reader, finds every symbol other than index 0: the lookup of its name returns a symbol with that name; a name not in the table is not found.", "quantifier": "all symbol lists, bucket counts, byte orders", "why_tests_cant": "chain structure depends on all hashes", "anchors": ["src/write/elf/encoder.rs: hash_table", "src/read/elf/hash.rs: HashTable::find"]}
{"id": "C18", "title": "GNU ELF hash table: every hashed symbol is found", "statement": "For any list of symbols sorted by bucket as documented, any power-of-two bloom filter and shift below 32, the emitted GNU hash table read back finds every hashed symbol by name (no false negatives from the bloom filter or chain termination) and does not find names that are absent.", "quantifier": "all symbol lists, bucket counts, bloom sizes, classes", "why_tests_cant": "bloom bits and chain ends depend on all hashes", "anchors": ["src/write/elf/encoder.rs: gnu_hash_table", "src/read/elf/hash.rs: GnuHashTable::find"]}
{"id": "C19", "title": "Hash lookups on untrusted tables terminate, stay in bounds and are sound", "statement": "Lookup in any parsed SysV or GNU hash table terminates, never reads outside the table, and only returns a symbol whose name equals the requested one; it does not panic (for GNU tables with a bloom shift of 32 or more the debug build panics: the property holds only below 32).", "quantifier": "all byte strings as hash sections, all names", "why_tests_cant": "cyclic chains and hostile counts", "anchors": ["src/read/elf/hash.rs"]}
{"id": "C20", "title": "ELF note iteration", "statement": "Iterating notes in any data terminates, never panics, each note's name and descriptor are the sub-ranges described by its header with the section's alignment, notes do not overlap and appear in order, and after an error the iteration is over. A sequence of notes laid out by the ELF rules is read back exactly.", "quantifier": "all byte strings, all alignments, all note lists", "why_tests_cant": "size fields are attacker controlled", "anchors": ["src/read/elf/note.rs: NoteIterator, Note"]}
{"id": "C21", "title": "CREL relocations decode", "statement": "Decoding compact relocations terminates after exactly the header's count or an error, is fused after an error, never panics, and decoding the encoding of any relocation list (any count, addend presence and shift) yields that list with modular offset arithmetic.", "quantifier": "all byte strings; all relocation lists", "why_tests_cant": "unbounded lists of delta encoded entries", "anchors": ["src/read/elf/relocation.rs: CrelIterator"]}
{"id": "C22", "title": "RELR relative relocations decode", "statement": "Iterating RELR words yields exactly the offsets described by the specification (an even word is an address, an odd word is a bitmap of the following words), without panicking and in a number of steps bounded by 64 times the number of words.", "quantifier": "all lists of words, both classes", "why_tests_cant": "bitmap positions depend on all earlier words", "anchors": ["src/read/elf/relocation.rs: RelrIterator"]}
{"id": "C23", "title": "Relocation section chains terminate", "statement": "For any section table, following RelocationSections::get repeatedly from a section visits only valid relocation section indices and never cycles; a relocation section is linked only to the section it applies to.", "quantifier": "all section tables, including hostile sh_info", "why_tests_cant": "cycles could involve any number of sections", "anchors": ["src/read/elf/relocation.rs: RelocationSections"]}
{"id": "C24", "title": "Mach-O exports trie traversal", "statement": "Traversing the exports trie of any data never revisits a node that is on the current path, never panics, its depth is at most the data length, and each symbol's name is the concatenation of edge labels on the path to its node. Traversal of a trie that encodes a finite name map yields exactly that map.", "quantifier": "all byte strings; all tries", "why_tests_cant": "cyclic and deeply nested hostile tries", "anchors": ["src/read/macho/exports_trie.rs"]}
{"id": "C25", "title": "Mach-O rebase and bind opcodes", "statement": "The rebase and bind iterators never panic on any opcode stream; expanding a run opcode with count n yields exactly n entries at addresses start + i*stride modulo 2^64; errors end the iteration.", "quantifier": "all opcode streams", "why_tests_cant": "run counts up to 2^64 and address wrap-around", "anchors": ["src/read/macho/dyld_info.rs"]}
{"id": "C26", "title": "Mach-O function starts are strictly increasing", "statement": "Function start addresses produced from any data are strictly increasing, never wrap past 2^64, are the running sums of the deltas, and end at the first zero delta or end of data.", "quantifier": "all byte strings and start addresses", "why_tests_cant": "unbounded streams", "anchors": ["src/read/macho/function_starts.rs"]}
{"id": "C27", "title": "Mach-O load command iteration", "statement": "Iterating load commands yields at most ncmds commands, each of at least 8 bytes and lying back to back inside the command area; a bad size is an error that ends the iteration; it never panics.", "quantifier": "all byte strings and ncmds", "why_tests_cant": "hostile cmdsize", "anchors": ["src/read/macho/load_command.rs"]}
{"id": "C28", "title": "PE base relocation round trip", "statement": "Relocations added to the PE writer in increasing page order and written as base relocation blocks are read back by the reader as the same (address,type) list, each block is a multiple of 4 bytes, and the total size equals the size reserved.", "quantifier": "all relocation lists sorted by address", "why_tests_cant": "block splitting and padding depend on the whole list", "anchors": ["src/write/pe.rs: add_reloc, reserve_reloc_section, write_reloc_section", "src/read/pe/relocation.rs"]}
{"id": "C29", "title": "PE base relocation parsing of untrusted data", "statement": "Parsing base relocation blocks of any data terminates, never panics, yields non-overlapping blocks inside the data and an error ends it.", "quantifier": "all byte strings", "why_tests_cant": "hostile block sizes", "anchors": ["src/read/pe/relocation.rs"]}
{"id": "C30", "title": "PE RVA to file mapping", "statement": "For any section table, mapping an RVA returns file bytes only of a section whose virtual range contains the RVA, the file range lies within that section's raw data, and the first such section is used; arithmetic never overflows.", "quantifier": "all section headers and RVAs", "why_tests_cant": "u32 overflow at section ends", "anchors": ["src/read/pe/section.rs: pe_data_at, pe_file_range_at, contains_rva"]}
{"id": "C31", "title": "COFF long section names round trip", "statement": "For every string table offset the writer accepts, the 8-byte section name it writes is decoded by the reader to the same offset (decimal up to 9,999,999, base 64 above); short names are returned unchanged unless they begin with '/'.", "quantifier": "all u32 offsets / all names", "why_tests_cant": "all 2^32 offsets", "anchors": ["src/write/coff/writer.rs: write_section_header", "src/read/coff/section.rs: name_offset"]}
{"id": "C32", "title": "COFF relocation count overflow encoding", "statement": "For any number of relocations below 2^32-1, the count written (with the overflow entry if needed) makes the reader return exactly the relocations written, in order.", "quantifier": "all counts", "why_tests_cant": "boundary at 0xffff and 0x10000", "anchors": ["src/write/coff/writer.rs", "src/read/coff/section.rs: coff_relocations"]}
{"id": "C33", "title": "ELF header count overflow encoding", "statement": "For any number of segments, sections and any string section index below 2^32, the header and null section written by the writer make the reader recover exactly those numbers.", "quantifier": "all counts, both classes and byte orders", "why_tests_cant": "boundaries at 0xff00 and 0xffff", "anchors": ["src/write/elf/encoder.rs: file_header, null_section_header", "src/read/elf/file.rs: phnum, shnum, shstrndx"]}
{"id": "C34", "title": "ELF relocation info packing", "statement": "For every symbol index and relocation type that the class can hold, the packed r_info read back gives the same symbol and type, for 32-bit, 64-bit and the MIPS64 little-endian layout, and whole relocation sections are read back in order. For 32-bit files, a symbol index of 2^24 or more or a type of 2^8 or more is stored modulo those bounds (the encoder documents no check).", "quantifier": "all symbol/type pairs", "why_tests_cant": "2^64 combinations", "anchors": ["src/elf.rs: Rel*/Rela*", "src/write/elf/encoder.rs: relocation"]}
{"id": "C35", "title": "ELF build attributes round trip", "statement": "Attribute subsections, sub-subsections and index lists written by AttributesWriter are read back as the same structure, and parsing any data terminates without panicking.", "quantifier": "all nested attribute lists, all byte strings", "why_tests_cant": "nested length fields depend on content", "anchors": ["src/write/elf/encoder.rs: AttributesWriter", "src/read/elf/attributes.rs"]}
{"id": "C36", "title": "ELF symbol version iteration and table", "statement": "Iterating version definitions and requirements terminates on any data; building the version table never indexes out of bounds; a table built from written definitions gives for each version index the name written for it.", "quantifier": "all byte strings; all version lists", "why_tests_cant": "linked records with hostile offsets", "anchors": ["src/read/elf/version.rs"]}
{"id": "C37", "title": "Writer layout never overlaps", "statement": "Successive reservations in the ELF, COFF and PE writers return offsets that are aligned as requested, and the reserved ranges are pairwise disjoint and increasing, and the file length covers them all.", "quantifier": "all sequences of reservations", "why_tests_cant": "unbounded sequences", "anchors": ["src/write/elf/writer.rs: reserve", "src/write/coff/writer.rs: reserve", "src/write/pe.rs: reserve_virtual, reserve_section"]}
{"id": "C38", "title": "Builder tables: stable ids", "statement": "In the builder, ids of table entries never change or get reused, deletion hides an entry from iteration but not others, and iteration order is insertion order.", "quantifier": "all operation sequences", "why_tests_cant": "unbounded histories", "anchors": ["src/build/table.rs"]}
{"id": "C39", "title": "GNU-style compressed debug section header", "statement": "A .zdebug section starting with ZLIB and a big-endian length is reported as zlib data starting 12 bytes later with that uncompressed size; otherwise an error or no compression is reported.", "quantifier": "all section data", "why_tests_cant": "all header contents", "anchors": ["src/read/gnu_compression.rs"]}
{"id": "C40", "title": "Endian conversion round trip", "statement": "For every integer width and both byte orders, storing a value as an endian integer and reading it back gives the same value, and the bytes stored are the base-256 digits in the stated order; big and little endian are reverses of each other.", "quantifier": "all values of u16,u32,u64 (and signed)", "why_tests_cant": "2^64 values", "anchors": ["src/endian.rs"]}
{"id": "C41", "title": "File kind detection", "statement": "FileKind::parse depends only on the leading magic bytes and never reports a kind whose magic is absent; it never panics and fails on data shorter than 16 bytes.", "quantifier": "all byte strings", "why_tests_cant": "unbounded inputs", "anchors": ["src/read/mod.rs: FileKind::parse_at"]}
{"id": "C42", "title": "ELF symbol and section table lookups stay in bounds", "statement": "Section data, segment data and symbol lookups on any ELF file return sub-ranges of the file equal to the header's offset and size, or an error; index 0 sections and out-of-range indices are errors.", "quantifier": "all files", "why_tests_cant": "hostile headers", "anchors": ["src/read/elf/section.rs", "src/read/elf/symbol.rs", "src/read/elf/segment.rs"]}
{"id": "C43", "title": "Section data appended through the generic writer is placed aligned and disjoint", "statement": "Object::append_section_data returns aligned offsets, never overlaps earlier data of the section, keeps earlier bytes, and raises the section alignment to the maximum requested.", "quantifier": "all sequences of appends", "why_tests_cant": "unbounded sequences", "anchors": ["src/write/mod.rs: Section::append_data, append_section_data"]}
{"id": "C44", "title": "String table suffix sharing is complete", "statement": "The bytes emitted by the writer's string table are exactly those of the added strings that are not proper suffixes of other added strings, each once with its terminator: no string that is a suffix of another added string is ever stored separately, for any insertion order.", "quantifier": "all finite sets of NUL-free strings, all insertion orders", "why_tests_cant": "the order produced by the multikey quicksort depends on the whole set", "anchors": ["src/write/string.rs: sort, StringTable::write"]}
{"id": "C45", "title": "GNU property iteration", "statement": "Iterating the properties of a GNU property note terminates on any descriptor, never panics, returns exactly the consecutive properties described by their headers (each padded to 4 or 8 bytes by class), ends normally only at the end of the data and reports an error for a truncated or unpadded property; properties laid out by the ABI are read back exactly; the iterator exists only for notes named GNU of type NT_GNU_PROPERTY_TYPE_0.", "quantifier": "all byte strings; all property lists; both classes and byte orders", "why_tests_cant": "size fields are attacker controlled", "anchors": ["src/read/elf/note.rs: GnuPropertyIterator, Note::gnu_properties"]}
{"id": "C46", "title": "PE rich header", "statement": "RichHeaderInfo::parse never panics and reports a rich header exactly when, before the NT headers, the first 4-aligned Rich marker is followed by a key and preceded by a start sequence masked with that key; the reported range and entries are the bytes between the markers, and a rich header embedded in any stub without earlier markers is returned with its entries unmasked.", "quantifier": "all byte strings, all NT header offsets, all entry lists and keys", "why_tests_cant": "all placements of the markers and all masks", "anchors": ["src/read/pe/rich.rs: RichHeaderInfo::parse, unmasked_entries, memmem"]}
{"id": "C47", "title": "ELF symbols round trip with extended section indices", "statement": "Symbols written by the ELF writer (any number, any section index below 2^32) are read back with every field and their section, through the extended section index table when the index does not fit in the symbol, and out-of-range symbol indices are errors.", "quantifier": "all symbol lists, both classes and byte orders", "why_tests_cant": "section indices around 0xff00 and table interplay", "anchors": ["src/write/elf/encoder.rs: symbol", "src/write/elf/writer.rs: write_symbol, write_symtab_shndx", "src/read/elf/symbol.rs: SymbolTable"]}
{"id": "C48", "title": "ELF compressed sections", "statement": "A section flagged as compressed is reported as zlib or zstandard data exactly when its compression header lies in the file and in the section with that type, with the header's uncompressed size and the rest of the section as compressed data; otherwise an error. Sections neither flagged nor named .zdebug_ are reported uncompressed with their full range. No panic.", "quantifier": "all section headers and files", "why_tests_cant": "hostile sizes and offsets", "anchors": ["src/read/elf/section.rs: compression, maybe_compressed, maybe_compressed_gnu, compressed_file_range"]}
{"id": "C49", "title": "ELF dynamic entries and section groups", "statement": "A dynamic entry is written exactly when it fits the class and is then read back; iterating a dynamic table yields exactly the entries before the first DT_NULL; COMDAT groups written are listed with exactly their member sections, only flagged groups are listed, and reading groups never panics.", "quantifier": "all entries, all section tables, both classes and byte orders", "why_tests_cant": "sign extension and 32-bit overflow at all values", "anchors": ["src/write/elf/encoder.rs: dynamic", "src/read/elf/dynamic.rs", "src/read/elf/comdat.rs", "src/read/elf/section.rs: group, dynamic"]}
{"id": "C50", "title": "Archive round trip", "statement": "An archive laid out by the GNU, GNU 64-bit, BSD, Darwin 64-bit or COFF conventions (with any combination of symbol table, names table and EC symbol table, thin or not, every way of storing member names) is parsed with its kind, thin flag and symbol table range, and iteration yields exactly the members in order with their names, header fields, sizes and data; a member found by iteration is found again by its header offset.", "quantifier": "all archives of the supported layouts, any number of members, any names and contents", "why_tests_cant": "all combinations of special members, name forms and padding", "anchors": ["src/read/archive.rs: ArchiveFile::parse, ArchiveFile::member, ArchiveMember::parse, parse_sysv_extended_name, parse_bsd_extended_name"]}
{"id": "C51", "title": "Archive symbol tables", "statement": "The symbols of a GNU (32/64-bit), BSD (32/64-bit) or COFF archive symbol table are yielded in order, each with its name and the offset of the member defining it.", "quantifier": "all symbol lists", "why_tests_cant": "all table sizes and name layouts", "anchors": ["src/read/archive.rs: ArchiveSymbolIterator"]}
{"id": "C52", "title": "ELF hash functions agree with their references", "statement": "elf::hash equals the System V ABI reference hash and elf::gnu_hash equals the reference GNU hash, for every byte string.", "quantifier": "all names", "why_tests_cant": "the code folds the high bits differently from the reference; all lengths and high-bit carries", "anchors": ["src/elf.rs: hash, gnu_hash"]}
{"id": "C53", "title": "COFF symbol table round trip", "statement": "Symbols written by the COFF writer, with any auxiliary records (file name, section, weak external) that fit, are read back by iteration and by index with every field, including negative section numbers and those up to 0xfeff; the auxiliary records are read back; non-empty names are read back from the name field and string table.", "quantifier": "all lists of symbols and auxiliary records, all names, all string tables", "why_tests_cant": "interplay of record counts, indices, padding and name forms at all lengths", "anchors": ["src/write/coff/writer.rs: write_symbol, write_aux_*, add_name", "src/read/coff/symbol.rs: SymbolTable::parse, SymbolIterator, aux_*"]}
{"id": "C54", "title": "Reading COFF files never panics", "statement": "Parsing the headers, section table, section names, data, relocations, symbol table, symbol names, auxiliary records and addresses of any COFF object or bigobj file never panics; data is taken from within the file; symbol iteration terminates in increasing order; lookup of a section by name finds the first section with that name.", "quantifier": "all byte strings below 2^63 bytes", "why_tests_cant": "hostile counts, offsets and names", "anchors": ["src/read/coff/file.rs", "src/read/coff/section.rs", "src/read/coff/symbol.rs"]}
{"id": "C55", "title": "COFF COMDAT groups", "statement": "The COMDAT iterator yields exactly one group for every section symbol whose section record has a selection other than none and associative and which is followed by a symbol of the same section, in order, with the first such symbol; the sections of a group are exactly its own section and those associated with it.", "quantifier": "all symbol tables", "why_tests_cant": "searches through tables with skipped auxiliary records", "anchors": ["src/read/coff/comdat.rs: CoffComdatIterator, CoffComdat::parse, CoffComdatSectionIterator"]}
{"id": "C56", "title": "COFF section alignment round trip", "statement": "Every alignment the COFF writer accepts (exactly the powers of two from 1 to 8192) is read back from the section flags, whatever the other flags are, and the other flags are unchanged.", "quantifier": "all flags and alignments", "why_tests_cant": "all combinations of flag bits", "anchors": ["src/write/coff/object.rs", "src/pe.rs: SectionFlags::with_align", "src/read/coff/section.rs: coff_alignment"]}
{"id": "C57", "title": "PE export table", "statement": "Parsing an export directory succeeds exactly if the directory and its address, name and ordinal tables lie in the data and the ordinals fit 16 bits, and yields exactly the stored numbers; ordinals and indices convert one to one; a target is the address outside of the export data or the forwarder (LIBRARY.name or LIBRARY.#ordinal, split at the last dot) inside of it; exports() lists every address with its ordinal, target and name; the unified iterator yields one result per name, then one per non-zero unnamed address; no panic.", "quantifier": "all directory contents and addresses", "why_tests_cant": "wrapping 32-bit address arithmetic, ordinal overflow and hostile tables", "anchors": ["src/read/pe/export.rs", "src/read/pe/data_directory.rs: export_table"]}
{"id": "C58", "title": "PE imports", "statement": "Import descriptors, delay-load descriptors and thunks are exactly the records before the null record (an error if there is none, and None after that); a thunk is an import by ordinal or the hint and name at its address; the import table is the section containing the directory, with names in the section containing the first name; imports() and import_libraries() fail exactly if a present directory is not in a section, and otherwise yield, for each library of the import table and then the delay-load table in order, its imports, with an error in place of whatever cannot be read, and then always None; no panic.", "quantifier": "all data directories, section tables and file contents, 32-bit and 64-bit", "why_tests_cant": "nested iterators that go on after errors, wrapping address arithmetic, hostile tables", "anchors": ["src/read/pe/import.rs", "src/read/pe/data_directory.rs: import_table, delay_load_import_table"]}
{"id": "C59", "title": "PE resources", "statement": "A resource table is found exactly if its header and all entries are in the resource data, with exactly the stored values; an entry is a name or id and refers to a table or a data entry as its highest bits say; a name is found exactly if all of its units are in the data and is read as its UTF-16 text, with U+FFFD for whatever is not UTF-16; the resource directory is the data of its data directory; no panic.", "quantifier": "all data, offsets and entries", "why_tests_cant": "bounds of nested tables at all offsets, all sequences of UTF-16 units", "anchors": ["src/read/pe/resource.rs", "src/read/pe/data_directory.rs: resource_directory"]}
{"id": "C60", "title": "Standard sections of the object builder", "statement": "section_id(standard section) returns the first section that matches the standard section's segment, name and kind, or appends a new empty section if there is none; once returned, the same id is returned after any further calls.", "quantifier": "all histories of builder calls, formats and architectures", "why_tests_cant": "caches must stay coherent over every history of calls", "anchors": ["src/write/mod.rs: Object::section_id, add_section, add_subsection", "src/write/*/object.rs: *_section_info"]}
{"id": "C61", "title": "Symbols of the object builder", "statement": "section_symbol returns one symbol per section, created at most once, distinct for distinct sections and stable over any history; add_symbol appends exactly one symbol with the mangled name, found by symbol_id under its unmangled name; symbol ids stay valid and keep their name, kind and scope over all calls other than symbol_mut.", "quantifier": "all histories of builder calls", "why_tests_cant": "indices and maps must agree after every history of calls", "anchors": ["src/write/mod.rs: Object::section_symbol, add_symbol, symbol_id, set_symbol_data, add_symbol_data"]}
{"id": "C62", "title": "Adding relocations to the object builder", "statement": "A successful add_relocation records exactly one relocation of the architecture's type at the given offset and symbol, and changes no other section, symbol or byte, except for the place itself, which receives the addend if the format stores it there (adjusted such that what a reader computes from type and place is the addend asked for); COFF GOT relocations go through one stub section and symbol per target; a failed call changes no existing section.", "quantifier": "all builder states, formats, architectures, relocation kinds, sizes, offsets and addends", "why_tests_cant": "per-format addend adjustments and stubs for every combination of kind, size and addend", "anchors": ["src/write/mod.rs: add_relocation, add_relocation_internal, write_relocation_addend", "src/write/*/object.rs: *_translate_relocation, *_adjust_addend", "src/write/coff/object.rs: coff_add_stub_symbol"]}
{"id": "C63", "title": "Relocation tables and architectures agree between writer and reader", "statement": "Every generic relocation kind, encoding and size that a writer accepts for an architecture is read back as the same kind, encoding and size (up to the listed exceptions), every relocation type that the reader understands can be written again as that type, and a file written for an architecture is read back with that architecture; for ELF, COFF, XCOFF and Mach-O.", "quantifier": "all architectures, byte orders, relocation types (all numbers), kinds, encodings, sizes, addends", "why_tests_cant": "two independently maintained tables per architecture; the reader's is total over all 32-bit types", "anchors": ["src/write/elf/object.rs: elf_translate_relocation, elf_relocation_size", "src/read/elf/relocation.rs: parse_relocation", "src/write/coff/object.rs", "src/read/coff/relocation.rs", "src/write/macho/object.rs", "src/read/macho/relocation.rs", "src/write/xcoff.rs", "src/read/xcoff/relocation.rs"]}
{"id": "C64", "title": "Mach-O relocation records round trip", "statement": "Relocations that fit the format, written to a little-endian Mach-O file, are read back one for one, in the order written, with offset, flags, target (symbol, section or absolute), subtractor and addend; the records are exactly as many as reserved in the layout; sorted relocations are written in descending order; writing fails exactly for what the format cannot express. (For big-endian files the symbol number is lost: a defect of RelocationInfo::relocation.)", "quantifier": "all lists of relocations, symbols, architectures", "why_tests_cant": "paired records, sign extension, bit fields of all values", "anchors": ["src/macho.rs: Relocation::info, RelocationInfo::relocation", "src/read/macho/relocation.rs: MachORelocationIterator", "src/write/macho/object.rs: macho_write (write_reloc)"]}
{"id": "C65", "title": "ELF builder: delete_orphans and delete_unused_versions", "statement": "build::elf::Builder::delete_orphans, on a builder whose ids are all in range, removes deleted sections from segments (and deletes segments left without sections), deletes symbols of deleted sections, removes relocations of deleted symbols and automatic dynamic entries whose section is gone, and changes nothing else; afterwards no kept item refers to a deleted one, and a second call changes nothing. delete_unused_versions deletes exactly the versions used by no kept dynamic symbol (other than GLIBC_ABI_DT_RELR) and exactly the version files needed by no kept version.", "quantifier": "All builders: any number of segments, sections, symbols, relocations, dynamic entries, versions and files, with any of them deleted.", "why_tests_cant": "The cascade runs over arbitrary reference graphs between tables of any size; tests delete one or two items.", "anchors": ["src/build/elf.rs: Builder::delete_orphans, delete_orphan_segments, delete_orphan_symbols, delete_orphan_relocations, delete_orphan_dynamics, delete_unused_versions"]}
{"id": "C66", "title": "ELF builder: segment ranges cover their sections", "statement": "Segment::append_section_range always covers the appended section, and keeps what was covered if the section does not start below the segment; recalculate_ranges covers exactly the span of the sections if they are in order; sections appended to a new PT_LOAD segment with append_section are aligned, do not overlap, are covered, and are loaded at their address (address_from_offset), with p_offset and p_vaddr congruent modulo p_align; add_load_segment places the new segment behind all others; find_load_segment_from_offset finds the first matching segment.", "quantifier": "All segments, all lists of sections with any sizes, alignments, offsets and addresses (with overflow a panic).", "why_tests_cant": "Sequences of appended sections with arbitrary sizes and alignments cannot be enumerated; the order condition is easy to miss in tests.", "anchors": ["src/build/elf.rs: Segment::append_section, append_section_range, recalculate_ranges, contains_offset, address_from_offset, contains_address, Segments::add_load_segment, find_load_segment_from_offset"]}
{"id": "C67", "title": "ELF objects written by write::Object read back", "statement": "For every well-formed object (ids in range, names without NUL, alignments powers of two), Object::write for ELF does not panic; it fails only for what ELF cannot express (architecture, sub-architecture, COMDAT selection, section, symbol or relocation without an ELF type, string tables or 32-bit files of 4 GiB) and always fails for the type-related ones; otherwise the bytes parse as an ELF file with the machine and flags of the object, no segments, and exactly these sections: one group per COMDAT with its symbol and member sections; each section with name, type, flags, size, alignment, contents; each section's relocations in order with offset, symbol, type and addend; a symbol table with every symbol once, locals first, with name, type, binding, visibility, value, size and section (also with more than 65279 sections).", "quantifier": "All objects: any number of sections, symbols, relocations, COMDATs and bytes, all architectures, both classes and byte orders.", "why_tests_cant": "Two passes (layout and emission) over an object of any size must agree byte for byte, with index maps, string table sharing and extended section indices; tests see a few small objects.", "anchors": ["src/write/elf/object.rs: Object::elf_write", "src/write/elf/writer.rs: Writer", "src/read/elf: ElfFile, SectionTable, SymbolTable"]}
{"id": "C68", "title": "Attributes of symbols and sections written as ELF", "statement": "Symbols and sections written to ELF without explicit flags are reported by the read API with the attributes asked for: kind (undefined symbols and labels have none), scope (weak symbols are never compilation-local), weak, local or global, undefined, common, section, address and whether it is a definition; section kinds are kept up to those that ELF cannot tell apart. symbol.section() and SymbolTable::symbol_section agree for every table entry. Each symbol has exactly one entry. Entries below sh_info are exactly those with local binding, provided no compilation-scope symbol is weak or undefined; such symbols are misplaced.", "quantifier": "All objects, symbols and sections; all symbol table entries.", "why_tests_cant": "The combination of kind, scope, weak and section with index ranges over all symbols of any object; two code paths decide about locality.", "anchors": ["src/write/elf/object.rs: elf_section_flags, elf_symbol_flags, elf_write", "src/read/elf/symbol.rs: ElfSymbol", "src/read/elf/section.rs: ElfSection::kind"]}
{"id": "C69", "title": "COFF objects written by write::Object read back", "statement": "For every well-formed object (ids in range, names without NUL, file names of at most 4590 bytes, fewer than 65536 sections, below 4 GiB without the strings), Object::write for COFF does not panic; it fails only for what COFF cannot express (architecture, COMDAT selection or symbol, section, alignment, relocation or symbol without a COFF type, weak symbols that are neither undefined nor in a section, 4 GiB of strings) and always fails for the type-related ones; otherwise, if values fit their fields, the bytes parse as a COFF object with the machine and flags of the object, and exactly these sections, with name, size, alignment, flags, contents and relocations (each with the table index of its symbol), and exactly these symbols: each symbol with name, value, type, class and section, a weak symbol after a uniquely named default symbol that it refers to, the file name in auxiliary records, and section symbols with the size, relocation count, checksum and COMDAT data (selection, or the associated section) of their section.", "quantifier": "All objects: any number of sections, symbols, relocations, COMDATs and bytes, all architectures.", "why_tests_cant": "Two passes (layout and emission) over an object of any size must agree byte for byte, with auxiliary records shifting symbol indices, string table sharing, and relocation counts above 0xffff; tests see a few small objects.", "anchors": ["src/write/coff/object.rs: Object::coff_write", "src/write/coff/writer.rs: Writer", "src/read/coff: CoffFile, SectionTable, SymbolTable"]}
{"id": "C70", "title": "Attributes of symbols, sections and COMDATs written as COFF", "statement": "Symbols and sections written to COFF without explicit flags are reported by the read API with the attributes asked for, as far as COFF can express them: kind, scope, weak, local or global, undefined, common, section, address, size and whether it is a definition (weak symbols have their place in the default symbol), and section kinds. The COMDAT groups read are exactly those of the object, one each, with the symbol, section and selection asked for, and their sections are exactly the members, each once, provided that each group symbol is the first symbol of its section after the section symbol and sections belong to one group at most.", "quantifier": "All objects, symbols, sections and COMDAT groups.", "why_tests_cant": "Combination of kind, scope, weak and section over all symbols; COMDAT groups are found by a scan over the symbol table, so that any symbol of any object may be mistaken for the group symbol.", "anchors": ["src/write/coff/object.rs: coff_section_flags, coff_symbol_flags, coff_write", "src/read/coff/symbol.rs: CoffSymbol", "src/read/coff/section.rs: ImageSectionHeader::kind", "src/read/coff/comdat.rs: CoffComdat, CoffComdatIterator, CoffComdatSectionIterator"]}
{"id": "C71", "title": "Mach-O objects written by write::Object read back", "statement": "For every well-formed object (ids in range, symbol names without NUL, alignments powers of two), Object::write for Mach-O does not panic; it fails only for what Mach-O cannot express (architecture, more than 255 sections or 2^24 symbols, long section names, labels, a section or symbol without a Mach-O type, relocations without Mach-O records, 4 GiB files) and always fails for the type-related ones; otherwise the bytes parse as a Mach-O object with the CPU type, subtype and flags of the object, one segment with exactly these sections, each with names, address, size, alignment, flags, contents and (in little-endian files) relocations, at disjoint addresses; a symbol table with exactly the symbols that Mach-O stores, local symbols first, then defined external ones and then undefined and common ones by name, each with name, type, description, section and value; the dynamic symbol table command delimits these three groups, and the build version is kept.", "quantifier": "All objects: any number of sections, symbols, relocations and bytes, all architectures, both classes and byte orders.", "why_tests_cant": "Two passes (layout and emission) over an object of any size must agree byte for byte, with the symbol table sorted and renumbered, and relocations counted before they are written; tests see a few small objects.", "anchors": ["src/write/macho/object.rs: Object::macho_write, macho_section_flags, macho_symbol_flags", "src/write/macho/encoder.rs: Encoder", "src/read/macho: MachOFile::parse, LoadCommandIterator, SymbolTable, MachOSection"]}
{"id": "C72", "title": "Attributes of symbols and sections written as Mach-O", "statement": "Symbols and sections written to Mach-O without explicit flags are reported by the read API with the attributes asked for, as far as Mach-O can express them: kind (that of the section; a local symbol named ltmp plus digits at the start of its section is a section symbol), scope, weak, local or global, undefined, common (with its size and alignment), section, address and whether it is a definition, and section kinds. Symbol iteration over any symbol table yields exactly the entries that are not debugging entries, in order, and agrees with lookup by index. The groups of LC_DYSYMTAB are those of the view, provided defined symbols have a known scope.", "quantifier": "All objects, symbols, sections; all symbol tables.", "why_tests_cant": "Combination of kind, scope, weak and section over all symbols; two code paths decide about locality.", "anchors": ["src/write/macho/object.rs: macho_section_flags, macho_symbol_flags", "src/read/macho/symbol.rs: MachOSymbol, MachOSymbolIterator, Nlist", "src/read/macho/section.rs: MachOSectionInternal"]}
{"id": "C73", "title": "Reading XCOFF files", "statement": "Parsing any bytes as an XCOFF file never panics; it succeeds only if the headers, section table and symbol table lie in the data, and then sections, relocations, symbols, names and csect auxiliary entries returned are exactly the records at their documented offsets: section contents and relocation entries are the bytes of the file, iteration over the symbol table yields each symbol record once, in order, skipping exactly its auxiliary entries, lookup by index succeeds exactly for indices in the table, names come from the record or the string table, and the csect auxiliary entry of a symbol is its last auxiliary entry if the storage class is external.", "quantifier": "All byte strings, both classes, all section and symbol indices.", "why_tests_cant": "Untrusted input: offsets, counts and auxiliary entry counts of any value.", "anchors": ["src/read/xcoff/file.rs: XcoffFile::parse", "src/read/xcoff/section.rs: SectionTable, SectionHeader", "src/read/xcoff/symbol.rs: SymbolTable, XcoffSymbolIterator, Symbol", "src/read/xcoff/relocation.rs: Rel"]}
{"id": "C74", "title": "Objects written as XCOFF read back", "statement": "For every well-formed object (ids in range, symbol names without NUL, only file symbols without a section), Object::write for XCOFF does not panic; it fails only for what XCOFF cannot express (section names over 8 bytes, sections, symbols or relocations without XCOFF flags, 4 GiB of strings) and always fails for the flag-related ones; otherwise, if the values fit the fields, the bytes parse as an XCOFF file of the class of the architecture, with exactly these sections in order, each with its name, flags, contents, a 4-aligned address (0 if it is not text, data or bss) that does not overlap the other loaded sections, and its relocations with the index of the symbol record; and with exactly these symbols in order, each with its flags, section number, value, name (through the file or string table), auxiliary entry and csect length or containing csect.", "quantifier": "All objects: any number of sections, symbols, relocations and bytes, all architectures, both classes.", "why_tests_cant": "Two passes (layout and emission) over an object of any size must agree byte for byte; indices of symbol records depend on the auxiliary entries of all earlier symbols; tests see a few small objects.", "anchors": ["src/write/xcoff.rs: Object::xcoff_write, xcoff_section_flags, xcoff_symbol_flags", "src/read/xcoff: XcoffFile::parse, SectionTable, SymbolTable"]}
{"id": "C75", "title": "Attributes of symbols and sections written as XCOFF", "statement": "Symbols and sections written to XCOFF without explicit flags are reported by the read API with the attributes asked for, as far as XCOFF can express them: kind (of files and of symbols that are not local), section (a common symbol is undefined), scope, global or local, weak, undefined, definition, address and size (0 for local symbols), and the section kind (read-only sections are text, other and metadata sections unknown, alignment always 4).", "quantifier": "All objects, symbols and sections.", "why_tests_cant": "Combination of kind, scope, weak and section over all symbols; the reader decides from the storage class, the csect entry and the section number.", "anchors": ["src/write/xcoff.rs: xcoff_section_flags, xcoff_symbol_flags", "src/read/xcoff/symbol.rs: XcoffSymbol", "src/read/xcoff/section.rs: XcoffSection"]}
{"id": "C76", "title": "Mach-O universal binaries", "statement": "MachOFatFile::parse never panics and succeeds exactly if the file starts with the magic number of the class and the table of nfat_arch entries lies in the file; the entries returned are the records at their documented offsets. The data of an entry is exactly its range of the file, or an error if it is not in the file. A table that fits its fields is read back, whatever follows it. The architecture of an entry agrees with the one reported for a Mach-O file of the same CPU type (other than ARM64_32), and FileKind::parse reports the matching kind for everything that parses.", "quantifier": "all byte strings; all tables of any length whose values fit the fields", "why_tests_cant": "The input is untrusted and of any size; offsets and counts are arbitrary.", "anchors": ["src/read/macho/fat.rs: MachOFatFile::parse, FatArch::{data, file_range, architecture}"]}
{"id": "C77", "title": "Mach-O code signatures", "statement": "Parsing a code signature or code directory never panics and succeeds exactly if the super blob header and index (or the header of the directory's version) lie in the data, with exactly the stored fields. Iterating the blobs gives one result per index entry, in order: the blob at its offset or an error, and errors do not stop it. Special and code hashes are the hash_size bytes before or after the hash offset, found exactly if the slot exists and the hash is in the data; identifiers are the strings at their offsets; the 64-bit code limit is used if it is not zero. Directories and signatures written with CodeSignatureEncoder are read back field by field and blob by blob, in as many bytes as code_directory_size says.", "quantifier": "all byte strings, slots and page numbers; all code directories whose values fit; all lists of blobs", "why_tests_cant": "Versions, offsets, slot numbers and sizes are arbitrary, and the checks are about overflow and truncation.", "anchors": ["src/read/macho/codesign.rs: CodeSignature, CodeSignatureBlobIterator, CodeDirectory", "src/write/macho/encoder.rs: CodeSignatureEncoder, CodeDirectory::from_raw"]}
{"id": "C78", "title": "COFF short import files are read exactly", "statement": "Parsing a COFF short import file (the members of Windows import libraries) never panics, and succeeds exactly when the signature and version are those of an import header and its strings lie in the data; then the symbol and DLL names are the first two zero terminated strings, the kind is that of the type bits, and what is imported is, by the name type, the ordinal, the symbol, the symbol without one leading `?`, `@` or `_`, also cut at the first `@`, or the third string. The bytes of an import file written to that layout read back to what was written, `FileKind::parse` identifies them, and the architecture is that of COFF objects for the machine (except PowerPC).", "quantifier": "all byte strings; all machines, times, ordinals, kinds, name types and names", "why_tests_cant": "names, decorations and malformed files are unbounded", "anchors": ["src/read/coff/import.rs: ImportFile, ImportObjectHeader, ImportObjectData", "src/pe.rs: ImportObjectHeader, ImportObjectFlags"]}
{"id": "C79", "title": "Imports, exports and needed libraries of ELF files", "statement": "For an ELF file, `imports()` yields, in symbol table order, exactly one item for each undefined dynamic symbol with a non-empty name (skipping the null symbol), with its weakness, flags, version name and the library its version is required from; `exports()` one for each dynamic symbol that is not local, lies in a section or is absolute, and has a supported type, with the target its type calls for and its version, hidden or not; `import_libraries()` the names of the `DT_NEEDED` entries before the end of the dynamic table. A bad name or version makes an error of that item alone and the iteration goes on; nothing panics.", "quantifier": "all symbol tables, version tables, string tables, dynamic tables and file contents", "why_tests_cant": "the tables are unbounded and every combination of binding, type, section and version matters", "anchors": ["src/read/elf/import.rs: ElfImportIterator, ElfImportLibraryIterator", "src/read/elf/export.rs: ElfExportIterator", "src/read/elf/file.rs: imports, exports, import_libraries"]}
{"id": "C80", "title": "Build ID and debug links of ELF files", "statement": "`build_id()` returns the contents of the first GNU build ID note, looking through the note sections in order (or the note segments if the file has no sections), fails if a note before it is malformed, and returns nothing exactly if all notes are well formed and none is a build ID. `gnu_debuglink()` and `gnu_debugaltlink()` return the zero terminated file name of the section with that name, with the checksum at the next multiple of four, or the bytes that follow. None of them panics.", "quantifier": "all section tables, segments, notes, and file contents", "why_tests_cant": "notes and names are unbounded and may be malformed anywhere", "anchors": ["src/read/elf/file.rs: build_id, gnu_debuglink, gnu_debugaltlink", "src/read/elf/section.rs: SectionHeader::notes", "src/read/elf/segment.rs: ProgramHeader::notes"]}
{"id": "C81", "title": "Mach-O chained fixups", "statement": "For the chained fixups of a Mach-O file: the header, the imports and the chain starts of the segments are parsed without panicking, successfully exactly if they lie in the data (and the version and the symbol format are supported), with exactly the stored fields; the imports come in order up to the first bad entry, and a bad segment is an error for that segment only. For each of the fourteen pointer formats every value decodes to exactly the rebase, bind, kernel cache or segmented fixup its bit fields encode (and encoded fields are read back), including signed addends and authentication data, with the distance to the next pointer. Iterating over the fixups of a segment ends, without panicking, for all chain starts and segment contents: it gives the fixups of the chains of the pages in order, with their offsets, then one error if a chain leaves the segment or a start is missing.", "quantifier": "all byte strings as fixup data and as segments, all pointer values, formats, load addresses and chain starts", "why_tests_cant": "chains are linked lists in untrusted data of any length, and the pointer formats are 64-bit layouts", "anchors": ["src/read/macho/fixup.rs: DyldChainedFixups, DyldChainedImportIterator, DyldChainedSegmentIterator, DyldChainedFixupIterator, Fixup", "src/macho.rs: DyldChainedPtr*, DyldChainedImport*"]}
{"id": "C82", "title": "Import libraries and imports of Mach-O files", "statement": "For a Mach-O file, `import_libraries()` yields, in the order of the load commands and numbered from 1, one item for each command that loads a library, with its name, versions and use flags; one that is malformed is an error for that library only, and still counts. `imports()` yields the imports of the last chained fixups command, or without one those of the last dyld info command (from the bind, weak bind and lazy bind opcodes, one for each symbol that is bound, from the library that is set), or without any the undefined symbols of the symbol table; imports from the file itself are left out, and each has the name of the library its number stands for, or an error if there is none. Nothing panics.", "quantifier": "all load commands, symbol tables, opcode streams, fixups and file contents", "why_tests_cant": "commands, opcodes and symbols are unbounded sequences of untrusted data with state between them", "anchors": ["src/read/macho/import.rs: MachOImportLibraryIterator, MachOImportIterator", "src/read/macho/file.rs: libraries, imports, import_libraries", "src/read/macho/load_command.rs: dylib, dylib_use_flags, dyld_info, dyld_chained_fixups"]}
{"id": "C83", "title": "Exports of Mach-O files", "statement": "For a Mach-O file, `exports()` yields the symbols of the exports trie of the last command for one (or of the last dyld info command), in the order of the traversal, with addresses relative to the `__TEXT` segment modulo 2^64, absolute and thread local symbols and resolvers by their flags, and reexports with the name of the library; without such a command it yields one item for each external symbol of the symbol table that is absolute, indirect or in a section. A symbol with a bad kind, name, section or library is an error for that item only. Creating the iterator never panics and fails exactly if the load commands or the place of the trie are malformed.", "quantifier": "all load commands, tries, symbol tables and file contents", "why_tests_cant": "tries and symbol tables are unbounded untrusted data", "anchors": ["src/read/macho/export.rs: MachOExportIterator", "src/read/macho/load_command.rs: dyld_exports_trie, dyld_info"]}
{"id": "C84", "title": "Reading PE images", "statement": "For any bytes and either width, parsing a PE image succeeds exactly if the DOS header, the NT headers with the right magic numbers, the data directories and the section headers lie in the file as the format lays them out, and then all header fields, directories and sections are exactly the stored values (a COFF symbol table that does not fit is treated as empty); no file is a valid image of both widths, and a valid image is detected as the file kind of its width. Architecture, kind, entry point, section lookup by number and name, section addresses, contents, address ranges and permissions, and the PDB information (the first RSDS CodeView record of the debug directory, entries before it being skipped) are exactly those the headers define. Nothing panics.", "quantifier": "all byte strings (below 2^63), both widths, all section indices, names and address ranges", "why_tests_cant": "header offsets, counts and sizes come from untrusted data of any length", "anchors": ["src/read/pe/file.rs: PeFile, ImageNtHeaders, ImageDosHeader, pdb_info", "src/read/pe/section.rs: PeSection, PeSegment", "src/read/coff/section.rs: SectionTable"]}
{"id": "C85", "title": "Writing PE images", "statement": "For every image that a client reserves and writes with the PE writer in the documented order (any DOS header and stub, further data, data directories, sections of all kinds, base relocations and certificates; alignments powers of two, data as long as reserved, file below 4 GiB): reserving does not panic if there is room, writing does not panic and writes no more than reserved, and the file is read back as the image that was asked for: all header fields (sizes of code and data, base addresses, image and header size), each data directory, each section with its name, characteristics and the ranges that were returned, its contents padded with zeros, and the certificate table at its directory. The sections are disjoint and aligned in the file and in memory; reading at an address of a section gives the data written to it; the directories of the import, export, resource, exception and base relocation sections are found and their data is that of the section, for base relocations exactly those added.", "quantifier": "all clients: DOS headers, data, directory counts and values, lists of sections and their contents, base relocations, certificates, header values, alignments, both widths", "why_tests_cant": "layout and header values depend on all reservations; sizes and numbers of sections are unbounded", "anchors": ["src/write/pe.rs: Writer, NtHeaders, SectionRange", "src/read/pe/file.rs: PeFile::parse"]}
{"id": "C86", "title": "Reading Mach-O files", "statement": "For any bytes and either width, parsing a Mach-O file succeeds exactly if the header with its magic number, the segments with their sections and the symbol tables lie in the file as the format lays them out, and then header, segments, sections (with kind and file offset, also in segments beyond 4 GB) and symbols are exactly the stored values; no file is valid for both widths, and a valid file is detected as the file kind of its width. The load commands are determined by the bytes; identifier, build version and entry point are those of the first load command that has them. Architecture, kind, section lookup by number and name (`.x` for `__x` and, for debug sections, `__zdebug_x`, cut to 16 bytes), contents, address ranges, permissions, GNU compression and the indirect symbols are exactly those the headers define. For a symbol table made of modules the object map has exactly their object files and symbols, sorted by address; for every symbol table its entries refer to objects of the map, and a lookup gives a covering symbol that starts closest before the address. Nothing panics.", "quantifier": "all byte strings (below 2^63), both widths and byte orders, all names, addresses, indices and symbol tables", "why_tests_cant": "load commands, sections and symbols are unbounded untrusted data, and 64-bit offsets are reconstructed from 32 bits", "anchors": ["src/read/macho/file.rs: MachOFile, MachHeader", "src/read/macho/segment.rs: MachOSegment, Segment, SectionOffsetIterator", "src/read/macho/section.rs: MachOSection, Section", "src/read/macho/symbol.rs: object_map", "src/read/symbol_map.rs: ObjectMap"]}
{"id": "C87", "title": "Reading ELF files", "statement": "For any bytes and either class, parsing an ELF file succeeds exactly if the identification, the file header, the program and section headers (with their extended counts), the section names, both symbol tables with their strings and extended section indices, and the relocation sections are laid out as the gABI says, and then all of them are exactly the stored values; no file is valid for both classes, and a valid file is detected as the file kind of its class. Architecture and kind are those of the header, and the machine written for an architecture is read as the same architecture. Section and symbol iteration gives all but the null entries in order; lookup by name gives the first section of that name, or else, for debug sections, the first with the GNU-compressed name. The relocations of a section are those of all the sections that apply to it, in order, each with the stored offset, symbol, type (also in the MIPS 64 little-endian layout) and addend; likewise the dynamic relocations. Sections that cannot be read have none, and the iterations end. Nothing panics.", "quantifier": "all byte strings (below 2^64), both classes and byte orders, all names and section indices", "why_tests_cant": "counts, offsets, links and relocation records come from untrusted data of any length", "anchors": ["src/read/elf/file.rs: ElfFile, FileHeader", "src/read/elf/section.rs: SectionTable, ElfSectionIterator, elf_relocation_section_index", "src/read/elf/symbol.rs: SymbolTable::parse, ElfSymbolIterator", "src/read/elf/relocation.rs: RelocationSections, ElfRelocationIterator, ElfSectionRelocationIterator, ElfDynamicRelocationIterator, parse_relocation"]}
{"id": "C88", "title": "Reading COFF object files", "statement": "For any bytes, ordinary or bigobj, parsing a COFF object succeeds exactly if the header (for bigobj with its signature and class id), the section headers, the symbol table and the string table lie in the file as the format lays them out, and then all of them are exactly the stored values; a file that parses is detected as COFF if its machine is known (bigobj: its version is 2). Architecture, sub-architecture and byte order are those of the machine, and the machine written for an architecture is read as the same architecture. Sections are numbered from 1; names are the inline names or the strings at the decimal or base64 offset; lookup by name gives the first section of that name. Contents, file ranges, address ranges, kinds and permissions are exactly those the headers define. The relocations of a section are exactly the stored records (also with the extended count), each with kind, encoding, size and addend of its type; a section whose records do not fit has none. Symbol iteration gives the symbols with the auxiliary records skipped and ends; names and addresses are those stored. What the COFF writer wrote is read back with its sections and names. Nothing panics.", "quantifier": "all byte strings (below 2^63), both header forms, all indices, names and addresses", "why_tests_cant": "counts, offsets and name encodings come from untrusted data of any length", "anchors": ["src/read/coff/file.rs: CoffFile, CoffHeader, anon_object_class_id", "src/read/coff/section.rs: SectionTable, CoffSection, CoffSegment, ImageSectionHeader", "src/read/coff/symbol.rs: SymbolTable, CoffSymbolIterator, ImageSymbol", "src/read/coff/relocation.rs: CoffRelocationIterator"]}
{"id": "C89", "title": "Relocation maps", "statement": "The relocation map of a section can be made exactly if every relocation of the section either does nothing or is supported (absolute, generic encoding, target a symbol or section of the file), no two of the latter at the same offset. A value read at the offset of a supported relocation is then relocated to the address of the symbol (or of the section; 0 for debug sections) plus the addend, plus the value if the addend is in place, modulo 2^64; all other values are unchanged. If relocations are added one by one and errors are skipped, each addition succeeds exactly if the relocation does nothing or is supported and the first one at its offset, and the last supported relocation at an offset applies. Nothing panics. This holds for the relocations of ELF, COFF, Mach-O and XCOFF sections.", "quantifier": "all files, sections, lists of relocations, offsets and values", "why_tests_cant": "relocations, symbols and sections are unbounded untrusted data and depend on each other; all sequences of additions", "anchors": ["src/read/mod.rs: RelocationMap", "src/read/traits.rs: ObjectSection::relocation_map"]}
{"id": "C90", "title": "Reading XCOFF files", "statement": "For any bytes and either width, parsing an XCOFF file succeeds exactly if the header with its magic number, the auxiliary header (if it is an executable that has a full one), the section headers, the symbol table and the length of the string table lie in the file as the format lays them out, and then all of them are exactly the stored values; no file is valid for both widths, and a valid file is detected as the file kind of its width. Architecture, kind and entry point are those the headers define. Sections are numbered from 1; lookup by name gives the first section of that name. Contents, address ranges, kinds and alignments of sections are exactly those the headers define. The relocations of a section are exactly the stored records, each with the kind, size and addend of its type; a section whose records do not fit or whose count overflowed has none. Symbol iteration gives exactly the symbols of the table and ends. Nothing panics.", "quantifier": "all byte strings (below 2^63), both widths, all indices, names and address ranges", "why_tests_cant": "counts and offsets come from untrusted data of any length", "anchors": ["src/read/xcoff/file.rs: XcoffFile, FileHeader", "src/read/xcoff/section.rs: XcoffSection, SectionTable, SectionHeader", "src/read/xcoff/relocation.rs: XcoffRelocationIterator"]}
{"id": "C91", "title": "Files of any format", "statement": "For any bytes, parsing a file without saying its format succeeds exactly if the bytes are a valid file of one of the formats (COFF, bigobj COFF, ELF, Mach-O, PE, XCOFF of either width, or WebAssembly as the WebAssembly parser decides), and gives this file; no bytes are a valid file of two formats. Archives, fat binaries, dyld caches, import files and files shorter than 16 bytes are refused. Format and class are those of the detected kind. An object that is written in any of the four formats is read back, without saying the format, as a relocatable file of that format with the byte order, class, architecture and sub-architecture of the object (COFF has one PowerPC machine and XCOFF stores no machine).", "quantifier": "all byte strings (below 2^63), all objects that can be written, all architectures and flags", "why_tests_cant": "the detection, eleven parsers and four writers have to agree on every input", "anchors": ["src/read/any.rs: File", "src/read/mod.rs: FileKind", "src/write/mod.rs: Object::emit"]}
{"id": "C92", "title": "dyld shared caches", "statement": "For any contents of the main file and of any number of subcache files, parsing a dyld shared cache never panics, and succeeds exactly if the main file has a header with a known magic, the tables of mappings and images lie in the file, there are as many subcache files as the header asks for (including the one with symbols), and each has the UUID that the header stores for it; the result has the stored mappings and images. The suffixes that are reported for the subcaches are those of the format, and there are as many as files needed. An address is found at the offset that the first mapping with it gives, in the first file that has one, and the byte there is the one the data of the mapping has for the address; the path of an image is the NUL-terminated string that its entry points to. Every valid cache is detected as one.", "quantifier": "all contents of the main file and of all subcache files, all addresses", "why_tests_cant": "contents, numbers of files, header versions and addresses are unbounded; wrong table bounds or suffixes only show up for particular caches", "anchors": ["src/read/macho/dyld_cache.rs: DyldCache, DyldCacheHeader, DyldCacheImage, DyldCacheMapping", "src/macho.rs: DyldCacheHeader"]}
{"id": "C93", "title": "Relocations of dyld shared caches", "statement": "For any file below 2^63 bytes and any mapping, the relocation iterator can be made exactly if the slide info is laid out as its version (2, 3 or 5) says. Iterating then yields exactly the relocations that the format defines: for every page with a start the chain of pointers from there, each with its offset, target value and authentication data as encoded in the bits of the pointer, in order; it never panics and never loops; it stays at its end, or at an error if a pointer lies outside the file. (Version 2 with an empty delta mask is excluded; offsets in version 2 are within the page; a missing extra start ends the iteration early.)", "quantifier": "all contents of the file, all mappings and slide infos, all numbers of calls", "why_tests_cant": "chains, pages and bit patterns are unbounded; an iterator may loop or skip a page only for particular tables", "anchors": ["src/read/macho/dyld_cache.rs: DyldCacheMapping::relocations, DyldCacheRelocationIterator, DyldCacheMappingAndSlideInfo::slide", "src/macho.rs: DyldCacheSlidePointer3, DyldCacheSlidePointer5"]}
{"id": "C94", "title": "The ELF builder holds what the file says", "statement": "For any file below 2^64 bytes, Builder::read (and read32/read64) of the ELF builder succeeds exactly if the file is well-formed, and then the builder holds exactly what the file says: header fields; segments with the loaded sections whose address lies in them and the common load alignment; sections with names, links and contents by type (raw data, relocations with symbol ids, dynamic entries as strings, generated entries or integers, attributes as the encoding of their tree, notes, ...); symbols with section and name; hash table parameters; symbol versions with their names, files and flags. It never panics. In the result ids are positions, nothing is deleted, every reference is to an existing item, and delete_orphans removes nothing but dynamic entries for missing sections.", "quantifier": "all contents of the file of both classes and byte orders", "why_tests_cant": "the input is unbounded and adversarial; a wrong field or link shows only for files that use it", "anchors": ["src/build/elf.rs: Builder::read, read32, read64, read_file, read_relocations, read_dynamics, read_symbols, read_attributes, read_gnu_versions", "src/elf.rs: From<Rel32> for Rela32, From<Rel64> for Rela64"]}
{"id": "C95", "title": "What the ELF builder writes needs, keeps and refuses", "statement": "Builder::write of the ELF builder first deletes orphans and unused versions; on a builder whose ids are positions and whose references are to existing items this succeeds, leaves no reference to a deleted item and keeps the versions in use. If the write then succeeds: each metadata table is in at most one section, every table that is needed has a section (.shstrtab, .symtab, .dynsym, .gnu.version_d, .gnu.version_r, and .symtab_shndx for symbols in sections from index 0xff00 on); with segments the program headers directly follow the file header, every loaded section with data or notes is at its own offset with exactly its bytes, and loaded sections overlap neither each other nor the headers; a file of the 32-bit class is below 4 GiB. A generated entry of a dynamic section (DT_SYMTAB, DT_STRTAB, DT_STRSZ, DT_HASH, DT_GNU_HASH, DT_VERSYM, DT_VERDEF, DT_VERDEFNUM, DT_VERNEED, DT_VERNEEDNUM) has the address, size or number of entries in the header of the section of that kind. Looking up a non-empty name in the written .hash finds the last dynamic symbol with that name and version, and in the written .gnu.hash the first one that is neither local nor undefined; lookups of other names find nothing.", "quantifier": "all builders with valid ids and references, of both classes and byte orders, and all outputs", "why_tests_cant": "the layout depends on all sections and segments together; an overlap or a section that has moved shows only for special layouts", "anchors": ["src/build/elf.rs: Builder::write, delete_orphans, delete_unused_versions"]}
{"id": "C96", "title": "A file written by the ELF builder reads back as the same builder", "statement": "For every builder that satisfies the documented limits (numbers fit their fields, section types agree with their data, links go to the tables that the data needs), if Builder::write succeeds then reading the output with the same class succeeds and gives the same builder: header, segments with the sections in them, section names, types, flags, addresses, alignment, links, contents (bytes, notes, attributes, dynamic entries, relocations with the same symbols), symbols with local ones first, dynamic symbols in some order with local ones first, versions and version files, hash parameters. Ids are renumbered by position; headers of known tables are generated. A builder that was read satisfies the conditions on ids, references and versions.", "quantifier": "all builders of both classes and byte orders that meet the limits, all outputs", "why_tests_cant": "the space of builders is unbounded, and writer and reader must agree on every table, on string offsets after suffix sharing, on index renumbering and on the order of symbols in the hash table", "anchors": ["src/build/elf.rs: Builder::write, Builder::read", "src/write/elf/encoder.rs: Encoder", "src/write/string.rs: StringTable", "src/write/elf/attributes.rs: AttributesWriter"]}
{"id": "C97", "title": "What deleting items from a Mach-O builder removes", "statement": "For every Mach-O builder whose symbols, segments, libraries and relocations refer to existing items, delete_orphans removes exactly what refers to something deleted: deleted sections from the lists of their segments, segments that become empty by this, symbols in deleted sections, relocations to deleted symbols, load commands of deleted segments and libraries; afterwards nothing kept refers to a deleted item (except relocations to sections, which the code keeps), a second call changes nothing, and a builder without deleted items is unchanged. It panics exactly if a reference is out of range.", "quantifier": "all builders: any number of segments, sections, symbols, relocations, libraries and load commands, any set of deletions", "why_tests_cant": "deletions cascade from segments to sections to symbols to relocations, in an order that matters only for particular combinations", "anchors": ["src/build/macho.rs: Builder::delete_orphans, delete_orphan_segments, delete_orphan_symbols, delete_orphan_relocations, delete_orphan_load_commands"]}
{"id": "C98", "title": "What the Mach-O builder reads from a file", "statement": "For any file below 2^63 bytes, Builder::read32/read64 of the Mach-O builder succeeds exactly if the file is well-formed (header, all load commands of supported kinds and sizes, every referenced part inside of the file, every relocation, symbol and indirect symbol with a valid reference), and then the builder holds exactly what the file says: header fields, load commands in order, segments with their sections, section contents, relocations with symbol or section targets, indirect symbols, symbols with names and sections, libraries, linkedit parts, and the page size as the greatest power of two up to 0x4000 that divides all segment offsets. It does not panic unless there are several LC_SYMTAB commands. What is read has only valid references, so that delete_orphans leaves it unchanged.", "quantifier": "all contents of the file of both classes and byte orders", "why_tests_cant": "the input is unbounded and adversarial; a wrong field or reference shows only for files that use it", "anchors": ["src/build/macho.rs: Builder::read32, read64, read_file, read_segment, read_section, read_symbols", "src/read/macho/load_command.rs: LoadCommandData::variant", "src/macho.rs: Relocation::info, IndirectSymbol"]}
{"id": "C99", "title": "A file written by the Mach-O builder reads back as the same builder", "statement": "For every Mach-O builder that meets the documented limits after deletion (numbers fit their fields, section types agree with their data, indirect symbols and relocations refer to kept items, segment commands are in the order of segments), if Builder::write succeeds then Builder::read of the output succeeds and gives the same items: header, load commands in order, segments with their sections, sections with names, addresses, alignment, flags, data, relocations and indirect symbols, symbols in the order local, external, undefined and sorted by name, libraries; references are those to the same items under the new numbers. A file that was read from a well-formed file and is written without changes reads back the same. Write refuses builders that would lose items: sections, segments or libraries that no load command refers to, symbols without LC_SYMTAB, more than 255 sections.", "quantifier": "all builders of both classes and byte orders that meet the limits, all outputs; all well-formed files of one class with one symbol table", "why_tests_cant": "the space of builders is unbounded; writer and reader must agree on every table, on offsets, on the renumbering of sections and symbols and on the shared indirect symbol table", "anchors": ["src/build/macho.rs: Builder::write, Builder::read32, read64", "src/write/macho/encoder.rs: Encoder", "src/write/string.rs: StringTable"]}
{"id": "C100", "title": "The layout of files written by the Mach-O builder", "statement": "For every Mach-O builder that meets the limits of C99 and for which Builder::write succeeds, the parts of the output (load commands, data of sections, relocations, linkedit data, symbols, indirect symbols, strings, code signatures) are one after the other and do not overlap, with tables aligned to the size of an address, indirect symbols to 4 and code signatures to 16. In a linked file every segment other than __LINKEDIT has a file range of whole pages, with no page more than needed, segments do not overlap in memory or in the file and are in order, every section is inside of its segment, its data is at the file offset that is mapped to its address, and the load command of __LINKEDIT covers exactly the rest of the file after the segments. In an object file the one segment covers the data of all sections, which is aligned, and relocations follow. LC_DYSYMTAB gives the groups of local, external and undefined symbols that a reader finds in the symbol table.", "quantifier": "all builders of both classes and byte orders that meet the limits, all page sizes that are powers of two, any number of segments, sections, load commands, relocations, symbols", "why_tests_cant": "offsets are computed in one pass and written in another; an overlap or a wrong range shows only for particular sizes and alignments", "anchors": ["src/build/macho.rs: Builder::write", "src/write/macho/encoder.rs: Encoder", "src/write/util.rs: align, CountingBuffer::resize"]}
{"id": "C101", "title": "Section sizes computed before writing are those written", "statement": "For every ELF builder with segments that meets the limits of C96 and for which Builder::write succeeds, section_size of every loaded section (with dynamic_string_size, gnu_verdef_size and so on) succeeds on the builder without orphans and is exactly the sh_size of that section in the output; the exceptions are .hash in a file without .dynsym (one chain more) and .gnu.hash, where the difference is 4 bytes for each symbol that only one of the two counts (a field st_shndx that is set, against a symbol that is global, named and defined). The program headers follow the file header and loaded data starts after program_headers_size. set_section_sizes changes only the sizes of loaded sections that are not deleted, to section_size, and calling it again changes nothing.", "quantifier": "all builders of both classes and byte orders that meet the limits; all sets of dynamic strings, symbols and versions", "why_tests_cant": "the size of the string table depends on suffix sharing among all strings, and the sizes must agree with a separate computation in write for every builder; a layout made with a wrong size is rejected or overlaps only sometimes", "anchors": ["src/build/elf.rs: Builder::section_size, set_section_sizes, dynamic_string_size, dynamic_symbol_size, hash_size, gnu_hash_size, gnu_versym_size, gnu_verdef_size, gnu_verneed_size, file_header_size, program_headers_size", "src/write/string.rs: StringTable::size"]}
{"id": "C102", "title": "GNU properties added while building an object are read back", "statement": "add_elf_gnu_property_u32 on an object of another format changes nothing. On an ELF object it appends, to the section that section_id gives for GNU properties (which is created if there is none), at the next multiple of the address size, one note with owner GNU, type NT_GNU_PROPERTY_TYPE_0 and the property with its value; it raises the alignment of the section and changes nothing else, and does not panic. After any history of calls that touches that section only in this way, reading the notes of the section with its alignment gives one GNU property note for each call, in order, and reading the properties of each note gives exactly the type and the value of the call.", "quantifier": "every reachable object, architecture, byte order, number of properties and 32-bit values, interleaved with any other calls", "why_tests_cant": "the bytes depend on the class and the byte order, and the history is unbounded and can contain any other call of the builder between two properties; tests add one property", "anchors": ["src/write/elf/object.rs: Object::add_elf_gnu_property_u32, elf_is_64", "src/write/mod.rs: append_section_data, section_id", "src/read/elf/note.rs: NoteIterator, Note::gnu_properties, GnuPropertyIterator, GnuProperty::data_u32"]}
{"id": "C103", "title": "Images of dyld shared caches", "statement": "For every parsed dyld shared cache and every image of it, parsing the image as a Mach-O file never panics, and succeeds exactly if there is a Mach-O header of the width of the cache's architecture at the place of the image's address, the address of every segment in its load commands is mapped by some file of the cache, and segments, sections and (if there is a __LINKEDIT segment) the symbol table are complete in the file of the cache that has them. Data of a segment or section is then the bytes of the file that has its segment's address, symbols and names are those of the file with __LINKEDIT, and a Mach-O file that is in one file of the cache from offset 0 is parsed as it is by itself. (compressed_data is the exception: it is read from the file with the header.)", "quantifier": "all caches (any number of files and mappings), all image addresses, all bytes at these places, both widths and byte orders", "why_tests_cant": "an image is spread over several files in ways that depend on mappings, load commands and offsets together; tests have no cache files and real ones have gigabytes", "anchors": ["src/read/macho/file.rs: MachOFile::parse_dyld_cache_image, parse_sections, MachHeader::load_commands", "src/read/any.rs: File::parse_dyld_cache_image", "src/read/macho/dyld_cache.rs: DyldCacheImage::parse_object, image_data_and_offset", "src/read/macho/section.rs: data, compressed_data"]}
{"id": "C104", "title": "Names of flags and constants", "statement": "For every set of name tables and every value, the named parts that FlagNames::try_names gives and the rest that it returns are a decoding of the value: together they have exactly its set bits, no bit is in two of them, each part is an entry of the tables (groups first, each with the bits of the value that no earlier group took, then single flags, in the order of the tables), and no flag of the tables is contained in the rest. There is exactly one such decoding. The closure is called for these parts in order until it fails, and its error is returned. names, the first part for name, and the Debug text (names joined by ' | ', then a nonzero rest in hexadecimal, or 0 if there is nothing) are those of the same decoding. bit_names is such a decoding with single flags only. If no two entries share a bit, each entry is reported exactly if the value has it. ConstantNames::name is the name of the first entry with the value; contains, intersects, with and without are the set operations on bits.", "quantifier": "all tables, chains of tables and group functions, all values of all widths, all closures and all formatters with their failures", "why_tests_cant": "tests name a few values; overlapping entries, chained tables and failing closures are combinations over all values", "anchors": ["src/constants.rs: ConstantNames::name, FlagNames::try_names, try_bit_names, names, bit_names, name, flag_debug, newtype_flag_names"]}
{"id": "C105", "title": "Typed views of bytes", "statement": "object::pod::from_bytes and slice_from_bytes (and the mut forms, which give the same) never panic and succeed exactly if the values fit in the bytes (with no overflow of the size) and the address is aligned. Then every element is aligned and in the bytes, elements do not overlap each other or the tail, elements and tail together are all of the bytes in order, and a store to one element of a mutable view changes neither another element, the tail, nor anything outside. slice_from_all_bytes succeeds exactly if the length is a multiple of the size and the address is aligned, and then bytes_of_slice gives the bytes back; bytes_of_slice of any slice of values has exactly the bytes of its elements and gives the slice again, and likewise bytes_of.", "quantifier": "all sizes and alignments of types, all addresses and lengths of byte slices, all counts, all memory contents and stores", "why_tests_cant": "the functions are unsafe code: a wrong bound or alignment is undefined behaviour only for some addresses and counts, which a test cannot choose", "anchors": ["src/pod.rs: from_bytes, from_bytes_mut, slice_from_bytes, slice_from_bytes_mut, slice_from_all_bytes, slice_from_all_bytes_mut, bytes_of, bytes_of_mut, bytes_of_slice, bytes_of_slice_mut"]}
