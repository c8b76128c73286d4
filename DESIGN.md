# Formal model of gimli-rs/object in Lean 4

## Layout
* `lean/Verif/Base.lean` – result type, byte and integer conventions shared by all models.
* `lean/Verif/Model/*.lean` – the model, function by function, each definition citing `/repo` file:lines.
* `lean/Verif/Spec/*.lean` – small independent specifications (what the English property talks about).
* `lean/Verif/Proof/*.lean` – helper lemmas.
* `lean/Verif/Props/*.lean` – the property theorems `Cxx_*`, with non-vacuity `example`s beside them.
* `seeded/LOG.jsonl` – the seeded bugs tried on the model, and which theorems noticed each of them.

## Conventions (simplifications common to the whole model)
* Data is `List UInt8`; a Rust slice/reference into the data is the list of its bytes (identity of
  the memory is not modelled; where position matters the model carries the offset).
* `u64`/`u32`/`usize` values are `Nat` with explicit bounds; wrapping operations are written `% 2^n`,
  checked operations test the bound. `usize` is 64 bits (`u64 -> usize` conversions succeed).
* `Res α = ok a | err | panic`. Error strings are dropped. `panic` models arithmetic overflow as in a
  debug build, failed `assert!`/`unwrap`/`debug_assert!`, and out-of-bounds indexing. So "never panics"
  covers debug and release builds.
* `Pod` structs are read as their byte images and decoded field by field; all Pod types concerned
  have alignment 1 (`unaligned` endian types), so alignment errors are not modelled.
* Allocation failure, `Debug` formatting, memory safety of the `unsafe` casts in `pod.rs` and
  performance are not modelled.
* An iterator is modelled as a `next` function on an explicit state; "iteration" is the (fuel bounded or
  well founded) unfolding of `next`, with a theorem that the fuel given always suffices, or the inductive
  relation `Runs` of `Base.lean`, with existence and uniqueness of the run.
* Generic code over a trait (`FileHeader`, `MachHeader`, `ReadRef`, `WritableBuffer`, ...) is modelled
  with a configuration record (class, byte order) or for the in-memory data source; `ReadCache` is
  covered by C08.

## Trusted base
* Lean 4.33.0 kernel; axioms `propext`, `Classical.choice`, `Quot.sound` only (every property theorem
  depends on a subset of these; the list per theorem is in `AXIOMS.txt`). No own axioms.
* The faithfulness of the hand translation from the Rust source (cited lines).
* Rust std behaviour assumed: `slice::get`, `Vec`, `sort` stability (`sort_by_key` is stable),
  `binary_search_by_key` contract, `memchr`, `IndexSet` insertion-ordered set, `HashMap` as a map,
  `char::decode_utf16`/`String::from_utf16_lossy` as in their documentation.
* Not modelled at all: decompression (flate2/ruzstd), DWARF of any kind, `read/wasm.rs` (a thin layer
  over wasmparser), most of the dispatch in `read/any.rs`, `Debug`/serde.

## Plan and scope per property

For each property: the code modelled, the shape of the proof, and the restrictions (hypotheses) under
which it is proved. The exact theorem names are in `MANIFEST.json`.

| id | modelled code (`/repo/src/...`) | proof | restrictions, what is not modelled |
|----|----|----|----|
| C01 | `read/util.rs` Bytes::read_uleb128, `write/util.rs` write_uleb128 | base-128 value specification, induction on the value | none |
| C02 | as C01 | induction on the bytes | none |
| C03 | read_sleb128, write_sleb128 | as C01 with two's complement | none |
| C04 | as C03 | induction on the bytes | none |
| C05 | `read/read_ref.rs` for `&[u8]` | case analysis against `take/drop` | `&[u8]` only (ReadCache: C08) |
| C06 | read_bytes_at_until, `read/util.rs` StringTable::get | first index of the delimiter | string tables without end bound (`None`) are not modelled |
| C07 | `read/util.rs` Bytes | simulation by the list of remaining bytes, any op sequence | none |
| C08 | `read/read_cache.rs` state machine with the two maps, ReadCacheRange | invariant: every cached entry equals the file range; refinement to slice reads; witnesses where `until` diverges | `until` equality needs the hypotheses in the statement (witnessed necessary). I/O errors of the underlying file are not modelled |
| C09 | `write/string.rs` with the multikey quicksort as coded | sort returns a permutation with suffix adjacency; write invariant | strings without NUL; total below 2^64 |
| C10 | as C09 | as C09 | as C09 |
| C11 | `write/util.rs` WritableBuffer for Vec, slice/counting, StreamingBuffer | simulation over op lists | the stream itself is abstracted to a sequence of ok/error answers |
| C12 | `write/util.rs`, `read/util.rs` align | arithmetic | power-of-two sizes, no overflow |
| C13 | `read/mod.rs` SymbolMap | sortedness, binary search contract | std binary search contract assumed |
| C14 | `read/mod.rs` SymbolMapBuilder | invariant over the build loop | as C13 |
| C15 | `read/archive.rs` parse, members, data | well-founded iteration for each of the archive kinds | none |
| C16 | `read/archive.rs` number parsing | digit induction | none |
| C17 | `write/elf/hash.rs`, `read/elf/hash.rs` SysV | chain invariant | bucket count > 0; fewer than 2^32 symbols |
| C18 | as C17, GNU | chain and bloom invariants | bloom shift < 32 (≥ 32 panics in debug builds) |
| C19 | `read/elf/hash.rs` | fuel bound by chain length | bloom shift < 32 |
| C20 | `read/elf/note.rs` | cursor invariant; round trip with an ELF note layout specification | none |
| C21 | `read/elf/relocation.rs` Crel | induction on count | none |
| C22 | `read/elf/relocation.rs` Relr | induction on the word list | none |
| C23 | `read/elf/relocation.rs` RelocationSections | links strictly decrease | section 0 is not a relocation section (h0); counter-behaviour noted under findings |
| C24 | `read/macho/exports_trie.rs` | path invariant; induction on the trie | none |
| C25 | `read/macho/dyld_info.rs` | step relation of the opcode machine | none |
| C26 | `read/macho/function_starts.rs` | running sum invariant | none |
| C27 | `read/macho/load_command.rs` iterator | cursor invariant | none |
| C28 | `write/pe.rs` relocs, `read/pe/relocation.rs` | block invariant, round trip | increasing pages (out of order: witnessed panic), type ≠ 0 at page start (witnessed loss) |
| C29 | `read/pe/relocation.rs` | cursor invariant | none |
| C30 | `read/pe/section.rs`, `read/pe/data_directory.rs` | first-match list lemmas | none |
| C31 | `write/coff/writer.rs`/`read/coff/section.rs` names | digit round trips | none |
| C32 | relocation count overflow | case analysis at 0xffff | fewer than 2^32-1 relocations |
| C33 | `write/elf/writer.rs` file header, `read/elf/file.rs` counts | case analysis at the escape values | none |
| C34 | `elf.rs` r_info packing | bit arithmetic | 32-bit: index < 2^24, type < 2^8 (truncation theorem otherwise) |
| C35 | `read/elf/attributes.rs`, `write/elf/attributes.rs` | cursor invariant, round trip | none |
| C36 | `read/elf/version.rs`, version writers | well-founded iteration, table invariant | none |
| C37 | `write/{elf,coff,pe}` reserve | invariant over any op list | COFF/PE: total below 4 GiB (beyond: witnessed overlap) |
| C38 | `build/table.rs` | history invariant | `iter_mut` + `mem::swap` of items is not modelled |
| C39 | `read/mod.rs`/`elf/section.rs` gnu compression | case analysis | decompression itself is not modelled |
| C40 | `endian.rs` | base-256 digits | none |
| C41 | `read/mod.rs` FileKind | case analysis on the magic bytes | all kinds of the default feature set |
| C42 | `read/elf/{section,segment,symbol}.rs` | case analysis | none |
| C43 | `write/mod.rs` append_section_data/bss, set_section_data | history invariant | none |
| C44 | `write/string.rs` | suffix adjacency of the sort | strings without NUL |
| C45 | `read/elf/note.rs` GNU properties | cursor invariant, round trip | none |
| C46 | `read/pe/rich.rs` | first-match lemmas | none |
| C47 | ELF symbol writer/reader with SHT_SYMTAB_SHNDX | round trip | none |
| C48 | `read/elf/compression.rs` | case analysis | decompression itself is not modelled |
| C49 | dynamic entries, groups | round trip | none |
| C50 | `read/archive.rs` against an archive layout specification | round trip | common (GNU/BSD/COFF) archives; AIX and z/OS only as reading (C15) |
| C51 | archive symbol tables | round trip | none |
| C52 | `elf.rs` hash, gnu_hash | reference definitions, induction | none |
| C53 | COFF symbol writer/reader | round trip | non-empty names; section numbers up to 0xfeff; bigobj is read-only |
| C54 | `read/coff/*` | case analysis of every arithmetic operation | none |
| C55 | `read/coff/comdat.rs` | filter specification of the iterator | none |
| C56 | COFF section alignment flags | finite table | none |
| C57 | `read/pe/export.rs` | iff specifications | none |
| C58 | `read/pe/import.rs` | iff specifications, run relation of the nested iterator | none |
| C59 | `read/pe/resource.rs` | iff specifications; UTF-16 specification | none |
| C60 | `write/mod.rs` section_id, add_section | history invariant | none |
| C61 | `write/mod.rs` symbols | history invariant | symbol_mut/section_mut edits only where stated |
| C62 | `write/mod.rs` add_relocation and the four formats | case analysis, table lookups | none |
| C63 | relocation tables of writer and reader | finite tables by kernel evaluation over the whole table, lifted | exceptions listed as theorems (riscv, sharc, sparc) |
| C64 | `write/macho/object.rs` relocations, `read/macho/relocation.rs` | round trip | big endian: counter-theorem `C64_record_big` |
| C65 | `build/elf.rs` delete_orphans, delete_unused_versions | filter specifications | ids in range |
| C66 | `build/elf.rs` segments | interval arithmetic | append below the start: counter-theorem |
| C67 | `write/elf/object.rs` whole file, read back by `read/elf` | reserve/emit refinement (EmitParts), then per-table round trips | well-formed objects; values that fit the class |
| C68 | `read/elf` unified view of written objects | case analysis over kinds/scopes | without explicit flags |
| C69 | `write/coff/object.rs` whole file | as C67 | section count < 65536, below 4 GiB, file names ≤ 4590 bytes |
| C70 | `read/coff` unified view | case analysis | COMDAT order hypothesis in the statement |
| C71 | `write/macho/object.rs` whole file | as C67 | relocations in little-endian files (C64) |
| C72 | `read/macho` unified view | case analysis | Unknown scope excluded from the groups |
| C73 | `read/xcoff/*` | cursor and table specifications | `comdat`, `segment` (empty) and unified kinds: C75 |
| C74 | `write/xcoff.rs` whole file | as C67 | values that fit; only file symbols without section |
| C75 | `read/xcoff` unified view | case analysis | without explicit flags |
| C76 | `read/macho/fat.rs` | iff specification of the table, round trip | none |
| C77 | `read/macho/codesign.rs`, CodeSignatureEncoder of `write/macho/encoder.rs` | iff specifications, run of the iterator (`Drains`), round trips | cryptographic hashes are opaque bytes; requirement blobs are not interpreted (nor does the crate) |
| C78 | `ImportFile::parse` with `ImportObjectHeader::{parse,parse_data}`, `strip_prefix`, `import`, `architecture`, `ImportObjectFlags` | both directions against a layout (`FileIn`) and against a writer of that layout (`image`) | there is no writer of import files in the crate; `image` is part of the specification |
| C79 | `read/elf/import.rs`, `read/elf/export.rs`, `ElfFile::{imports,exports,import_libraries}` | one outcome per symbol (`PerSymbol`), run of the iterator over errors (`Drains`), induction over the table | none |
| C80 | `ElfFile::{build_id,gnu_debuglink,gnu_debugaltlink}`, `SectionHeader::notes`, `ProgramHeader::notes` | iff specifications over the notes of C20 (`NotesFrom`), induction over notes and sections | file contents below 2^63 bytes for `gnu_debuglink` (a Rust slice cannot be longer) |
| C81 | `read/macho/fixup.rs` and the bit fields of `macho.rs` | layouts as sums of fields with both directions, chains as inductive relations with existence (termination) and run of the iterator (`Drains`) | segment data below 2^63 bytes (a Rust slice cannot be longer) |
| C82 | `read/macho/import.rs`, `MachOFile::{libraries,imports,import_libraries}` and the accessors of load commands they use | one outcome per command, symbol, fixup import or bind opcode (inductive relations `Libraries`, `Outs`, `Stream`), run of the iterators over errors (`Drains`), choice of the source as the last command of a kind | file contents below 2^63 bytes (a Rust slice cannot be longer) |
| C83 | `read/macho/export.rs`, `exports_trie` of the load commands | as C82; the trie by the traversal of C24, with the lazily read libraries as an invariant | file contents below 2^63 bytes; for a malformed trie the results up to the first error of the trie are specified (what follows it is not, see the findings on the trie iterator) |
| C84 | `read/pe/file.rs` (`PeFile::parse`, the `Object` implementation, `pdb_info`) and `read/pe/section.rs` | equivalence with a layout specification (`Spec/PeFile.lean`: field table of both optional headers, `Image`), loop of `pdb_info` by induction over the directory | file contents below 2^63 bytes; base relocations, imports, exports and resources are separate properties |
| C85 | all of `write::pe::Writer` (reserving and writing of headers, sections, base relocations and certificates) and a client that makes the calls in the documented order | the state after each call as an invariant (`Final`, `Adds`), the bytes written as a concatenation of placed pieces, then the equivalence of C84 for reading; specification of the layout by recursion over the sections (`place`) | file below 4 GiB (offsets are cut to 32 bits beyond); `reserve_until`, `reserve_virtual_until` and `reserve_file` between the calls of the client are only covered by C37; each data directory of a section is claimed once |
| C86 | `MachOFile::parse` and the `Object` implementation of `MachOFile`, `MachOSegment`, `MachOSection`, `SectionOffsetIterator`, `object_map` and `ObjectMap`, `indirect_symbols` | equivalence with a layout specification (`Spec/MachoFile.lean`: `CommandsOf`, `SectionsOf`, `Image`) by induction over the run of the load command iterator; object map by induction over modules and an invariant for all tables | file contents below 2^63 bytes (a Rust slice cannot be longer); for symbol tables that are not made of modules only totality of the object map; imports, exports and relocations are separate properties |
| C87 | `ElfFile::parse` and the `Object` implementation of `ElfFile`: header, segments, sections, symbols, names, `SymbolTable::parse`, `RelocationSections::parse`, relocation iterators, `parse_relocation` | equivalence with a layout specification (`Spec/ElfFile.lean`: `Image`, `RelocsIn`); relocation iteration by induction over the chain of relocation sections and the records, with the bound of the loop shown to be out of reach; `C87_written` joins it with C67: the sections, symbols and relocations of a written object as the file API gives them | file contents below 2^64 bytes (a Rust slice cannot be longer); that relocation iteration gives exactly the sections that apply needs that the null section is not a relocation section (otherwise only termination without panic) |
| C88 | `CoffFile::parse` and the `Object` implementation of `CoffFile`: header (ordinary and bigobj), sections, names, data, relocations, symbols | equivalence with a layout specification (`Spec/CoffFile.lean`: `Image`, `Named`, `RelocsOf`, `SymbolsFrom`), on top of the totality of C54; `C88_written` from the round trip of C69 | file contents below 2^63 bytes (a Rust slice cannot be longer) |
| C89 | `RelocationMap::{new,add,relocate}` and its use for ELF, COFF, Mach-O and XCOFF sections | induction over the list of relocations; specification `applied`, `LastAt`, `Acceptable` | the file is what the map asks of it (`Objs`), with the instances of the formats; the hash map is an association list; PE sections have no relocations; subtractors are ignored as by the code |
| C90 | the `Object` implementation of `XcoffFile` (on top of C73): parsing, header values, section lookup, contents, alignment, relocations | equivalence with a layout specification (`Spec/XcoffFile.lean`: `Image`) from C73 and the uniqueness of the image | file contents below 2^63 bytes (a Rust slice cannot be longer); segments, COMDAT groups, dynamic symbols, imports and exports are not implemented by the crate for XCOFF (their iterators are empty) |
| C91 | `read::File::{parse,format,architecture,sub_architecture,is_little_endian,is_64,kind}` on top of C27, C41, C86-C88, C90, and the dispatch of `write::Object::emit` | case analysis over the kinds (C41) and the layout specifications; `C91_written` from C67, C69, C71, C74 and the readers | file contents below 2^63 bytes; the WebAssembly parser is a parameter that does not panic; objects as restricted by the properties about the writers |
| C92 | `DyldCache::{subcache_suffixes,parse,architecture,mappings,images,data_and_offset}`, `DyldCacheHeader::{parse,parse_magic,mappings,subcaches,symbols_subcache_uuid,images}`, `DyldCacheImage::{path,image_data_and_offset}`, `DyldCacheMapping::{data,...}` (read/macho/dyld_cache.rs) | iff with a layout specification (`CacheIn`, `SuffixesIn`); induction over files and mappings | lossy UTF-8 conversion of suffixes and paths is not modelled (bytes) |
| C93 | `DyldCacheMappingAndSlideInfo::slide`, `DyldCacheMapping::relocations`, the relocation iterators of versions 2, 3 and 5, `DyldCacheSlidePointer3/5` | iff for slide info and pointers; induction over chains, extra starts and pages, with a continuation for what follows the chain; existence by a measure | file below 2^63 bytes; version 2 with a mask other than 0 (an example shows the panic for 0) |
| C94 | `build/elf.rs` Builder::read and all its parts (94-726) | iff for every loop (relation `Each`), folds with an explicit invariant for segments, hash parameters and versions; attributes: decoding iff the bytes are the canonical encoding | file below 2^64 bytes; all errors are one error; a loop body interleaved with an iterator takes the items first |
| C95 | `build/elf.rs` Builder::write (731-1836) | C65 for what is deleted before; invariants over the loops that plan, lay out and emit; C95_auto with the tables of C96; C95_hash from C17 and C18 with the order of the dynamic symbols | output is a byte vector; an id of an item of the same table is replaced by the item |
| C96 | as C95, with Builder::read (C94) | the output is a list of blocks at known offsets; each table at its block decodes to what was encoded; together they meet the specification of C94, which is exact | `Sound` of Spec/BuildWrite.lean: numbers fit, types and data agree, needed tables exist; `Same` says what is generated again or lost |
| C97 | `build/macho.rs` delete_orphans and the functions it calls | each function is a filter or map over a table whose lookups succeed iff the reference is in range | `MachOBuilder` tables are lists of items with ids; a lookup by id is by position, as in `build/table.rs` |
| C98 | `build/macho.rs` Builder::read and all its parts (61-453), `LoadCommandData::variant` | both loops are folds over the commands of C27; an iff for every loop body and every table (relation `Each`); numbering by position | file below 2^63 bytes; all errors are one error; load commands that the builder does not support are an error without being decoded |
| C99 | `build/macho.rs` Builder::write (455-1116), with the encoder of C62 | inversion of every step of order, layout and emission; every table is a block at a known offset, encodes to what the specification of C98 reads there; C98 is an iff, so the builder that is read is found by proving `Reads`; what was read from a file is `Sound` | `Sound` of Spec/MachoBuildWrite.lean; relocations only in little-endian files, deleted segments last; the page size and memory sizes of object file segments are not kept |
| C100 | `build/macho.rs` Builder::write (640-820, 857-1116) | the parts of the file are blocks at offsets that the layout gives (C99); induction over sections and segments for the placement; the groups of symbols by uniqueness of sorted lists | as C99; page size a power of two; that load commands end before the data of the first section is a debug assertion in the code, which the model takes for a panic |
| C101 | `build/elf.rs` file_header_size to set_section_sizes (1996-2180) | the size that write reserves (C95) is compared with the formula for each kind of section; the size of a string table depends only on the set of its strings that are not empty, from the proof of C44; counts of the version loop run in step | `Sound` as in C96, and there are segments; without segments the sizes are not used |
| C102 | `write/elf/object.rs` add_elf_gnu_property_u32 (36-65), elf_is_64 | a call is `section_id` then `append_section_data` (so all history theorems C43, C60, C61 cover it); the bytes are those of the ELF note specification; invariant over histories, then the round trips of C20 and C45 | the history does not otherwise change or make the first property section; section below 2^63 bytes |
| C103 | `MachOFile::parse_dyld_cache_image`, `File::parse_dyld_cache_image`, the data of its segments, sections and symbols | an image at an offset is an image in the rest of the data, so the header and load command lemmas of C86 apply; induction over the commands with the files that their segments are in; iff with `ImageAt` | the data kept for a segment is the index of a file of the cache; files below 2^63 bytes |
| C104 | `constants.rs` names of constants and flags (61-268), set operations (739-770) | every loop equals a pure list of parts and a rest with the closure called over it; the list is a decoding by induction over the entries with the bits left as the varying argument | chains of tables are finite lists; each `write!` is one write; the contents of the tables are arbitrary, those of the format files are not listed |
| C105 | `pod.rs` (33-206): casts between bytes and values, with addresses | each result is characterised by an iff; elements are intervals of addresses (division with remainder); stores outside of a range do not change what is read there | `usize` has 64 bits; the layout of a type is a size that is a multiple of its alignment; the validity of every bit pattern is the `Pod` contract; lifetimes and aliasing rules of references are those of the Rust compiler |

## Findings: where the code does not do what a user might expect

Found while proving; each one is either excluded by an explicit hypothesis (so the hypothesis is not an
artefact of the model) or stated as a theorem of its own (name in parentheses).

### Defects
* Big-endian Mach-O relocation records: `RelocationInfo::relocation` (macho.rs:3956) shifts r_symbolnum right
  instead of left, so the symbol number read back is number/65536 (`C64_record_big`).
* `build::elf::Segment::append_section_range` (build/elf.rs:2432-2448) loses coverage when a section below the
  current start is appended (`C66_append_below`); `append_section` uses p_paddr where p_vaddr is meant;
  an alignment of 0 (the default of `Sections::add`) panics there in debug builds.
* COFF and PE writers' `reserve` truncates offsets to u32 silently beyond 4 GiB, so ranges overlap
  (`C37_coff_beyond_4gib`). The COFF object writer also truncates the section count to u16 and sizes, values
  and relocation offsets to u32; section numbers from 0xff00 in symbols are misread.
* ELF object writer: weak or undefined symbols of compilation scope are placed among the locals although
  their binding is not local (`C68_misplaced`); 32-bit files silently truncate bss size, symbol value/size and
  relocation offset/symbol/type; a bss section with explicit PROGBITS flags gets an sh_size over bytes it
  does not own. `Architecture::Unknown` panics in the ELF, Mach-O and XCOFF writers.
* XCOFF writer: the size of a bss section is lost (data.len() is used); a 64-bit file whose only string is the
  empty one gets string offset 3; 32-bit empty names read the length field; s_nreloc and the section count
  are truncated to u16; section id 32767 overflows i16; r_vaddr is not relative to the section address;
  section alignment is lost; undefined symbols are XTY_SD instead of XTY_ER; kind and size of local symbols are lost.
* PE writer: a type-0 relocation at a page start is lost (`C28_type0_page_start_lost`); out-of-order pages
  hit a debug assertion (`C28_out_of_order_panics`).
* Symbol map builder: loses symbols if all known addresses are u64::MAX (`C14_build`).
* ELF: `write_symtab_shndx_section_header` multiplies in u32; `relative_relocation_section_header` sets SHT_RELA
  for RELR; R_RISCV_32_PCREL is written but not understood (`C63_elf_riscv`); SHARC type-B 6-bit
  relocations read back as type A (`C63_elf_sharc`); a GNU hash bloom shift ≥ 32 panics in debug builds.
* Mach-O: relocations against skipped (file, section) symbols silently use symbol 0; ARM64_RELOC_ADDEND is
  not range checked to 24 bits; pc-relative addends are adjusted by 4 in the writer but by the size in the reader
  (`C63_macho_pc`); a bss section with explicit regular flags reads back header bytes; 32-bit n_value truncates;
  `MachOFile::parse` ignores errors of the load command iteration.
* COFF: empty symbol names read back as string table length bytes; short section names beginning with '/' are
  misread; file names over 4590 bytes truncate the auxiliary count; exactly 0xffff relocations with a user-set
  overflow flag are misread; `count as u32 + 1` overflows at u32::MAX relocations.

### Surprising but documented or harmless
* ReadCache `until` depends on the history (`C08_until_history_dependent`), has a 4096-byte limit
  (`C08_until_limit`), and ReadCacheRange does not check the range end (`C08_range_until_end_unchecked`).
* A string table with base 0 holding only the empty string (`C09_only_empty_string_base0`).
* Rebase/bind iterators resume after Done; the exports trie iterator is not fused and can yield endless errors
  after an edge read error; archive symbol iteration is not fused; a PE import by ordinal 0 ends its thunk list.
* AIX big archive members may overlap (index driven).
* A null section of relocation type cuts relocation chains (hypothesis of `C23_chain`).
* COFF view: weak symbols report an unknown section and address 0; undefined symbols with a value read as
  common; TLS/unknown kinds read as data; a COMDAT group's symbol is the first after the section symbol.
* Implicit addends overwrite the bytes at the place, and are not written if the adjusted addend is 0.
* COFF PowerPc64 reads back as PowerPc; SPARC 32/64 are always rewritten as UA32/UA64 (`C63_elf_sparc`).
* Encoder::relocation truncates symbol and type of 32-bit ELF relocations (`C34_truncation_32`).
* ReadOnlyData sections read back from XCOFF as text, Other/Metadata as unknown; `is_common` holds for every
  undefined external XCOFF symbol.
* Chained fixups: DYLD_CHAINED_PTR_32 does not use `max_valid_pointer`; `target.wrapping_sub(vmaddr) | high8 << 56`
  loses the high byte when the load address is above the target (`C81_target` is exact for base ≤ target).
* Mach-O imports: the `unbound` flag is not reset between the bind streams, so a symbol that is set but never bound in one stream
  makes the first bind of the next stream without a symbol an error (`Stream` of C82 says so).
* PE writer: `reserved_len` is 64-bit but `reserve` returns `as u32`, so offsets are cut beyond 4 GiB without an error (hypothesis of
  C85). If no section has file data the file ends after the section headers and is shorter than `size_of_headers`.
* Mach-O object map: an `N_OSO` name is cut at its first `(`, so a directory name with a parenthesis gives a wrong path and member (example
  after C86). Section offsets beyond 4 GB: the end of a section is computed with `wrapping_add`, so a huge section size is accepted there.
* `RelocationMap::add` does not look at the subtractor, so a Mach-O pair SUBTRACTOR/UNSIGNED (A - B) is relocated as A (the model of C89
  ignores it as the code does). A relocation that is refused as a duplicate still replaces the one before it (`C89_history`).
* `FileKind` detects a bigobj COFF file only with version exactly 2, while the parser accepts every version from 2 (`C88_kind`).
* XCOFF reader: `align()` returns the fields `o_algntext` and `o_algndata` as they are, although the format stores the base-2 logarithm
  (`C90_data` says what is returned); `data()` of a `.bss` section reads the file at `s_scnptr` (usually 0, so the file header);
  relocation offsets are `r_vaddr`, which is an address, not an offset in the section (the writer stores offsets, so that round trips agree).
* `Object::write` for XCOFF accepts every architecture with 4- or 8-byte addresses, and the file reads back as PowerPC or PowerPC64; a COFF
  object for `PowerPc64` reads back as `PowerPc`; `is_64` is false for every COFF file, also for x86-64 (`archOf`, `Answers` of C91).
* dyld caches: the header is read as 552 bytes whatever size it says, so a smaller file of an old version is refused, and fields
  after the real header are protected only by the checks of `mapping_offset`; the magic of arm64_32 caches is not known.
* dyld cache relocations: (a) version 2 reports offsets within the page although documented as offsets within the mapping
  (`page_offset` is not added; dyld_cache.rs:700-712); (b) a `delta_mask` of 0 shifts by 64, a panic with overflow checks; (c) the iterator
  is not fused: after an error it returns the same error for ever, so that a caller that skips errors does not end; (d) a table of extra
  starts that is too short ends the iteration with `Ok(None)`, and drops the remaining pages without an error (`Ending.cut`).
* The ELF builder decodes `SHT_REL` entries of MIPS64EL files with the MIPS layout of `r_info` (it converts `Rel` to `Rela` first), but the
  reader's accessors for `Rel` and the writer (`write_relocation` swaps only for RELA) do not; reading and writing such a file again changes
  symbol and type (`relocAt` of C94 against C21/C22).
* The index list of an attributes sub-subsection ends at its first zero byte, so an index in a form of LEB128 that is not the shortest
  (with a zero byte) is refused, and reading attributes is the inverse of the canonical encoding (`AttributesOf` of C94).
* `Builder::read` fails on files without section names (`e_shstrndx = 0` with sections) and ignores alignment 0 of `PT_LOAD` segments only
  before the first one with another alignment (`loadAlignOf`).
* ELF builder, `write`: (a) `reserve(len, sh_addralign)` with `sh_addralign = 0`, which ELF allows, underflows in `write::align` (panic with
  overflow checks) for data, notes and attributes; (b) a dynamic symbol in a section with index from 0xff00 on is written with
  `SHN_XINDEX` and no extended index, so its section is lost (hypothesis `dynSyms` of `Sound`); (c) the address of a section that is not
  loaded is lost, flags, alignment and entry size of known tables are generated again, and only one `DT_NULL` is kept (`SecSame`);
  (d) files whose symbol names and section names share one string table cannot be written (a second `.strtab` is missing); (e) a builder
  without sections can be written but not read again; (f) a GNU hash table with `bloom_count = 0` or `bloom_shift >= 32` and a hashed symbol
  panics in the writer; (g) relocations for a `SHT_REL` section of MIPS64EL are changed by a round trip (see above); (h) a `.gnu.version`
  section without `.dynsym` reserves nothing but writes two bytes, so that a later assertion fails; (i) `gnu_hash_size` counts the
  symbols with `st_shndx != 0`, `write` those with a section or `st_shndx != 0` that are global and have a name, so for a symbol that
  has a section but no `st_shndx` yet the computed size is 4 bytes too small (C101); `hash_size` is 4 bytes too large without `.dynsym`;
  `dynamic_string_size` adds other strings than `write` does, but the size is the same (proved).
* Mach-O builder: (a) `delete_orphan_relocations` collects flags over `Table::iter`, which skips deleted sections, so a relocation to a
  deleted section is kept, and one to a section with an id from the number of live sections on panics (`C97_orphans`, `InRange`); (b)
  `write` indexes `out_segments` by segment id, not by position, so that deleting a segment in the middle or reordering load commands panics
  or writes the wrong sections; (c) addresses assigned for `MH_OBJECT` are never written; (d) an indirect symbol that is deleted becomes
  symbol 0; (e) a file with two `LC_SYMTAB` fails a debug assertion in `read`; (f) `1 << section.align` overflows from 64 on; several code
  signatures share the offset of the last one; (g) sizes of zero-fill sections are truncated to 32 bits on read; (h) scattered
  relocations are read as ordinary ones; (i) `n_type & N_TYPE` is looked at for debugging symbols too, so an `N_BNSYM` counts as a symbol in
  a section; (j) nothing checks that header and load commands end before the first section; (k) relocations of big-endian files are written
  with the symbol number in the wrong bits (`C99`, `SecOk.endian`); (l) a relocation to a deleted section is written with section number 0,
  which the reader refuses; (m) addresses in 32-bit files are truncated without an error; (n) the
  file size of a segment may be larger than its size in memory, and a `__LINKEDIT` segment with sections of its own loses their file range.
* Dyld shared caches: `MachOSection::compressed_data` (and so `uncompressed_data`) reads the contents from the file with the header of the
  image, not from the one with the section (src/read/macho/section.rs:184 has `self.file.data` where `data` has `self.internal.data`), so that
  for a section in another subcache it returns other bytes than `data` (`C103_compressed_data` and the example after it).
