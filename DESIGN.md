# Formal model of hachoir: design

## Technique

Lean 4.33.0 (core plus single Mathlib modules). The model is a set of small total
functions that mirror the Python functions branch by branch. Python exceptions
are values of `PyErr`; a function that may raise returns `Except PyErr α`.
Python `int` is `Nat`/`Int`, `bytes` is `List UInt8` or `List Nat` (bytes < 256),
mutable objects are structures returned after the update, generators are lists
(or step functions) of what they yield, including the exception they may end
with.

Layout of `/verif/lean/Verif`:

* `Py.lean`: Python primitives shared by the models (errors, slices, divmod).
* one directory or file per area with the **model** (cites `/repo` file and
  lines on each definition);
* `...Spec` definitions: the independent specification (plain arithmetic, lists,
  sets); nothing of the model is used in them;
* `Props/*.lean`: the property theorems, with an `example` beside each one that
  shows a concrete case meeting the hypotheses. Helper lemmas live elsewhere.

## Trusted base

* Lean's kernel and the axioms `propext`, `Classical.choice`, `Quot.sound`
  (the theorems use no other axiom; no `native_decide`, no `bv_decide`; `decide +kernel`
  is evaluated by the kernel and only used on whole finite tables and on witnesses).
* The reading of the Python code by the author of the model: nothing here runs
  the code. Every definition cites the lines it models.
* Python's semantics of `int`, `bytes`, `list`, `dict`, slices and exceptions as
  encoded in the model.
* `datetime`/`timedelta` as in CPython's `Lib/datetime.py`; true division of
  integers and floats correctly rounded to IEEE 754 doubles, `%.1f` correctly
  rounded (C45, C62).
* CPython's strict decoders for ASCII, UTF-8, UTF-16 and three charmaps, modelled in
  `Core/Charset.lean` (C69, C70).
* The `re` engine: for C31-C33, C48, C49 a match is the denotation `Matches`
  (`Regex/Lang.lean`); for C40 the engine reports some signature that begins at a
  position, and nothing only if none does (`HitOk`).

## What is modelled

| repository | model |
|---|---|
| `core/bits.py` | `Core/Bits.lean` |
| `core/tools.py`: alignment, `lowerBound`, `binarySearch`, `makePrintable`, `makeUnicode`, `normalizeNewline`, timestamps | `Core/Tools.lean`, `Core/Printable.lean`, `Core/Timestamp.lean`, `Metadata/Data.lean` |
| `core/dict.py` | `Core/Dict.lean` |
| `stream/input.py`: `InputStream`, `StringInputStream`, `InputIOStream`, `InputPipe`, `InputSubStream`, `FragmentedStream`, `ConcatStream`, `FileFromInputStream` | `Stream/*.lean` |
| `stream/output.py` | `Stream/Output.lean` |
| `field/generic_field_set.py`, `field_set.py`, `basic_field_set.py`, `seekable_field_set.py`, `fake_array.py`, `field.py` (paths), `padding/raw` fillers | `Field/FieldSet.lean`, `Replace.lean`, `Path.lean`, `Gaps.lean` |
| `field/string_field.py`, `field/timestamp.py`, `field/sub_file.py` (`CompressedStream`) | `Field/StringField.lean`, `Core/Timestamp.lean`, `Field/Compressed.lean` |
| `editor/*` | `Editor/Editor.lean` |
| `regex/*` | `Regex/*.lean` |
| `parser/archive/zlib.py` | `Archive/*.lean` |
| `metadata/metadata.py`, `metadata_item.py`, `filter.py`, `register.py`, parts of `setter.py` | `Metadata/*.lean` |
| `parser/parser_list.py`, `parser/guess.py` | `Parser/*.lean` |
| `subfile/search.py`, `subfile/pattern.py` | `Subfile/Search.lean` |
| variable-length integers of `midi.py`, `chm.py`, `asn1.py`, `mp4.py`, `action_script.py`, `mapsforge_map.py`, `git_pack.py`, `id3.py`, `sevenzip.py`, `mkv.py`, `ogg.py`; delta instructions of `git_pack.py` | `Formats/VarInt.lean`, `Formats/GitDelta.lean` |
| `parser/misc/ole2.py`, `msoffice.py` (chains, fragments), `field/fragment.py` | `Formats/Ole2.lean` |
| `parser/misc/torrent.py` | `Formats/Bencode.lean` |
| `parser/image/gif.py`: `rle_repr`, `GifImageBlock` | `Formats/GifLzw.lean` |
| `core/tools.py`: `humanDuration`, `humanFilesize`, `humanBitSize`, `humanBitRate`, `humanFrequency`, `humanUnixAttributes`; `core/text_handler.py`: `hexadecimal` | `Core/Human.lean` |
| `field/padding.py` | `Field/Padding.lean` |
| `metadata/setter.py` `parseDatetime` (numeric forms), `core/tools.py` `humanDatetime` over `isoformat` | `Metadata/ParseDate.lean` |
| `parser/archive/lzx.py` | `Archive/Lzx.lean` |
| `core/i18n.py` `guessBytesCharset`, `field/string_field.py` `_convertText` (charsets that can be guessed) and CPython's strict decoders for them | `Core/Charset.lean` |
| `strip.py` strippers on the tree of fields (names, sizes, values) | `Strip/Strip.lean` |
| `parser/archive/bzip2_parser.py` blocks and streams | `Archive/Bzip2.lean` |
| `field/generic_field_set.py` `seekBit`, `seekByte`; `field/seekable_field_set.py` | `Field/Seek.lean`, `Field/Gaps.lean` |
| `parser/file_system/ntfs.py` run lists | `Formats/Ntfs.lean` |
| `parser/container/asn1.py` `Object`, `ASNInteger`, `OID_Integer`, handlers, `formatObjectID`, `formatUTCTime` | `Formats/Asn1.lean` |
| `core/event_handler.py`, `field/basic_field_set.py` events | `Field/Events.lean` |
| `field/static_field_set.py`, `field/vector.py` | `Field/Static.lean` |
| `parser/network/common.py` addresses, `parser/common/win32.py` `GUID` | `Formats/Addresses.lean` |
| `parser/image/exif.py` `BasicIFDEntry`, `IFD`, `TIFF` | `Formats/Exif.lean` |
| `field/float.py` (parts of all, value of `Float80`) | `Field/Float.lean` |
| `parser/program/java.py` descriptors | `Formats/JavaDescriptor.lean` |
| `parser/program/java.py` `ConstantPool`, `CPInfo`, `CPIndexBase` | `Formats/JavaPool.lean` |
| `parser/program/java.py` `JavaBytecode` and opcodes | `Formats/JavaCode.lean`, `Formats/Fields.lean` |
| `parser/file_system/mbr.py` | `Formats/Mbr.lean` |
| `parser/audio/mpeg_audio.py` frames and synchronisation (not the ID3 tags, `createContentSize` and `validate`) | `Formats/MpegAudio.lean` |
| `parser/container/mp4.py` `Atom`, `AtomList` (not the handlers of single atoms) | `Formats/Mp4.lean` |
| `parser/image/jpeg.py` `JpegChunk`, the extent of `JpegImageData`, `JpegFile.createFields` | `Formats/Jpeg.lean` |
| `parser/image/jpeg.py` `HuffmanTable`, `HuffmanCode`, `JpegHuffmanImageUnit` (not the order of the blocks, quantisation tables and the other contents of chunks) | `Formats/JpegBlock.lean` |
| `parser/container/mkv.py` `EBML`, `MkvFile.createFields`, `Lace`, `Block` (not the contents of the other elements) | `Formats/Mkv.lean` |
| `parser/file_system/fat.py` `FAT`, `Date`, `FAT_FS.clusters` (not boot sectors, directory entries and the order of the fields) | `Formats/Fat.lean` |
| `parser/container/ogg.py` `OggPage`, `Segments`, `Packets`, `OggFile.createFields` (not the contents of chunks; `Lacing` is in `Formats/VarInt.lean`) | `Formats/Ogg.lean` |
| `parser/image/png.py` `Chunk`, `headerParse`, `getBitsPerPixel`, `timestampParse`, `PngFile.createFields`, `createContentSize`; `metadata/image.py` `PngMetadata.useHeader` (not the contents of the other chunks) | `Formats/Png.lean` |
| `parser/archive/tar.py` `FileEntry`, `TarFile` (not the names of types, dates and owners) | `Formats/Tar.lean` |
| `parser/archive/zip.py` records, search of headers, content size (not validation, inflating and names of methods) | `Formats/Zip.lean` |
| `parser/archive/gzip_parser.py` (not the description and the name given to the content), `metadata/archive.py` `GzipMetadata` | `Formats/Gzip.lean` |
| `parser/archive/ar.py` (not the description) | `Formats/Ar.lean` |
| `parser/audio/id3.py` (not `GEOB`, `PIC`, `PRIV` contents, names of genres, descriptions), `metadata/audio.py` `TAG_TO_KEY`, `processID3v2`, `readID3v2` | `Formats/Id3.lean` |
| `parser/container/riff.py` (chunks, texts, WAVE format; not the fields of AVI, CDDA and ACON chunks), `metadata/riff.py` `extractInfo`, `processChunk`, `extractWAVE` | `Formats/Riff.lean` |
| `parser/audio/midi.py` (without descriptions), `parser/common/tracker.py` | `Formats/Midi.lean` |
| `parser/video/amf.py`, `parser/video/flv.py` (without MP3 frames), `metadata/video.py` `FlvMetadata` (which values are set; not the filters) | `Formats/Flv.lean` |
| `parser/audio/flac.py`, `parser/container/ogg.py` `parseVorbisComment`, `metadata/audio.py` `FlacMetadata`, `readVorbisComment` | `Formats/Flac.lean` |
| `parser/audio/au.py`, `metadata/audio.py` `AuMetadata`, `computeBitRate` | `Formats/Au.lean` |
| `parser/audio/aiff.py` (chunks, `COMM`), `metadata/audio.py` `AiffMetadata` | `Formats/Aiff.lean` |
| `parser/image/gif.py` (but the codes of the pixels), `metadata/image.py` `GifMetadata` | `Formats/Gif.lean` |
| `parser/image/bmp.py`, `metadata/image.py` `BmpMetadata` | `Formats/Bmp.lean` |
| `parser/image/ico.py`, `parser/common/win32.py` `BitmapInfoHeader`, `metadata/image.py` `IcoMetadata` | `Formats/Ico.lean` |
| `parser/image/pcx.py`, `parser/image/tga.py`, `metadata/image.py` `PcxMetadata` and `TargaMetadata` | `Formats/Pcx.lean` |
| `field/generic_field_set.py` and `field/parser.py`: reading of a sequence of fields, as a reader with place and end | `Formats/Reader.lean` |
| `parser/archive/sevenzip.py` (without decompression of the header) | `Formats/SevenZip.lean` |
| `parser/program/python.py` (without descriptions) | `Formats/Python.lean` |
| `parser/archive/mar.py`, `mozilla_ar.py`, `prs_pak.py` | `Formats/Archives.lean` |
| `parser/archive/cab.py` (without `FolderParser`, names of enumerations and descriptions) | `Formats/Cab.lean` |
| `parser/archive/rpm.py` (without names of tags and descriptions) | `Formats/Rpm.lean` |
| `parser/misc/bplist.py` (without display and XML) | `Formats/Bplist.lean` |
| `parser/network/tcpdump.py` (without names and descriptions) | `Formats/Tcpdump.lean` |
| `parser/program/elf.py` (without descriptions) | `Formats/Elf.lean` |
| `parser/program/exe.py`, `exe_pe.py`, `exe_ne.py` (resources as bytes, without descriptions) | `Formats/Pe.lean` |
| `parser/program/macho.py` (without names and descriptions) | `Formats/Macho.lean` |
| `parser/archive/arj.py` (without names and descriptions) | `Formats/Arj.lean` |
| `parser/file_system/iso9660.py`, `linux_swap.py` (without descriptions) | `Formats/Disks.lean` |
| `parser/audio/mod.py` (patterns as bytes) | `Formats/Mod.lean` |
| `parser/misc/file_3ds.py`, `parser/misc/common.py` | `Formats/Max3ds.lean` |
| `parser/audio/real_audio.py`, `parser/container/realmedia.py`, `metadata/audio.py` (RealAudio) | `Formats/Real.lean` |
| `parser/video/mpeg_ts.py` (without descriptions) | `Formats/MpegTs.lean` |
| `grep.py` `Grep`, the printed address (without options and console) | `Grep/Grep.lean` |
| `parser/image/jpeg.py` tables, frames and JFIF headers, `metadata/jpeg.py` (without EXIF keys other than the position) | `Formats/JpegMeta.lean` |
| `parser/image/iptc.py`, `photoshop_metadata.py`, `metadata/jpeg.py` `parseIPTC` | `Formats/Iptc.lean` |
| `parser/misc/dsstore.py` (without slack and links) | `Formats/DsStore.lean` |
| `parser/image/tiff.py` | `Formats/Tiff.lean` |
| `parser/image/psd.py`, `PsdMetadata` | `Formats/Psd.lean` |
| `parser/misc/pcf.py` | `Formats/Pcf.lean` |
| `parser/video/asf.py`, `AsfMetadata` | `Formats/Asf.lean` |
| `parser/misc/lnk.py` | `Formats/Lnk.lean` |
| `parser/archive/rar.py` (without the fields of blocks 0x76 and 0x77, descriptions and content size) | `Formats/Rar.lean` |
| `metadata/audio.py` `MpegAudioMetadata` (without ID3 tags; floats as rational numbers) and `looksConstantBitRate` | `Formats/Mp3Meta.lean` |
| `parser/container/swf.py` (without pictures, scripts and decompression) and `metadata/misc.py` `SwfMetadata` | `Formats/Swf.lean` |
| `parser/audio/xm.py` (without the texts of volumes and the blocks of ModPlug) | `Formats/Xm.lean` |
| `metadata/archive.py` (ZIP, TAR and CAB; the values of fields are given, quotients are exact) | `Metadata/Archive.lean` |
| `metadata/setter.py` `parseDatetime` with names of months (`strptime` for English names), `metadata/timezone.py` | `Metadata/NamedDate.lean` |
| `metadata/audio.py` Vorbis comments and `OggMetadata` (values of fields are given; `str.upper` is a parameter; no video streams; quotients are exact) | `Metadata/Ogg.lean` |
| `parser/file_system/ext2.py` (directories, modes, inodes, superblock numbers, numbers of groups, fragments of files; paddings and descriptions of fields left out) | `Formats/Ext2.lean` |
| `parser/misc/ttf.py` (directory, head, name, maxp, post and fvar tables; fields inside DSIG, GSUB, avar, cmap, hhea and OS/2 left out) | `Formats/Ttf.lean` |
| `metadata/misc.py` (TrueTypeFontMetadata) | `Metadata/Ttf.lean` |
| `parser/misc/fit.py` (whole files; floats as bits, no truncated files) | `Formats/Garmin.lean` |
| `parser/misc/msoffice_summary.py` (little endian; thumbnails, blobs, variants and floats left out), with `getFieldByAddress` on its fields | `Formats/Summary.lean` |
| `metadata/misc.py` (OLE2_Metadata from the sections on; the search of the fragments in the file left out) | `Metadata/Ole2.lean` |
| `parser/program/java_serialized.py` (fields; no displays) | `Formats/JavaSerial.lean` |
| `metadata/misc.py` `TorrentMetadata` (lines 11-43), names and values of `DictionaryItem` | `Metadata/Torrent.lean` |
| `parser/image/png.py` `ImageData`, links of `field/link.py` `Fragment` (inflating left out) | `Formats/PngData.lean` |
| `parser/image/xcf.py` without hierarchies (tiles) and channels | `Formats/Xcf.lean` |
| `parser/misc/gnome_keyring.py` without the cipher | `Formats/Keyring.lean` |
| `parser/misc/mstask.py`, `PascalStringWin16` of `parser/common/win32.py` | `Formats/MsTask.lean` |
| `subfile/data_rate.py`, with exact numbers instead of floating point numbers | `Subfile/DataRate.lean` |
| `parser/common/msdos.py` | `Formats/Msdos.lean` |
| `parser/archive/bomstore.py` | `Formats/Bom.lean` |
| `parser/program/prc.py` | `Formats/Prc.lean` |
| `parser/game/laf.py` | `Formats/Laf.lean` |
| `parser/file_system/reiser_fs.py` | `Formats/Reiser.lean` |
| `wx/hex_view/file_cache.py` | `Wx/FileCache.lean` |
| `metadata/file_system.py` | `Metadata/Iso.lean` |
| `parser/misc/hlp.py` | `Formats/Hlp.lean` |
| `parser/game/spider_man_video.py` | `Formats/Spider.lean` |
| `parser/misc/pifv.py` | `Formats/Pifv.lean` |
| `parser/program/nds.py`: `CRC16`, names, places, contents, `validate` (not the fields of the header, banner, secure area and overlays) | `Formats/Nds.lean` |
| `parser/game/blp.py`: `interp_avg`, `color_name`, `DXT1`, `DXT5Alpha`, the pictures of `BLP1File` (not its header and palette, nor `BLP2File`) | `Formats/Blp.lean` |
| `core/benchmark.py`: `BenchmarkStat`, `_run`, `validateStat` (exact numbers for floats; not its messages, the clock and the garbage collector) | `Core/Benchmark.lean` |
| `metadata/main.py`: `processFile`, `processFiles`, `main` (parsers and extractors as outcomes; not the parsing of options and the charset of the terminal) | `Metadata/Command.lean` |
| `urwid.py`: `get_next` and `get_prev` of `Walker` on the tree of nodes (not widgets, keys and loading) | `Wx/Walker.lean` |
| `parser/archive/ace.py`: all blocks, `AceFile.createFields`, `validate` (not descriptions, names of enumerations, and that a block cut by the end of the file is kept in part) | `Formats/Ace.lean` |
| `parser/image/wmf.py`: headers, records with the parameters of all functions, `createContentSize` (not `validate`, names, descriptions, records too small for their parameters) | `Formats/Wmf.lean` |
| `parser/misc/file_3do.py`: materials, sets, meshes, faces, the begin of nodes, the end of the file (not `validate`, names, descriptions, a face with textures but no vertices) | `Formats/Model3do.lean` |
| `metadata/image.py`: `WmfMetadata` | `Metadata/Wmf.lean` |
| `metadata/csv.py` (not what goes to the terminal) | `Metadata/Csv.lean` |
| `parser/audio/modplug.py` (not the commands in the MIDI sets, nor blocks cut by the end of the file) | `Formats/Modplug.lean` |
| `metadata/program.py` (`readVersionInfo`; not the headers) | `Metadata/Program.lean` |
| `subfile/output.py` and `processParser` of `subfile/search.py` (not the directory, nor what is printed) | `Subfile/Output.lean` |
| `wx/field_view/field_view_imp.py` rows and selection | `Wx/FieldView.lean`, the texts of other columns and widths are not modelled |
| `wx/tree_view/tree_view.py` items of a node | `Wx/TreeView.lean`, one node |
| `core/memory.py` | `Core/Memory.lean`, with `setrlimit` and `/proc/self/statm` as on Linux |
| `wx/hex_view/hex_view.py` rows, scrolling, marks | `Wx/HexView.lean`, without widths, with `Scroll` of wx |
| `core/log.py` | `Core/Log.lean`, without the dates of the lines |
| `core/timeout.py` | `Core/Timeout.lean`, the implementation with `signal.alarm` |

Not modelled: i18n, user interfaces except those listed (`wx`, `urwid`, the options and
output of the command lines), the individual format parsers and metadata
extractors except those listed, codecs, floats other than quotients, comparisons
and `%.1f`, root field sets over streams of unknown size,
`EditableFloat`, descriptions of fields.

## Disagreements between code and properties

Each is proved about the model, by the theorem named.

Bits and tools
* `bin2long(long2bin(...))` with the same endian is not the identity (`C14_long2bin_same_endian_fails`).
* `makePrintable` is not injective, keeps C1 controls, and its smart rule rewrites a literal `\x0N` (C17).
* `durationWin64`, `timestampUUID60` lose microseconds through a float division; MS-DOS dates accept month and day 0; `timestampMac32` returns a text when out of range (C45).
* `Dict.replace` with a key that exists corrupts the dictionary (`C18_replace_existing_key`).

Streams
* Negative addresses are accepted by `StringInputStream` (C01); sub-streams leak bytes behind their window (C06).
* `InputPipe` overestimates its size after a read behind the end (C08).
* `writeBit` puts flags in other places than `writeBits`, flags collide (C10); signed `writeInteger` writes offset binary (C11); unaligned copies above 256 bits fail an assertion (C46).
* `ConcatStream` with a first stream that is not a whole number of bytes and unaligned fragments are read wrongly (C43).
* `FileFromInputStream`: negative seeks, `read(-1)`, reads behind the end (C44).

Fields
* Explicit names that look like automatic numbers leave a hole (C19), numbering has gaps after an exception (C21), a field made by the finishing step is found by name only the second time (C22), a failing `replaceField` leaves the set half replaced (C24).
* `getFieldByAddress` of a negative address gives the first field (C23); `getgaps` of blocks behind the end (C26); `len` of a `FakeArray` is wrong after a missing index (C27); names with `/` or dots are not found by path (C25).
* UTF-16/32 C strings are cut at an unaligned terminator or run beyond it; Pascal strings with a byte order mark are refused (C42, C50).

Editor
* Inserted `EditableBytes` is never written, inserting after the last field fails, a second insertion at the same place is reversed or misplaced, sizes and addresses of edited trees go wrong for some kinds (C29, C30).

Regular expressions
* `[^a]|[^b]`, dot and newline, `(a{2}){0,2}`, `(a{2,}|b)*`, `(a?|b)*`, `x & x`: wrong languages or exceptions (C31-C33); printing of `{^,a}` ranges, `[\]`, unclosed groups (C48); `\b ` is matched but not found again (C49).

Archives
* Stored deflate blocks are dropped from the output; repeat codes after zeros, repeats that cross the two lists and trailing bytes are wrong (C36); oversubscribed code lengths are accepted (C34); copies with offset 0 divide by zero, offsets before the beginning are clamped (C35).

Metadata
* NaN passes every number filter and is stored again and again; a time zone of a day or more raises out of `Data.add`; the last day of 2030 (C37). `exportDictionary` keeps one value per key (C52) and one group per header (C53).

Guessing and carving
* An unknown `id` disables validation, a `class` is tried twice, a cached parser is returned whatever the order is (C39).
* Signatures across slices, overlapping or equal signatures and files around a skipped file are lost; an odd bit size stops the search; one malformed `magic` (`git_pack.py:219`) prevents every search (C40).

Formats
* SWF integers are not limited to their width (`C54_flash_too_wide`); the base offset of a git delta is read with git's size encoding (`C54_git_offset_wrong`).
* A git copy instruction with two or more stored bytes has them in reverse order, a size of zero is not 0x10000 (`C56_copy_wrong`, `C56_size_zero_wrong`).
* OLE2 blocks are looked for behind a header of 512 bytes whatever the sector size (`C57_sector_place`); small streams are looked up in the big table when there is no small one (`C57_no_small_table`).
* Torrent strings that are empty or have 512 bytes or more have no value; `1_0` and `1 ` are accepted as numbers (C58).
* GIF codes grow to 13 bits when the table is full (`C59_full_table_disagrees`), a clear code sent when the size grows is read one bit short (`C59_clear_disagrees`), unknown codes are described (`C59_unknown_code_disagrees`).
* Padding is compared with its pattern only in its first 4096 bytes (128 bits): `<null>` is shown for fields that are not (`C65_null_but_not_zero`); a pattern whose length does not divide 4096 is not found in long fields, an empty one never returns.
* `humanDatetime` text with a time zone, or with microseconds kept, is not read back by `parseDatetime` (`C66_not_read_back`); the time zone is shown only when there are no microseconds (`C66_zone_lost`).
* A negative number is shown as `0x-1` (`C63_negative`); `1048575` bytes are `1024.0 KB` (`C62_rounded_up`); a day before zero is `-1 years 364 days` (`C61_negative`).
* LZX (C67, C68): a compressed block that begins at the end of a frame is read with the alignment at the wrong place (behind its trees; not proved, excluded by `Apart`).  Outputs of 6 to 9 bytes have jumps translated or stop with `struct.error` (`C68_shortFrame`, `C68_shortFrame_error`); the operand of a jump at the end of a block is searched again (`C68_blockEnd`); a jump copied by a block without code for E8 stays absolute (`C68_copiedJump`), and so `Calm` excludes these.  Not proved: a block of size zero appends the whole window, runs of lengths that go too far make the list longer, a file size of 2^31 or more may raise `struct.error`, the translation does not stop at 1 GiB.
* Charsets (C69, C70): a byte order mark is believed without a look at the rest (`C69_markUnchecked`) and stays in the value as U+FEFF (`C70_markKept`); "é©®" in ISO-8859-1 is taken for UTF-8 and "θη" in ISO-8859-7 for ISO-8859-1 (`C70_accident`); UTF-32-LE with its mark is taken for UTF-16-LE.
* Stripping (C71, C72): the flag of the index is cleared in memory only if there is no index chunk, since the file is written only when bits were removed (`C71_flagLost`); a tar archive with a file in it cannot be stripped: a `str` is assigned to a field that asserts `bytes` (`C72_tar`).
* bzip2 (C73): a selector behind the last table is not refused, the table before is used again (`C73_badSelector`).
* Seekable field sets (C76): an offset behind the end of the file does not only lose the field it belongs to. `_fixLastField` deletes the fields read before, last first, until the sum of their sizes makes up for the distance (`C76_lost`), and if they are not enough reading ends with an IndexError (`C76_far`).
* NTFS run lists (C77): a run without an offset (a hole of a sparse file) is shown as clusters stored at the place of the run before (`C77_hole`).
* ASN.1 (C78): of a set only the first member is read (`C78_set`); a tag number above 30 is refused in the universal class only, in the other classes its bytes are taken for the length (`C78_bigTag`).
* ASN.1 object identifiers (C79): second numbers of 40 and more are shown wrong: 2.999 as 3.16.55, 2.40 as 3.0 (`C79_second`).
* ASN.1 times (C80): a time with an offset is shown without regard to the offset and with zero seconds (`C80_offset`, `C80_other`); a time in Universal Time without seconds has no description, `int("Z")` fails (`C80_other`).
* Static field sets (C82): the size is computed when a class is first instantiated and inherited by derived classes: a derived class that is part of a format or item of a vector is counted with the size of its base class if the base class was instantiated before (`C82_derived`); a derived class with the name of its base class gets the size of that one (`C82_sameName`).
* GUIDs (C84): the field `variant` is read from the lower three bits of the ninth byte, RFC 4122 has it in the upper bits (`C84_variant`).
* EXIF and TIFF directories (C85): a value that lies before its directory is refused by `seekByte` (the directory is a seekable field set, the value is before its start), and with it all later values outside of the entries are lost (`C85_before`). TIFF 6.0 allows values anywhere.
* TIFF (C86): directories that lead back to themselves are read again and again, the parser does not end (`C86_endless`).
* Floating point fields (C87): in little endian files sign, exponent and mantissa are taken from the wrong end of the number (the fields are read in the order of big endian), and an 80 bit number gets a wrong value: 1.0 is read as 0.0 (`C87_little`). The stored integer bit of 80 bit numbers is not regarded (`C87_unnormal`).
* Java descriptors (C88): a class without its semicolon is accepted and shown without its last letter, because `str.find` returns -1 instead of raising (`C88_unclosed`).
* Java classes, seen by reading and not modelled: `FieldInfo.createDescription` passes `name=` to `list.append`, so that the description of every field is a TypeError; `OpcodeSpecial_wide` stores functions of one argument in `self.createDisplay`, so that the display of `wide` is a TypeError; constants in Java's modified UTF-8 are decoded as UTF-8.
* Partition tables (C91): the place of the next table of a chain of logical drives is counted from the current table instead of the beginning of the extended partition, so that the third and all later logical drives are never found where they are (`C91_third_drive`). Extended partitions of the types 0x0f and 0x85 are shown as raw bytes.
* MPEG audio (C92): `synchronize` passes an end address as the maximal size, so that behind a tag of k bytes k + 256 bytes instead of 256 are searched (`C92_sync` states the window that is searched); free format frames (bit rate 0) are refused.
* JPEG blocks (C95): the extra bits behind a code are read without leaving out stuffed bytes, so that coefficients whose extra bits touch FF 00 are wrong and all that follows is misread (`C95_extra_stuffed`); a code with two stuffed bytes inside gets a field of eight bits too few (`C95_two_stuffed`).
* Matroska (C96): an EBML lace with a single frame has no sizes, but `Lace` reads one and gives two frames or an error (`C96_single`).
* FAT (C97): `FAT_FS.clusters` computes `next / 1000`, a float in Python 3, so that following the clusters of any file or directory raises TypeError (`C97_chain`), and even the integer would be looked up twice in a table without levels; the four unused bits of FAT32 entries are ignored for the kind but shown in the number (`C97_unused_bits`).
* Ogg (C98): `Packets.__iter__` takes `fragment.__next__`, which no field has, so that listing the packets of a stream always ends in AttributeError behind the first page (`C98_packets`), or TypeError if the first page begins with the rest of a packet; a page without data, of whatever stream, ends the chain of pages of all streams (`C98_stream_cut`).
* Matroska (C96): elements of unknown size are refused inside of others, though clusters of live streams have them (`C96_open_inside`).
* PNG (C99): grey pictures are shown with the format "RGB" or "RGBA" (`C99_grey`); the content size is cut at bytes of another chunk that look like the end mark (`C99_content_cut`). Not proved, seen while reading: `width_dpi` of the metadata is the number of pixels per metre whatever the unit; `bKGD` and `tRNS` are read with one layout for all kinds of pictures.
* tar (C100): sizes in base 256, as GNU tar writes them for files of 8 GiB and more, are taken as zero, so that the content is read as further entries (`C100_big_size`); the name given to the content and in the metadata lacks the prefix of long names (`C100_prefix_lost`); without a block of zeros at the end the content size is MissingField (`C100_no_terminator`). Only the ends of a name are stripped: bytes behind an inner NUL stay in the name.
* ZIP (C101): in archives written to a pipe (bit 3, sizes zero in the header) the content is not found and its first twelve bytes are taken as descriptor, so that the metadata show wrong sizes (`C101_piped`); a descriptor with its usual mark behind the content is read four bytes off (`C101_marked_descriptor`); the end record of ZIP64 is taken 44 bytes too long and hides what follows (`C101_zip64`); the content size leaves out the comment of the archive (`C101_comment_cut`) and ends at the first mark of an end record, also one inside a stored archive (`C101_content_size_partial`); an incomplete file that is empty is refused (`C101_resync_empty`); behind the mark of a spanned archive twelve bytes are taken as a descriptor (`C101_spanning`).
* gzip (C102): an extra field without content, which RFC 1952 allows, makes the rest of the file unreadable (`C102_empty_extra`). The description shows the year 1970 for archives without time, the metadata do not.
* Unix archives (C103): a size of ten digits leaves no blank before the last word of the header, so that the mode is taken as size (`C103_big_file`).
* ID3v1 (C104): a tag with genre 32 (classical) loses its genre, and the track number becomes a character of the comment (`C104_classical`); the last character of a comment of 30 characters, or a space that fills it up, is taken for the track number (`C104_long_comment`).
* ID3v2 (C105): an extended header is read as the last frame, so that no frame is read (`C105_extended`); MIME type and URL are read in the encoding of the description, so that pictures and addresses with a description in UTF-16 are not read (`C105_picture`, `C105_url`); texts longer than 65535 bytes are not read (`C105_long_text`); the flags of version 2.4 are read as those of 2.3, so compressed frames are shown as texts (`C105_compressed24`). Unsynchronisation is not undone.
* RIFF (C106): a chunk without content at the end of a list is not read (`C106_empty_last`).
* WAVE (C107): uncompressed samples with the extended format (0xfffe, usual for 24 bits and more than two channels) have neither duration nor bit rate without fact chunk (`C107_extensible`).
* MIDI (C108): system exclusive messages and the other commands from 240 to 254 are refused, the track ends there (`C108_sysex`); the size of tempo, channel, SMPTE and signature events is not used (`C108_size_ignored`); running status behind a meta event repeats the meta event (`C108_running_after_meta`; the standard leaves this undefined).
* MIDI size (C109): the end is searched as the first bytes `FF 2F 00` of the last track, which also occur in delta times and data (`C109_delta_time`: a correct file of 34 bytes gets 29); a header without tracks fails (`C109_no_track`).
* Note names (C110): `NOTES` has 13 entries with `G#` twice, so that A, A# and B are shown as G#, A and A# in every octave (`C110_wrong`), 120 is called B and 121 to 127 have no name (`C110_last`).
* AMF (C111): the count of an array with keys is taken for the number of properties (it is a hint, often 0), the properties beyond are lost and taken for other values (`C111_hint`); null, undefined, references, long strings, XML and typed objects are refused (`C111_unknown`).
* FLV (C112): the high byte of the time is called reserved, times are wrong from 2^24 ms on (`C112_long_time`).
* FLV (C113): metadata written as an object instead of an array with keys are not told (`C113_object`).
* FLAC (C114): a file whose only block is the stream info is refused, since the magic contains the bit "last block" (`C114_lone`).
* FLAC (C115): sample rates above 192000, which the format allows, are not told (`C115_rate`).
* AU (C116): an unknown size (0xffffffff) makes the content size larger than the file (`C116_unknown`); more than two channels are refused (`C116_channels`).
* AIFF (C117): the content size lacks the 8 bytes of the header (`C117_content_size`).
* GIF (C118): pictures wider or higher than 6000 pixels are refused (`C118_wide`).
* GIF (C119): the search for the end starts behind the 0 which is part of what is searched for, so that the content size of a file with one image at its end is not found (`C119_single`); transparency is never told, since `graphic_ctl` is looked up but the fields are named `graphic_ctl[0]`, … (`C119_transparency`); a comment of more than 255 bytes is told in pieces (`C119_long_comment`).
* BMP (C120): the width of a bitmap with the old header of 12 bytes is read from 32 bits and has the height in it (`C120_core`); colors are not told when all are used, stored as 0 (`C120_colors`); pixels per metre are told as dots per inch (`C120_dpi`).
* BMP (C121): pixels of four bits are exchanged in pairs (`C121_nibbles`); red and blue of pixels of 24 bits are exchanged (`C121_colors`).
* Icons (C122): monochrome icons are refused (`C122_monochrome`), and so are cursors by the place of their hot spot (`C122_cursor`); a width of 256 is not told (`C122_big`).
* PCX (C123): the width told is that of the whole screen up to the right edge, not that of the picture (`C123_window`); pictures of three planes of 8 bits are told to have 8 bits and 256 colors and their last 768 bytes are taken for a palette (`C123_planes`); the byte that marks the palette is taken for a pixel (`C123_marker`).
* Targa (C124): a palette is always taken to have as many colors as a pixel has values, of three bytes each, whatever `nb_color` and `color_map_size` say (`C124_small_palette`); `self["codec"] in (1, 2, 3)` compares a field with numbers, so the lines of uncompressed pictures are never shown.
* 7z (C125): folders described in a data stream (`is_external`) cannot be read (`C125_external`); if the digests of only some folders are known, digests of streams of the others are not expected (`C125_digests_lost`).
* 7z (C126): names with characters whose low byte is 0 can be cut (`C126_name_cut`).
* 7z (C127): the header of an archive without packed data (only empty files) is never read, because the empty body ends the reading (`C127_nothing_packed`).
* Compiled Python (C128): code of Python 2.0 is read with two names lists too many (`C128_python20`); ASCII texts of more than 65535 characters cannot be read (`C128_long_text`); a table of line numbers of odd length (never written by Python) is read past its end.
* Compiled Python (C129): an empty text has no value (`C129_empty`).
* Compiled Python (C130): files with magic number 3200 (before 3.3a1) have no source size in the header, but one is read (`C130_size3200`).
* Mozilla archives and archives of Starfighter (C131): an empty file ends the reading (`C131_mozilla_empty`, `C131_starfighter_empty`).
* Cabinets (C132): the parser of a folder's content is told of no file, because the list of files is emptied before it is filtered (`C132_files_lost`); the content of folders that are stored or compressed with MSZIP is never there, because it is added to a text (`C132_content_lost`).
* RPM packages (C133): a set of properties ends `size` bytes behind the content of its second item, which is too far if that item is not the first in the store (`C133_set_partial` says where); sets of fewer than two items are not read (`C133_few`); the bytes that fill up the first set to a multiple of 8 are taken for the start of the header (`C133_filled`).
* Binary property lists (C134): the object of an empty dictionary lasts to the end of the file (`C134_empty_dict`); texts of more than 65535 bytes are not read (`C134_long_text`); elements of sets are not read (`C134_set`).
* Network captures (C135): the time of a packet is wrong unless it is a full second, microseconds are divided by 100 (`C135_timestamp`); a fragment but the first is taken to start with a TCP or UDP header (`C135_fragment`); option 0 of TCP, which ends the options, is taken to have a length, and if that is 0 the header takes all the packet (`C135_end_of_options`).
* ELF programs (C136): the headers of segments are read right behind the file's header, wherever it says they are (`C136_phoff`); the sizes of headers (`phentsize`, `shentsize`) are not looked at.
* MS-DOS programs (C137): the size of a program whose size is a multiple of 512 is told 512 bytes too small (`C137_dos_size_wrong`).
* Mac OS programs (C138): a command of 8 bytes that is not known is refused, for it has no data (`C138_no_data`).
* Discs (C140): all sizes of the primary descriptor are written in both orders of bytes but read as one big endian number, so none but 0 is read right (`C140_size`); the places of the little endian path tables are read big endian (`C140_path`). The number of pages of a swap file is told one too small (`C140_page_count`).
* Amiga modules (C141): the number of channels is looked up with a text in a table of bytes, so no pattern or sample of any module is read (`C141_no_music`); negative fine tunes are one too low (`C141_tune_wrong`).
* RealMedia (C143): places of streams are read as 2 bytes instead of 4 (`C143_logical_wrong`).
* Transport streams (C144): the 6 reserved bits within a clock are forgotten (`C144_clock_wrong`); an empty adaptation field takes a byte of the payload (`C144_empty_wrong`); the bit that says that a packet is damaged is taken to announce 16 more bytes (`C144_error_wrong`); streams with time stamps are not read on after damaged bytes (`C144_m2ts_wrong`).
* Searching texts (C145): a text that cannot be read ends the search with TypeError (`C145_unreadable`). Seen by reading: the message for a file that cannot be opened takes `err[0]` of an exception, a TypeError in Python 3.
* JPEG metadata (C146): samples are told to have 8 bits whatever the frame says and widths above 20000 are not told (`C146_frame_wrong`); dots per centimetre are told as dots per inch (`C146_dpi_wrong`); the thumbnail of a JFIF header is read as a palette with indices (`C146_thumb_wrong`); a height of 0 is not told (`C146_sea_level_wrong`); a date with minutes below 10 is not read (`C146_date_wrong`).
* IPTC (C147): extended sizes are misread (`C147_extended_wrong`); a date without time is not told (`C147_date_alone`); the dataset is not looked at, so that the character set is told as city (`C147_dataset_wrong`); of Photoshop resources of 65536 bytes or more only the lower half of the size is read (`C147_large_wrong`).
* Finder files (C148): the type of a record is compared as bytes with a text, so that no record of known type is ever read (`C148_no_record`), and of each node only the first and the last child are visited (`C148_lost`, `C148_lost_records`). With a proper comparison all nodes and records are read (`C148_fixed`).
* AU (C116): a file whose header has a text of more than 65535 bytes is not read (`C116_long_info`). Transport streams (C144): a stream without a name is always taken to have time codes (`C144_name`).
* TIFF (C149): behind a directory without strips, such as an EXIF directory, no picture is read, since `min()` of nothing is taken (`C149_lost`).
* Photoshop pictures (C150): widths from 20001 to 30000, which the format allows, are not told (`C150_large`).
* X11 fonts (C151): the text of a property is read behind its name, whatever the place that the property tells (`C151_text_wrong`); two glyphs that share a name in the pool end the reading of the names (`C151_shared`).
* Windows Media files (C152): the bit rates are told by position and not by the number of the stream (`C152_rate_wrong`); without a title neither author nor copyright are told (`C152_untitled`); an empty text of a descriptor ends the reading of the descriptors (`C152_empty_text`); the number of the track is told as the number of tracks (`C152_track`); files of variable bit rate are told as of constant one (`C152_vbr`).
* Windows shortcuts (C153): data and handler of a shell extension are never read, since bytes are compared with a text, lnk.py:101 (`C153_shell`); a shortcut with wide paths in the order that Windows writes is refused, since the parser seeks back (`C153_order`); wide texts of more than 32767 characters are refused (`C153_long_string`); the backspace key is told as the key 8 (`C153_backspace`).
* RAR archives (C154): the flags of files are in the wrong places, rar.py:152-159: 0x400, which tells of a salt, is taken for that of large files, so that the block of an encrypted file ends far behind its data (`C154_salted`); with 0x100 the high halves of the sizes are told as the beginning of the name (`C154_large`); the data of other blocks are taken for blocks, since `has_added_size` is looked for in the block, rar.py:304 (`C154_added`).
* Playing time (C155): a file whose bit rate changes behind its eleventh frame is told as of constant bit rate, and its time may be less than a fifth of the true one (`C155_fooled`).
* Flash movies (C156): numbers of rectangles below zero are told as large ones, swf.py:44-47 (`C156_negative`); metadata tell the size in twips as if it were in pixels, 20 times too large, and nothing above 1000 pixels, misc.py:257-258 (`C156_twips`); nothing is told of compressed movies (`C156_compressed`).
* FastTracker modules (C157): notes that are not packed are told as half their number, xm.py:283 (`C157_halved`); the types of envelopes and of samples are read from the wrong end, so that envelopes are always told off and loops never (`C157_envelope`, `C157_loop`); the linear frequency table is told as that of the Amiga (`C157_linear`); extended effects from E9 on have the name of the next one, EE and X2 raise IndexError, X1 is told as down (`C157_extended_wrong`, `C157_extra_fine`); P, R and T are told one too early (`C157_effect_shifted`). Not modelled: `parseVolume` subtracts from a text (`"..." % val - 16`, TypeError), and `VOLUME_NAME[val / 16 - 6]` has a float as index.
* Files told of archives (C158): a file of a ZIP archive with a blank name is left out without a word (`C158_zip_blank`); attributes of files of CAB archives are never told, as a field set has no value, archive.py:162-164 (`C158_cab_file`); a TAR file with a mode that is not octal loses its size, too (`C158_tar_mode`).
* Dates with names of months (C159): a moment west of Greenwich (`-0500`) is never read, as `-` is taken for a separator before the time zone is looked for, setter.py:97-129 (`C159_west`); neither is one with a time zone of half an hour (`C159_half`); a time zone of 24 hours and more (`+9900`) makes the assignment raise `ValueError` (`C159_raises`).
* What Ogg files tell (C160): such a date ends the reading of comments, and all comments behind it are lost without a word but a warning (`C160_lost`); of two values for one name, one the beginning of the other, only the longer is told (`C160_shorter`).
* Groups and files of EXT2 (C162): `used=` of the description is the space that is free, ext2.py:800 (`C162_used`); the blocks in bitmaps are numbered from 1 whatever the first data block is (`C162_label`), the last group of a file system with blocks of 1024 bytes shows a block too many (`C162_count`), and the blocks told of descriptors overlap (`C162_told`).
* Files of EXT2 (C162): double and triple indirect blocks are not read, so a file of more than 12 + size/4 blocks is cut (`C162_long`); holes are dropped, what follows is moved (`C162_hole`); a block outside the group of the inode ends the group: the file is cut there and all files behind it are lost (`C162_outside`).
* TrueType fonts (C163): the style and flag bits of the header are read most significant first, so bold is never told (`C163_style_wrong`, `C163_bold_wrong`); angles are read unsigned (`C163_angle_wrong`); names of glyphs are given in the order they are stored, not by index (`C163_glyphs_wrong`); offsets of version 2.5 are never read (`C163_offsets_wrong`); the test for PostScript names of instances uses two bytes for each axis instead of four, so with one axis a name is read that is not there, and with names they are skipped (`C163_one_axis_wrong`, `C163_postscript_wrong`).
* Names of TrueType fonts (C164): directions right to left are told as 65535 and 65534 (`C164_right_to_left`); a record that shares only its beginning with another, or is empty, is told with the text of the other (`C164_beginning`, `C164_empty`).
* Garmin FIT files (C165): the size of the messages is compared with a position that counts the header, so a last message of at most 14 bytes is never read (`C165_lost`); the checksum is read big endian (`C165_checksum_wrong`); the header with a compressed time stamp is split 3 + 4 instead of 2 + 5 bits and its fields are not read (`C165_compressed_wrong`); headers of 12 bytes are misread (`C165_short_wrong`).
* Properties of Office documents (C166): properties are found with a binary search over fields in the order of the index, so with another order in the file one property is given instead of another or an IndexError is raised (`C166_reversed`); the bytes of padding behind a code page become a field behind all others, and the fourth of four properties is never found (`C166_gap_lost`).
* What is told of Office documents (C167): the format of a presentation is told as its title (`C167_format`); a title behind a code page and two others is not told (`C167_lost`); an author before a title in the index but behind it in the file: the title told is the author (`C167_swapped`). By reading: `"os" in summary` never holds because the field is `os_type`, so the operating system is never told; code pages 1200 and 932 are unknown.
* Serialized Java objects (C168): texts of 65536 bytes and more raise a TypeError (`C168_long_string`); an object without values takes the rest of the file as raw bytes, because an empty field set is "too large" (`C168_empty`); the fields of a super class are read for externalizable classes too, which do not write them (`C168_external_wrong`).
* Torrents (C169): names are UTF-8 but are told as ISO-8859-1 (`C169_utf8_wrong`); a name of 512 bytes or more is not told (`C169_long`); no size is told for a torrent of many files (`C169_size`).
* PNG (C170): a picture with an empty IDAT chunk cannot be read, as the field of the chunk is missing (`C170_empty`).
* Gimp pictures (C171): the flags of layers (visible, linked, masks) are never shown, since `GimpBoolean` takes no size (`C171_flags`); the opacity is shown as the alpha of a colour (`C171_opacity`).
* Gnome keyrings (C172): an empty text, of size 0, is an error (`C172_empty`); `lock_on_idle` is the first bit of the flags, but the flag is the last bit (`C172_lock`); a last secret of less than 77 bytes is not read (`C172_small`).
* Jobs (C173): user data are not skipped, so that what follows is lost or misread (`C173_user`); the flags from the fourth on are one bit off those of the scheduler (mstask.h), a hidden task is shown as one that needs the internet (`C173_hidden`).
* Speed of a search (C174): with min_size > size there is never an average (`C174_never`), with size 0 no rate is ever dropped (`C174_zero`).
* MS-DOS attributes (C175): sparse, reparse point, offline, not indexed and encrypted are never named; a file with only these is said to have no attribute (`C175_silent`).
* Bills of materials (C176): a table without a blank entry cannot be read behind its entries (`C176_full`); an entry of size 0 in the second table is an error, in the first it is not (`C176_trail`).
* Palm resource files (C177): `validate` refuses every file (`C177_never`); if there is a gap between the table and the first resource, every resource is shown too early by the size of the gap (`C177_gap`).
* Fonts of LucasArts games (C178): a character without points ends the reading with an error (`C178_blank`); the place of a picture that is told is not looked at (`C178_offset`).
* ReiserFS (C179): the numbers of the blocks are counted for the whole program, so that in the second file read in a program every number is wrong (`C179_later`); blocks of 204 bytes are refused (`C179_small`).
* Messages (C180): `append=False` of `setFilename` has no effect (`C180_append`); `quiet` is stronger than `verbose` (`C180_quiet`).
* Calls of limited time (C181): a call within another takes the limit from it (`C181_nested`); an alarm the program waits for is lost (`C181_lost`).
* Garmin FIT (C165): a value of an unknown type is an error, although its size is told (`C165_unknown`).
* Cache of the window (C182): a range that ends before the chunk it begins in is an error (`C182_backwards`); a file that is changed is shown as it was (`C182_stale`).
* Tree of the window (C184): if a field before the limit is to be shown, all fields are gone through, however many there are (`C184_early`).
* Calls of limited memory (C185): a limit the process had is multiplied by the size of a page, and its hard limit is taken away (`C185_raised`), or the result is lost (`C185_overflow`); a process with a hard limit is not limited (`C185_hard`); a call inside another may take more than the outer limit (`C185_nested`).
* Dates of discs (C187): the time zone and the hundredths of a second are dropped, so that moments hours apart are told as the same (`C187_zone`).
* Help files (C188): the padding before the numbers of pages, levels and entries has a pattern that is a text, which `PaddingBytes` refuses with an assertion, so that these numbers are never read and are left in raw bytes (`C188_file_partial`).
* Firmware volumes (C190): a dependency section takes two bytes of what follows if the byte behind it is zero, also if these are the start of a section whose length is a multiple of 256 (`C190_dependency`). Sections are expected one directly behind the other, without the padding to four bytes the specification of the format asks for.
* Games of the Nintendo DS (C191): `CRC16.checksum` calls `ord` on the items of a byte string, which are numbers, so it raises a TypeError for every byte string that is not empty and the descriptions of all `Crc16` fields are empty (`C191_no_description`). `validate` compares the end of the code, in bytes, with the size of the file in bits, so code behind the end of the file is accepted (`C191_outside`).
* Pictures of games of Blizzard (C192): `interp_avg` yields floats, which `color_name` shifts, so every pixel with an interpolated colour raises a TypeError and ends its block (`C192_no_between`); the doctest of `interp_avg`, [4, 7], would print [4.0, 7.0]. Width and height are halved with a true division, so the second picture without compression raises a TypeError in `range` (`C192_second`).
* Benchmarks (C193): a first call that takes no time by the clock raises ZeroDivisionError (`C193_zero`), so that the error for nul statistics is only reached with times that cancel out; a maximum number of calls of 0 is taken as no maximum.
* The command for metadata (C194): `benchmarkMetadata` returns None, so the status at exit with `--bench` is always 1 (`C194_bench`); `--profiler` imports `hotshot`, which Python 3 does not have; exceptions of parsers other than InputStreamError are not caught, so one file can keep the others from being processed (`C194_crash`).
- **C196**: `Block.TAG_INFO` (parser/archive/ace.py:213) puts `recoveryHeader` in the place of the flags of recovery blocks. The common `parseHeader` then asks for `flags/extend`, which does not exist, so that every recovery block raises MissingField; and for unknown kinds line 232 asks for an attribute that was never set. Both end the archive: files behind are not listed (`C196_ends`).
- **C197**: `WMF_File.createContentSize` (parser/image/wmf.py:634-640) looks for the bytes of the last record anywhere behind the header, not record by record: a file with these bytes in the parameters of a record is cut there (`C197_size_short`). The search also ends at 50 MB from the start of the stream, not of the file's records.
- **C198**: `Node` (parser/misc/file_3do.py:135) makes its padding with the pattern `"\xCC"`, a text, but `PaddingBytes` (field/padding.py:69) asserts that the pattern is bytes. Every node raises an AssertionError, so that of every model with nodes all bytes from the count of nodes on are told as one raw field (`C198_nodes`). The same slip is in parser/misc/hlp.py:40 (C188), parser/file_system/ext2.py:343 and parser/video/mpeg_video.py:81; the latter two are not modelled.
- **C199**: the width and height told of an EMF file are those of the reference device (metadata/image.py:312-313), not of the picture: files with any bounds are told alike (`C199_device`). Of a file with the header of Aldus the rectangle is told as if its units were pixels; `inch` is not looked at, and a rectangle wider than 20000 units or written from right to left has no width.
- **C200**: the columns of the table are joined with `"; "` without quotes (metadata/csv.py:71): a text with these characters moves the columns, and different metadata give the same line (`C200_ambiguous`). `createParser` is called outside of the `try` (csv.py:52): an empty document raises NullStreamError and ends the export, without the rest of the files and without the summary (`C200_ends`).
- **C201**: the codes of the extensions are bytes that are looked up among texts (parser/audio/modplug.py:258), so that no extension is ever told: behind an instrument block the rest of the file is one raw field (`C201_extensions`), behind a song block it is `info` (`C201_song`). `parsePlugin` is called without its argument (modplug.py:279 and 299): the first plugin ends the list (`C201_plugin`). The size of `data` counts the head of the block although `block_size` does not (modplug.py:302): 8 bytes of the unknown data are in another raw field.
- **C203**: of a file found that goes beyond the end of what is searched only whole blocks of 4096 bytes are copied (stream/output.py:129-142, subfile/output.py:44-47): up to 4095 bytes that are there are lost. The model tells only that copying failed.

## Plan per property

| id | what is modelled | how it is proved |
|----|------------------|------------------|
| C01 | `StringInputStream.read`, `readBits`, `str2long` | spec: bit list of the data (MSB or LSB first), value of the addressed sublist; arithmetic identity by induction over bytes |
| C02 | `readInteger` | corollary of C01 plus two's complement lemma |
| C03 | `readBits` | corollary of C01: value of an appended bit list |
| C04 | `readBytes` | case analysis on lengths |
| C05 | `searchBytes` chunk loop over an abstract `readBytes` | loop invariant: no occurrence before the retained suffix |
| C06 | `InputSubStream.read` | equality with the parent inside the window; negation witness for reads past the end |
| C07 | `InputPipe` (block table, LRU links, flush) | invariant by induction over operations; refinement to the source |
| C08 | `InputPipe.size` | negation witness plus partial theorem |
| C09 | `OutputStream.writeBits` | invariant: emitted bytes plus partial byte spell the concatenated bit list |
| C10 | `OutputStream.writeBit` | negation witness; partial for the positions that agree |
| C11 | `writeInteger`, `long2raw` | unsigned round trip; negation witness for signed |
| C12 | `str2long`, `long2raw` | induction on digits |
| C13 | `swap16`, `swap32`, `arrswapmid`, `strswapmid` | arithmetic; induction on pairs |
| C14 | `countBits`, `long2bin`, `bin2long`, `byte2bin` | loop invariants |
| C15 | `alignValue`, `paddingSize` | arithmetic |
| C16 | `lowerBound`, `binarySearch` | loop invariants, termination by measure |
| C17 | `makePrintable`, `makeUnicode` | case analysis per character |
| C18 | `Dict` | refinement to an association list, induction over operations |
| C19-C24 | `GenericFieldSet` | state machine; invariants by induction over operations and yielded fields |
| C25 | field tree, `getField`, `path` | induction over the path |
| C26 | `getgaps` | induction over sorted blocks |
| C27 | `FakeArray` | negation witness; partial for histories without a miss |
| C28-C30 | `EditableFieldSet` | flattening semantics; negation witnesses for insertion order |
| C31-C33 | regex classes, operators | denotational semantics over positions; negation witnesses for the wrong rewrites |
| C34 | `build_tree`, `HuffmanCode` | canonical code invariant (Kraft), prefix-freeness, decode of encode |
| C35 | `extend_data` | induction, periodicity |
| C36 | `DeflateBlock`, `zlib_inflate` | refinement against an RFC 1951 token semantics; negation witness for stored blocks |
| C37 | `Data.add` | invariant by induction over additions |
| C38 | `exportPlaintext`, `__iter__` | sortedness and membership |
| C39 | `QueryParser` | decision logic over candidate list |
| C40 | `SearchSubfile` main loop | progress; negation witness for boundary straddling; partial for occurrences inside one slice |
| C41 | `CompressedStream.read` | invariant: buffer ++ future output |
| C42 | `GenericString` C string length | first occurrence; negation witness for UTF-16 |
| C43 | `FragmentedStream.read`, `ConcatStream.read` | induction over fragments |
| C44 | `FileFromInputStream` | simulation by an abstract file |
| C45 | `timestampUNIX` etc. | civil calendar arithmetic |
| C46 | `copyBitsFrom`, `copyBytesFrom`, `writeFile` loops | loop invariant on the emitted bits |
| C47 | the leaves of a reachable field tree | induction over the tree with the tiling invariant |
| C48 | `Regex.__str__`, `escapeRegex`, `parse` | parse of printed text, induction on the text; witnesses |
| C49 | `PatternMatching` | the merged expression through C31; dictionary invariant |
| C50 | `GenericString` fixed and Pascal formats, truncation, strip | first occurrence, longest prefix/suffix |
| C51 | `normalizeNewline` | induction, idempotence |
| C52 | `exportDictionary` | fold over sorted keys; witnesses |
| C53 | `MultipleMetadata.addGroup` and exports | invariant over histories; witnesses |
| C54 | 7-bit group integers of eight formats | the loop computes a scan of the digits; digits are unique prefixes |
| C55 | `SZUInt64`, `Unsigned`, `Signed`, `ASNInteger`, `XiphInt`, `Lacing` | loop invariants; finite table of first bytes |
| C56 | `DeltaInstruction`, `ObjOfsDeltaParser` | induction over instructions; witnesses for swapped bytes |
| C57 | `getChain`, `parseProperty`, `FragmentGroup` | induction over the chain with the set of blocks seen; runs by induction |
| C58 | `Entry` and its classes | mutual induction over the values; delimiter search through C05 |
| C59 | `GifImageBlock` | invariant: the decoder's table is the encoder's without its last entry; induction over codes and segments |
| C60 | `rle_repr` | induction; grammar of list expressions with unique values |
| C61 | `humanDuration` | successive remainders, induction over the units |
| C62 | `humanFilesize` and its sisters | relative error of correctly rounded divisions over the rationals; exactness for powers of two |
| C63 | `hexadecimal` | digits read back, length bound |
| C64 | `humanUnixAttributes` | bit tests |
| C65 | `PaddingBytes`, `PaddingBits` | induction over the content |
| C66 | `parseDatetime`, `humanDatetime` | cutting lemma by induction over the text; case analysis of the four forms |
| C67 | `lzx_decompress`, `LZXBlock`, `LZXPreTreeEncodedTree` | refinement against a bit-level description of the format; invariant between blocks: window, recent distances, code lengths |
| C68 | translation of jumps in `LZXBlock` | one scan of the whole output equals the scans behind each block; the two translations are inverse; negation witnesses |
| C69 | `guessBytesCharset` | decision table; UTF-8 decoder proved sound and complete against RFC 3629 |
| C70 | `GenericString._convertText` | round trips of UTF-8, UTF-16 and the sets of characters; fallback; negation witnesses |
| C71 | `RiffStripper` | induction over the tree: soundness of sizes kept, relation `Cut` between old and new tree |
| C72 | `PngStripper`, `JpegStripper`, `MpegAudioStripper`, `AuStripper`, `TarStripper` | exact removal, offset of the data; negation witness for tar |
| C73 | `Bzip2Block` | the bits a compressor writes (`Spec/Bzip2.lean`), induction over codes, undoing runs and move-to-front |
| C74 | `Bzip2Stream` | induction over the blocks |
| C75 | `seekBit`, `seekByte` | case analysis, then `_addField` of the field set model |
| C76 | `RootSeekableFieldSet` | induction over the moves of the generator, invariant that fields lie inside, C26 |
| C77 | NTFS run lists | induction over the runs, reading lemmas of C01–C04 |
| C78 | `asn1.py` objects | mutual induction over the tree |
| C79 | `formatObjectID` | C78 and C54, text by induction over the numbers |
| C80 | `formatUTCTime` | digits by a finite table, `datetime` of C66 |
| C81 | events | invariant over programs: the handlers kept are those connected before |
| C82 | `StaticFieldSet`, `GenericVector` | invariant over the class dictionary |
| C83 | `network/common.py` | reading lemmas, texts by induction over the groups |
| C84 | `GUID` | reading lemmas in little endian, texts injective |
| C85 | EXIF and TIFF directories | relation between bytes and values, induction over entries and items |
| C86 | `TIFF` | the walk finishes iff the links are well-founded; reachability by induction over the walk; cycles by well-foundedness |
| C87 | floating point fields | slices of bits against IEEE 754; rounding error over the rationals |
| C88 | Java descriptors | grammar of types, induction over types and parameters; converse by induction over the text |
| C89 | Java constant pool | relation between bytes and constants, induction over the pool; texts as an inductive relation |
| C90 | Java code | relation between bytes and instructions, tables compared as a whole, induction over the code |
| C91 | partition tables | bytes of entries, sorting, fields by induction over the sorted entries; paths by induction |
| C92 | MPEG audio frames | table compared as a whole with the formula of the standard; induction over frames; search by induction |
| C93 | MP4 atoms | relation between bytes and trees of atoms, induction over the relation |
| C94 | JPEG chunks | search for FF compared with the grammar of entropy coded data by induction; induction over the parts |
| C95 | JPEG blocks | bits without stuffed bytes as a relation; code loop and coefficient loop by induction over it |
| C96 | Matroska elements | mutual grammar of elements; induction over it with `C55` for the numbers |
| C97 | FAT tables and dates | induction over the table, bits of little endian bytes; calendar from `Spec/Calendar.lean` |
| C98 | Ogg pages | tables of segments by induction; pages by induction over the file; the chain of pages compared with a filter |
| C99 | PNG chunks | places of chunks by induction over the file; header and time from a record of parts; search of the end mark from `C05` |
| C100 | tar archives | columns as text between blanks; octal digits by induction; induction over the files |
| C101 | ZIP archives | parts of records; first mark by C05; induction over the records |
| C102 | gzip archives | bits of two bytes; optional parts one behind the other; strings by C42 |
| C103 | Unix archives | words of a line; numbers by C58; induction over the files |
| C104 | ID3v1 | columns of Tar.lean; the two last bytes decide |
| C105 | ID3v2 | texts by C42 and C50; numbers by C54; induction over frames |
| C106 | RIFF chunks | induction over an inductive description of the bytes; texts by C50 |
| C107 | WAVE properties | fields of the format; search of chunks |
| C108 | MIDI events | induction over an inductive description of the bytes, running status as parameter |
| C109 | MIDI size | refinement to C05 (first occurrence) |
| C110 | note names | the whole table, by the kernel |
| C111 | AMF values | mutual structural induction over values |
| C112 | FLV tags | induction over an inductive description of the bytes |
| C113 | FLV metadata | induction over tags and properties |
| C114 | FLAC blocks | induction over blocks; bit fields by arithmetic |
| C115 | FLAC metadata | induction over items and blocks |
| C116 | AU files | layout of the header, arithmetic |
| C117 | AIFF files | induction over chunks; rate by C87 |
| C118 | GIF files | induction over blocks and items; flags by arithmetic |
| C119 | GIF content size and metadata | first occurrence by C05; induction over items |
| C120 | BMP headers, palettes, metadata | reading of records; case on the header's size |
| C121 | BMP pixels | induction over pixels and lines; alignment arithmetic |
| C122 | icons | induction over icons with running offset |
| C123 | PCX | reading of records; palette from the end |
| C124 | Targa | reading of records; flags by arithmetic |
| C125 | 7z streams | readers that compose; induction over all lists |
| C126 | 7z files | readers that compose; induction over all lists |
| C127 | 7z archives | readers that compose; places of the parts |
| C128 | marshal objects | readers that compose; induction over nesting |
| C129 | values of Python objects | eager loading against lazy tables; induction over nesting with an invariant on the tables |
| C130 | compiled Python files | readers that compose; the whole table of magic numbers |
| C131 | simple archives | readers at places of a file; sorting by offset; induction over all lists |
| C132 | Microsoft cabinets | readers at places of a file; sorting by offset; induction over all lists |
| C133 | RPM packages | readers at places of a file; sorting by offset; induction over all items |
| C134 | binary property lists | readers at places of a file; case analysis over all kinds of objects |
| C135 | network captures | readers; induction over options, layers and packets |
| C136 | ELF programs | readers at places, flags of both endians |
| C137 | Windows and MS-DOS programs | readers at places, sorting, decision logic |
| C138 | Mac OS programs | readers; induction over commands and sections |
| C139 | ARJ archives | readers; induction over members |
| C140 | discs and swap files | readers; arithmetic of byte orders |
| C141 | Amiga modules | readers; greatest position by induction |
| C142 | 3D Studio files | readers; mutual induction over trees of chunks |
| C143 | RealAudio and RealMedia | readers; induction over chunks |
| C144 | MPEG transport streams | readers; search of the synchronization byte (C05); induction over packets |
| C145 | Searching texts | induction over trees |
| C146 | JPEG metadata | readers; sums over tables; steps over entries in any order |
| C147 | IPTC and Photoshop records | readers; induction over records |
| C148 | Finder files | readers; induction over trees and the list of nodes to visit |
| C149 | TIFF images | readers at places; induction over the links |
| C150 | Photoshop pictures | readers; decision logic of the metadata |
| C151 | X11 fonts | readers at places; sorting of the keys of a pool |
| C152 | Windows Media files | readers; induction over the tree of objects; decision logic of the metadata |
| C153 | Windows shortcuts | readers at a known place; induction over items and blocks |
| C154 | RAR archives | readers at a known place; induction over the blocks |
| C155 | Playing time of MPEG audio files | frames of C92; inequalities of the sizes of all kinds of frames, summed by induction |
| C156 | Flash movies | readers; bits of rectangles; induction over the tags |
| C157 | FastTracker modules | readers; look-ahead of sizes; induction over rows, samples, patterns, instruments |
| C158 | Files told of archives | assignments to registered keys as updates of a function; induction over the files |
| C159 | Dates with names of months | parts of the text between separators; the three forms as an inductive relation |
| C160 | What Ogg files tell | assignments that cannot raise; values of a key as a fold over its assignments; induction over comments and pages |
| C161 | Directories, modes and inodes of EXT2 | readers; look-ahead at the ACL; `ls` letters as bits of the mode |
| C162 | Groups and files of EXT2 | arithmetic of groups; the blocks up to the first outside the group by induction; bytes of the joined blocks |
| C163 | Tables of TrueType fonts | readers; tables sorted by offset; a table of known size never fails; negations with witnesses |
| C164 | Names and dates told of TrueType fonts | layout of slots as an invariant from the beginning of the table; lookup by place; folding `add` over tame items |
| C165 | Messages of Garmin FIT files | readers; loop over messages with the definitions as state; negations with witnesses |
| C166 | Properties of Office documents | readers with seek; charset as state; layout of slots and binary search; negations with witnesses |
| C167 | What is told of Office documents | assignments as a list, each of them tame; folding `add`; negations with witnesses |
| C168 | Serialized Java objects | the grammar as an inductive relation with the handles as state; induction on the depth; negations with witnesses |
| C169 | What is told of torrents | lookup by distinct names as specification; every value is accepted or ignored without exception; negation with witness for UTF-8 |
| C170 | Image data of PNG pictures | places of the chunks by induction, links followed by induction, then C43 |
| C171 | Gimp pictures | round trip; properties and offsets by induction over lists, layers by induction over places |
| C172 | Gnome keyrings | round trip; lists of items and secrets by induction |
| C173 | Jobs of the Windows task scheduler | round trip; triggers by induction, flags by induction over the bits |
| C174 | Speed of a search | invariant over all calls, against a specification of the calls that count |
| C175 | Attributes of MS-DOS files | the bits of the number, the loop by induction over the names |
| C176 | Apple bills of materials | every object is a slice of the file, by induction over the table |
| C177 | Palm resource files | every resource is a slice of the file, by induction over the offsets |
| C178 | Fonts of LucasArts games | round trip, by induction over the characters |
| C179 | ReiserFS file systems | every bitmap is a slice of the file, by induction over the bitmaps, and its states are its bits, by induction over its bytes |
| C180 | Messages | everything seen is that of the history, by induction over the operations |
| C181 | Calls of limited time | the time and the end, by induction over the function |
| C182 | Bytes shown in the window | the remembered chunks are those of the file, by induction over what was looked at; the cut chunks are the range |
| C183 | Window of bytes | arithmetic of rows for all sizes |
| C184 | Tree of fields in the window | invariant over all requests, by induction over the fields left |
| C185 | Calls of limited memory | induction over what the function does |
| C186 | List of fields in the window | invariant of the number of rows over all looks; the text of the row is a path to its field |
| C187 | What is told of a disc | digits read back by induction; assignments that never raise |
| C188 | Help files of Windows | reading back what was written |
| C189 | Names of the fields of a set, videos of a Spider-Man game | induction over the fields, reading back what was written |
| C190 | Firmware volumes | induction over the depth of sections, reading back what was written |
| C191 | Games of the Nintendo DS | linearity of the register over exclusive or, whole table by `decide`, reading back what was written |
| C192 | Pictures of games of Blizzard | reading back what was written, lists compared as numbers, induction over pictures |
| C193 | Benchmarks | invariant of the rounds: statistics are those of the first calls, batches never exceed what is missing |
| C194 | The command for metadata | induction over files, for all outcomes |
| C195 | Walking over the tree of the text viewer | mutual induction over trees and their children, against the lines in order |
| C196 | ACE archives | round trip by induction over the blocks; for other kinds: a reader that has no result on any stream |
| C197 | Windows metafiles | round trip by induction over records; tables for every function; the first occurrence of C05 for the size |
| C198 | Models of Renderdroid | round trip by composition over counted lists; an error in every node |
| C199 | Metadata of Windows metafiles | the assignments of each kind of file, filtered by key, through the model of `Data.add` |
| C200 | The table of metadata | induction over the files found; lines and columns are read back with C17 |
| C201 | What ModPlug adds to music | induction over the blocks; extensions and plugins are shown never to be told |
| C202 | Version information of programs | induction from the end over the nodes; the dictionary is shown to hold the last values |
| C203 | Files that are carved out | induction over the files found; copying with C46; padded numbers are read back |
