{"id": "C01", "title": "Scalar stream round trip", "statement": "Every value written with a fixed-width write_* call of a Write stream (byte/ubyte/short/ushort/int/uint/float/string/vec2/vec3/mat3/mat4 and the composite Date, AxisAlignedBoundingBox) is read back unchanged, bit for bit, by the matching read_* call at the same offset, and exactly the written number of bytes is consumed, whatever surrounds it in the stream.", "quantifier": "all values of every width, all preceding and following stream contents", "why_tests_cant": "The value space (2^32 per scalar, 2^512 per matrix) and the surrounding bytes cannot be enumerated.", "anchors": ["src/Stream.cc: Read::read_*, Write::write_*, read_any", "include/zenkit/Stream.hh", "src/Date.cc: Date::load/save", "src/Boxes.cc"]}
{"id": "C02", "title": "Memory reader is a bounded cursor", "statement": "A Read over an in-memory buffer never leaves [0,length]: after any sequence of read/seek/skip operations the position is within the buffer, each read returns exactly the bytes between the old and the new position and never a byte outside of the buffer, seeks outside of the buffer leave the position unchanged, and eof() holds iff the position equals the length.", "quantifier": "all buffers, all finite histories of read(n)/seek(off,whence) with sizes representable without wrap-around", "why_tests_cant": "Histories of seeks and reads are unbounded and the interesting offsets depend on the buffer length.", "anchors": ["src/Stream.cc: detail::ReadMemory"]}
{"id": "C03", "title": "Short reads are zero padded", "statement": "Reading a scalar or fixed-length string that extends past the end of a memory stream yields the remaining bytes followed by zero bytes and moves the stream to eof; it never fails and never returns bytes from outside of the stream.", "quantifier": "all buffers, all positions, all widths", "why_tests_cant": "Each truncation point of each file would need a separate test.", "anchors": ["src/Stream.cc: read_any, Read::read_string, detail::ReadMemory::read"]}
{"id": "C04", "title": "Growing writer is a sparse byte file", "statement": "A Write into a growing buffer behaves like a file with positioned writes: after any history of write/seek operations every byte equals the last byte written at its offset, or zero when no write ever covered it; the buffer length is the highest end offset written.", "quantifier": "all histories of write and seek operations", "why_tests_cant": "Overlapping writes and back-patching histories are unbounded.", "anchors": ["src/Stream.cc: detail::WriteDynamic", "include/zenkit/Stream.hh: Write::to"]}
{"id": "C05", "title": "Fixed-buffer writer never writes out of bounds", "statement": "A Write into a caller supplied fixed buffer never changes a byte outside of the buffer, truncates a write that does not fit to the part that fits, ignores seeks beyond the end, and leaves all bytes that were not addressed unchanged.", "quantifier": "all buffers and all histories of write and seek operations", "why_tests_cant": "Out of bounds writes corrupt memory silently; a passing test proves nothing for other offsets.", "anchors": ["src/Stream.cc: detail::WriteStatic"]}
{"id": "C06", "title": "Line round trip", "statement": "A line written with write_line is read back by read_line(false) exactly when it contains no NUL, CR or LF byte, and then exactly the line and its terminator are consumed; read_line(true) additionally consumes the run of whitespace that follows and nothing else.", "quantifier": "all strings, all continuations of the stream", "why_tests_cant": "The set of strings and of following bytes is infinite and the behaviour at the end of the stream differs from the middle.", "anchors": ["src/Stream.cc: Read::read_line, Read::read_line_then_ignore, Write::write_line"]}
{"id": "C07", "title": "Chunk framing isolates chunk handlers", "statement": "A file made of any sequence of chunks written by write_chunk is read by read_chunked such that the handler is called once per chunk in order, positioned at the start of that chunk's payload, no matter how many bytes of earlier payloads the handlers consumed or over-read; unknown chunk types are skipped as a whole.", "quantifier": "all chunk sequences and all handler behaviours (consuming less, exactly or more than the payload)", "why_tests_cant": "The number of chunks and the consumption pattern of handlers are unbounded.", "anchors": ["include/zenkit/Stream.hh: proto::read_chunked, proto::write_chunk"]}
{"id": "C08", "title": "Chunk loop terminates on every input", "statement": "read_chunked returns for every byte sequence, including truncated and corrupted ones, provided the handler itself returns and does not seek in front of the payload it was given.", "quantifier": "all byte sequences, all forward-only handlers", "why_tests_cant": "Termination is a statement about all inputs; a fuzzer can only fail to find a hang.", "anchors": ["include/zenkit/Stream.hh: proto::read_chunked"]}
{"id": "C09", "title": "Compressed stream is transparent", "statement": "Reading through a decompressing VDF file stream gives, for any history of reads and seeks, exactly the bytes and positions that the same history gives on a cursor over the uncompressed content (where a seek to outside of the content goes to its nearest end), when the stored blocks are the compression of that content; a block boundary is never observable.", "quantifier": "all contents, all block sizes, all histories of read/seek, every compressor/decompressor pair that is inverse on the blocks", "why_tests_cant": "Block boundary crossings combined with cache reuse form an unbounded state space.", "anchors": ["src/Stream.cc: detail::ReadZipped", "src/Vfs.cc: vfs_write_zipped"]}
{"id": "C10", "title": "Binary archive entry sequences round trip", "statement": "Any sequence of entries written to a BINARY archive and read back with the same sequence of typed read calls yields the same values, for strings without NUL/CR/LF and enum values below 256; for other strings and enum values the values read differ or the following entries are desynchronised.", "quantifier": "all finite sequences of typed entries", "why_tests_cant": "Desynchronisation is only visible in the entries that follow; sequences are unbounded.", "anchors": ["src/archive/ArchiveBinary.cc: WriteArchiveBinary::write_*, ReadArchiveBinary::read_*"]}
{"id": "C11", "title": "Binsafe archive entry sequences round trip", "statement": "Any sequence of entries written to a BINSAFE archive and read back with the same sequence of typed read calls yields the same values, for strings and raw blobs shorter than 65536 bytes.", "quantifier": "all finite sequences of typed entries and entry names", "why_tests_cant": "Length fields are 16 bits wide, sequences are unbounded and share one key table.", "anchors": ["src/archive/ArchiveBinsafe.cc: WriteArchiveBinsafe::write_*, ReadArchiveBinsafe::read_*, ensure_entry_meta"]}
{"id": "C12", "title": "Binsafe type confusion is detected", "statement": "Reading an entry of a BINSAFE archive with a read call of a different type raises ParserError; it never returns a value decoded from the other type's payload.", "quantifier": "all pairs of entry types and all entry values", "why_tests_cant": "Pairs of types times payloads; misreads can return plausible values.", "anchors": ["src/archive/ArchiveBinsafe.cc: ReadArchiveBinsafe::ensure_entry_meta"]}
{"id": "C13", "title": "Binsafe key table is consistent", "statement": "After any history of entry writes the BINSAFE key table holds each distinct entry name exactly once, entries refer to the index under which their name is stored, and reading the written header restores exactly that table.", "quantifier": "all histories of entry names, all hash values", "why_tests_cant": "Names repeat in arbitrary patterns.", "anchors": ["src/archive/ArchiveBinsafe.cc: WriteArchiveBinsafe::write_entry, write_header, ReadArchiveBinsafe::read_header"]}
{"id": "C14", "title": "Skipping an object of a Binsafe archive terminates and balances", "statement": "skip_object on a BINSAFE archive returns or throws for every byte sequence, and on a well formed object it stops exactly behind the matching object end, whatever objects are nested inside.", "quantifier": "all byte sequences; all nesting structures", "why_tests_cant": "Nesting depth and truncation points are unbounded; a hang is not observable by a finite test.", "anchors": ["src/Archive.cc: ReadArchive::skip_object", "src/archive/ArchiveBinsafe.cc"]}
{"id": "C15", "title": "ASCII archive integers round trip", "statement": "A 32 bit integer written with write_int to an ASCII archive is read back unchanged by read_int.", "quantifier": "all 2^32 values", "why_tests_cant": "The failing values are those whose decimal form fills the internal buffer; sampled tests miss them.", "anchors": ["src/archive/ArchiveAscii.cc: WriteArchiveAscii::write_int, ReadArchiveAscii::read_int"]}
{"id": "C16", "title": "ASCII archive raw blobs round trip", "statement": "A raw blob written with write_raw to an ASCII archive is read back unchanged by read_raw.", "quantifier": "all byte strings below 65536 bytes", "why_tests_cant": "The corruption depends on adjacent byte pairs.", "anchors": ["src/archive/ArchiveAscii.cc: WriteArchiveAscii::write_raw, ReadArchiveAscii::read_raw"]}
{"id": "C17", "title": "ASCII archive entry sequences round trip", "statement": "Any sequence of string, int, float, bool, byte, word, enum, color, vector and matrix entries written to an ASCII archive is read back with the same sequence of typed read calls.", "quantifier": "all finite sequences of typed entries", "why_tests_cant": "Every type has its own textual form and reader; entry sequences are unbounded.", "anchors": ["src/archive/ArchiveAscii.cc"]}
{"id": "C18", "title": "Object class names and object types correspond one to one", "statement": "For every object type that can be written, the class name stored in the archive maps back to that object type on load, and no two types share a class name.", "quantifier": "the whole class name table in both directions", "why_tests_cant": "Table entries are written by hand twice; a test that saves a few classes does not cover the table.", "anchors": ["src/Archive.cc: OBJECTS, CLASS_NAMES", "include/zenkit/Object.hh: ObjectType"]}
{"id": "C19", "title": "Object references preserve sharing", "statement": "Writing an arbitrary object graph - including shared, null and cyclic references - to an archive and reading it back yields an isomorphic graph: two references in the result denote the same object iff the corresponding references were the same object when saved.", "quantifier": "all finite object graphs", "why_tests_cant": "Sharing patterns and cycles are unbounded; equality of fields does not reveal lost sharing.", "anchors": ["src/Archive.cc: ReadArchive::read_object, WriteArchive::write_object, write_reference"]}
{"id": "C20", "title": "Case-insensitive name order is a strict weak order", "statement": "The comparison that orders directory entries is irreflexive, transitive and its equivalence classes are exactly the strings that are equal ignoring case, so that std::set lookups are well defined.", "quantifier": "all strings", "why_tests_cant": "Ordering axioms quantify over triples of strings.", "anchors": ["src/Misc.cc: icompare, iequals", "include/zenkit/Vfs.hh: VfsNodeComparator"]}
{"id": "C21", "title": "Directories never hold two entries that differ only in case", "statement": "In every directory of a Vfs reachable by any history of mkdir, mount, mount_disk, remove and create calls, no two entries have names that are equal ignoring case, and entries are ordered.", "quantifier": "all histories of Vfs operations", "why_tests_cant": "Histories are unbounded.", "anchors": ["src/Vfs.cc: VfsNode::create, remove, Vfs::mkdir, mount, remove"]}
{"id": "C22", "title": "Creating, removing and finding entries obeys map laws", "statement": "For names without trailing whitespace: after create(n) child(m) returns the new node iff m equals n ignoring case and trailing whitespace, and otherwise what it returned before; after remove(n) child(m) returns nothing for such m and is otherwise unchanged.", "quantifier": "all directories, names and histories", "why_tests_cant": "All combinations of names and previous contents.", "anchors": ["src/Vfs.cc: VfsNode::child, VfsNode::create, VfsNode::remove"]}
{"id": "C23", "title": "Path resolution never aborts the process", "statement": "Vfs::resolve returns the node denoted by a path or nullptr, for every path and every tree; it never terminates the program.", "quantifier": "all trees and paths", "why_tests_cant": "The failing paths descend through a file, which a test of existing paths does not try.", "anchors": ["src/Vfs.cc: Vfs::resolve, VfsNode::child"]}
{"id": "C24", "title": "mkdir is idempotent and makes the path resolvable", "statement": "After mkdir(p) succeeds, resolve(p) denotes a directory, the call can be repeated without effect, and all entries that existed before are still reachable with the same content.", "quantifier": "all trees and all relative paths", "why_tests_cant": "All trees and paths.", "anchors": ["src/Vfs.cc: Vfs::mkdir"]}
{"id": "C25", "title": "Mounting merges by the overwrite policy", "statement": "Mounting a tree whose names have no trailing whitespace gives, for every path, the entry prescribed by the overwrite behaviour: directories are merged, a file that exists on both sides is taken from the mounted tree for ALL, kept for NONE, and chosen by modification time for NEWER and OLDER; entries only present on one side are kept, and nothing outside of the parent directory changes.", "quantifier": "all pairs of trees, all timestamps, all behaviours", "why_tests_cant": "The merge recurses over two trees of unbounded size.", "anchors": ["src/Vfs.cc: Vfs::mount"]}
{"id": "C26", "title": "Disk archive round trip", "statement": "Saving a Vfs whose directories are non-empty and whose names fit the catalog and mounting the saved file into an empty Vfs reproduces the tree: same paths, same file contents.", "quantifier": "all trees with catalog compatible names", "why_tests_cant": "Trees are unbounded, the catalog uses absolute offsets and sibling flags.", "anchors": ["src/Vfs.cc: Vfs::save, save_internal, mount_disk"]}
{"id": "C27", "title": "Saved empty directories do not corrupt the tree", "statement": "Saving a Vfs that contains an empty directory and mounting it gives back an empty directory.", "quantifier": "all trees", "why_tests_cant": "A test would need to place the empty directory among non-empty ones.", "anchors": ["src/Vfs.cc: save_internal, mount_disk"]}
{"id": "C28", "title": "Files mounted from a disk image lie within the image", "statement": "Every file node created by mounting a disk image refers to a byte range inside of the image.", "quantifier": "all byte sequences", "why_tests_cant": "The check involves 32 bit wrap-around that ordinary images do not trigger.", "anchors": ["src/Vfs.cc: mount_disk"]}
{"id": "C29", "title": "A rejected disk image leaves the Vfs unchanged", "statement": "Mounting data whose signature is not a known VDF signature throws VfsBrokenDiskError and leaves every existing entry as it was.", "quantifier": "all byte sequences, all trees", "why_tests_cant": "All inputs and prior states.", "anchors": ["src/Vfs.cc: mount_disk"]}
{"id": "C30", "title": "Instruction decoding is total and advances", "statement": "Decoding an instruction from any position inside of the code consumes 1, 5 or 6 bytes depending only on the opcode, and encoding an instruction with its operand and decoding it gives the same instruction.", "quantifier": "all opcodes, operands and positions", "why_tests_cant": "All operand values and opcodes including undefined ones.", "anchors": ["src/DaedalusScript.cc: DaedalusInstruction::decode"]}
{"id": "C31", "title": "The script stack never leaves its bounds", "statement": "For any history of pushes and pops the VM stack pointer stays within [0,2048]: a push onto a full stack raises an exception, a pop from an empty stack yields a default value or raises an exception, and values are returned in LIFO order.", "quantifier": "all histories of push/pop operations", "why_tests_cant": "Histories are unbounded.", "anchors": ["src/DaedalusVm.cc: push_int, push_float, push_reference, push_instance, pop_int, pop_float, pop_reference, pop_instance"]}
{"id": "C32", "title": "Arithmetic instructions compute the documented operator", "statement": "Each arithmetic, comparison and logic instruction pops its operands and pushes the result of the documented operator, with the topmost value as left operand, whenever C++ defines that result (C64 covers the rest); operands may be numbers or variables; nothing else changes and execution continues behind the instruction; division and modulo by zero raise DaedalusVmException.", "quantifier": "all operators, all operand values with a defined result, all machine states", "why_tests_cant": "2^64 operand pairs per operator and every stack state; tests try a few literals.", "anchors": ["src/DaedalusVm.cc: DaedalusVm::exec"]}
{"id": "C33", "title": "Calls restore the caller's frame", "statement": "A script function call that returns normally restores the caller's program counter, instance context and stack below the arguments, and leaves exactly one return value iff the callee is declared to return one.", "quantifier": "all callees (any effect on the stack), all caller states with the arguments on the stack", "why_tests_cant": "Callee behaviours are arbitrary programs.", "anchors": ["src/DaedalusVm.cc: unsafe_call, push_call, pop_call"]}
{"id": "C34", "title": "Exceptions in externals do not corrupt the caller's frame", "statement": "When an external raises a script error and the registered exception handler continues execution, the enclosing script function still returns to its caller.", "quantifier": "all externals that raise, all callers", "why_tests_cant": "Needs a failing external inside of a nested call with a continuing handler.", "anchors": ["src/DaedalusVm.cc: exec BE, push_call, pop_call", "include/zenkit/DaedalusVm.hh: register_external"]}
{"id": "C35", "title": "Recursion does not clobber local variables", "statement": "When a script function is entered recursively with local variable preservation enabled, all locals and parameters of the interrupted activation have the same values after the inner call as before.", "quantifier": "all functions, all local layouts, all recursion depths", "why_tests_cant": "Depth and number of locals are unbounded.", "anchors": ["src/DaedalusVm.cc: push_local_variables, pop_local_variables"]}
{"id": "C36", "title": "Temporary strings keep their value until popped", "statement": "A string pushed onto the VM stack is returned unchanged by the matching pop, whatever other strings are pushed and popped in between.", "quantifier": "all histories of string push/pop", "why_tests_cant": "Needs more live strings than an 8 bit index can name.", "anchors": ["src/DaedalusVm.cc: push_string, pop_string", "src/DaedalusScript.cc / DaedalusVm.cc: temporary string slots"]}
{"id": "C37", "title": "Symbol members read back what was written", "statement": "set_int/set_float/set_string on index i of a symbol followed by the matching getter on index i returns the value, and no other index or symbol changes; an index outside of the declared count raises DaedalusIllegalIndexAccess.", "quantifier": "all symbols, indices and values", "why_tests_cant": "Index range is 12 bits and member and non-member symbols use different paths.", "anchors": ["src/DaedalusScript.cc: DaedalusSymbol::get_*, set_*"]}
{"id": "C38", "title": "Constants are write protected", "statement": "A script or API write through the VM to a constant symbol raises DaedalusIllegalConstAccess and leaves the value unchanged unless IGNORE_CONST_SPECIFIER is set.", "quantifier": "all symbols, values and instructions", "why_tests_cant": "All write paths times all symbols.", "anchors": ["src/DaedalusVm.cc: set_int, set_float, set_string, set_instance"]}
{"id": "C39", "title": "Opaque instance layout is disjoint and in bounds", "statement": "register_as_opaque assigns to the members of a class offsets such that the storage of different members never overlaps, is aligned, and lies inside of the computed class size.", "quantifier": "all classes (any list of member types and counts)", "why_tests_cant": "The member list is unbounded and strings have different size and alignment than numbers.", "anchors": ["src/DaedalusScript.cc: register_as_opaque"]}
{"id": "C40", "title": "Texture files round trip", "statement": "Saving a texture with at least one mipmap and loading the file into a new object yields the same header, palette and mipmap data for every level, for textures whose mipmaps have the size implied by format and dimensions.", "quantifier": "all textures", "why_tests_cant": "Sizes, formats and mipmap counts are unbounded.", "anchors": ["src/Texture.cc: Texture::load, Texture::save, _ztex_mipmap_size"]}
{"id": "C41", "title": "Pixel format conversion through RGBA is lossless where the format is", "statement": "Building a texture of a 32 bit format (or a 24 bit one, up to the alpha channel) from an RGBA image and reading it with as_rgba8 yields the original image; building in any supported format is free of undefined behaviour.", "quantifier": "all images of all dimensions", "why_tests_cant": "Index arithmetic errors are invisible on 1 pixel or uniform images.", "anchors": ["src/Texture.cc: _ztex_to_rgba, _ztex_from_rgba, TextureBuilder::build, Texture::as_rgba8"]}
{"id": "C42", "title": "A built texture exposes the mipmaps that were added", "statement": "After add_mipmap(l0), add_mipmap(l1), ..., build(f) without conversion, data(i) is the i-th added mipmap.", "quantifier": "all mipmap chains", "why_tests_cant": "Only visible with two or more levels.", "anchors": ["src/Texture.cc: TextureBuilder", "include/zenkit/Texture.hh: Texture::data"]}
{"id": "C43", "title": "BSP trees round trip", "statement": "Saving a BSP tree stored in preorder and loading it yields the same nodes with the same parent, front and back links.", "quantifier": "all binary trees", "why_tests_cant": "Trees are unbounded; the file stores only child flags.", "anchors": ["src/world/BspTree.cc: _parse_bsp_nodes, BspTree::save"]}
{"id": "C44", "title": "BSP loading is memory safe for every header", "statement": "Loading a BSP tree never writes through an invalidated node reference, whatever node count the file header declares.", "quantifier": "all files", "why_tests_cant": "Depends on vector reallocation and on a lying header.", "anchors": ["src/world/BspTree.cc: _parse_bsp_nodes"]}
{"id": "C45", "title": "Fan triangulation covers each polygon exactly", "statement": "Triangulating a mesh emits for each selected polygon with n corners exactly n-2 triangles, fanning around its first corner in order, with the polygon's own material, lightmap and flags, and nothing for unselected, degenerate, portal, ghost occluder and outdoor polygons.", "quantifier": "all meshes and leaf selections", "why_tests_cant": "Polygon counts and corner counts are unbounded.", "anchors": ["src/Mesh.cc: Mesh::triangulate"]}
{"id": "C46", "title": "Polygon flags round trip", "statement": "The polygon flags written into a mesh file are read back unchanged for either game version.", "quantifier": "all flag values, both versions", "why_tests_cant": "The flags that get lost are not exercised by the reference files.", "anchors": ["src/Mesh.cc: Mesh::load, Mesh::save"]}
{"id": "C47", "title": "Way nets round trip", "statement": "Saving a way net and loading it yields a way net with the same edges between the same way points, the same free points, and contains every way point that is free or touched by an edge.", "quantifier": "all way nets", "why_tests_cant": "Sharing patterns between edges and points are unbounded.", "anchors": ["src/world/WayNet.cc: WayNet::load, WayNet::save"]}
{"id": "C48", "title": "VOb trees round trip", "statement": "Saving a VOb tree and loading it yields the same tree shape and objects; a VOb that cannot be loaded is dropped together with its subtree without disturbing its siblings.", "quantifier": "all trees", "why_tests_cant": "Depth and width are unbounded; skipping has to balance.", "anchors": ["src/world/VobTree.cc: parse_vob_tree, save_vob_tree"]}
{"id": "C49", "title": "Nested oriented bounding boxes round trip", "statement": "Saving an oriented bounding box with any hierarchy of children and loading it yields the same hierarchy.", "quantifier": "all finite box trees with less than 65536 children per node", "why_tests_cant": "Trees are unbounded.", "anchors": ["src/Boxes.cc: OrientedBoundingBox::load/save"]}
{"id": "C50", "title": "Fonts and model hierarchies round trip", "statement": "Font::save and ModelHierarchy::save followed by load yield the same font / hierarchy for names without NUL, CR and LF.", "quantifier": "all fonts and hierarchies", "why_tests_cant": "All glyph and node counts.", "anchors": ["src/Font.cc", "src/ModelHierarchy.cc"]}
{"id": "C51", "title": "Cutscene block lookup finds exactly the named block", "statement": "block_by_name(n) returns a block named n if the library contains one and nullptr otherwise.", "quantifier": "all libraries and names", "why_tests_cant": "The failing names are those not in the library.", "anchors": ["src/CutsceneLibrary.cc: CutsceneLibrary::block_by_name"]}
{"id": "C52", "title": "Multi resolution and soft skin meshes round trip", "statement": "Saving a MultiResolutionMesh or SoftSkinMesh and loading it yields the same sub meshes, weights and bounding volumes.", "quantifier": "all meshes", "why_tests_cant": "Sizes and offsets depend on the content.", "anchors": ["src/MultiResolutionMesh.cc", "src/SoftSkinMesh.cc"]}
{"id": "C53", "title": "The model script tokenizer terminates on every input", "statement": "Reading tokens from any byte sequence ends with the end-of-file token after finitely many tokens; no input makes the tokenizer loop.", "quantifier": "all byte sequences", "why_tests_cant": "Termination for all inputs; the hanging inputs lack a final newline.", "anchors": ["src/ModelScriptDsl.cc: MdsTokenizer::next, MdsParser::ignore_block"]}
{"id": "C54", "title": "A saved game can always be loaded", "statement": "SaveGame::save followed by SaveGame::load succeeds and yields the same metadata, thumbnail presence and state.", "quantifier": "all save games", "why_tests_cant": "Optional parts (thumbnail) and value dependent text encodings.", "anchors": ["src/SaveGame.cc: SaveGame::save, SaveGame::load, SaveState::save/load"]}
{"id": "C55", "title": "Saving a game is crash safe", "statement": "If the process stops at any point during SaveGame::save, the previously saved game at the target path is still loadable or the new one is.", "quantifier": "all crash points", "why_tests_cant": "Crash points cannot be enumerated by running the code.", "anchors": ["src/SaveGame.cc: SaveGame::save"]}
{"id": "C56", "title": "Axis aligned box of an oriented box contains it", "statement": "as_bbox returns the smallest axis aligned box that contains the eight corners of the oriented box.", "quantifier": "all boxes", "why_tests_cant": "The failing boxes lie entirely at negative coordinates.", "anchors": ["src/Boxes.cc: OrientedBoundingBox::as_bbox"]}
{"id": "C57", "title": "Log messages are filtered by level", "statement": "The registered logger callback is invoked exactly for messages whose level is at most the configured level, in order, and never when no callback is set.", "quantifier": "all histories of set/log calls", "why_tests_cant": "Histories are unbounded.", "anchors": ["src/Logger.cc: Logger::logv, Logger::set"]}
{"id": "C58", "title": "A damaged block of a compressed file does not affect other blocks", "statement": "After a read of a decompressing VDF file stream failed at a damaged block, reads of undamaged blocks still give their content.", "quantifier": "all streams with some undamaged blocks, all histories", "why_tests_cant": "depends on the order in which blocks are visited and on the partial output of the decompressor", "anchors": ["src/Stream.cc: detail::ReadZipped::read, cache_block"]}
{"id": "C59", "title": "A finished archive file can be opened and read", "statement": "A BINARY or ASCII archive to which a document was written and whose header was finished can be opened; opening it gives the header and number of objects, and reading it gives the document.", "quantifier": "all documents, dates, user names, and content in front of the archive", "why_tests_cant": "Fails only for particular sizes of the first object and for writes that span a change of the date.", "anchors": ["src/archive/ArchiveBinary.cc: WriteArchiveBinary::write_header, ReadArchiveBinary::read_header", "src/archive/ArchiveAscii.cc: WriteArchiveAscii::write_header", "src/Archive.cc: ArchiveHeader::load, ReadArchive::from"]}
{"id": "C60", "title": "Skipping an object of an ASCII archive terminates and balances", "statement": "skip_object on an ASCII archive always returns or throws, and on a well formed object it stops where the entries behind the object can be read, from in front of the object as well as from any point inside of it.", "quantifier": "all documents, nesting structures, points inside of the object, and truncated files", "why_tests_cant": "Nesting is unbounded and an endless loop cannot be observed by a finite test.", "anchors": ["src/Archive.cc: ReadArchive::skip_object", "src/archive/ArchiveAscii.cc: ReadArchiveAscii::read_object_begin, read_object_end, skip_entry"]}
{"id": "C61", "title": "Removing a path removes exactly that node", "statement": "Vfs::remove of a path returns whether a node existed there; afterwards nothing is found at that path or below it, and every other path denotes what it denoted before.", "quantifier": "all trees and paths not ending in a slash whose parent is not a file", "why_tests_cant": "All trees and paths; the absence of effects elsewhere is a statement about every other path.", "anchors": ["src/Vfs.cc: Vfs::remove, VfsNode::remove"]}
{"id": "C62", "title": "Searching by name finds an entry iff one exists", "statement": "Vfs::find always returns; it returns an entry with the given name (ignoring case and trailing whitespace) of some directory in the tree, and nullptr only if no directory of the tree has such an entry.", "quantifier": "all trees and names", "why_tests_cant": "The search walks trees of unbounded depth with an explicit stack.", "anchors": ["src/Vfs.cc: Vfs::find"]}
{"id": "C63", "title": "Compressed disk archive round trip", "statement": "Saving a Vfs with save_compressed and mounting the saved file into an empty Vfs reproduces the tree: same paths, and opening and reading each file gives its contents.", "quantifier": "all trees with catalog compatible names, all compressors that the decompressor inverts", "why_tests_cant": "Trees and contents are unbounded; the reader guesses from the stored bytes whether a file is compressed, and a size of zero means something else.", "anchors": ["src/Vfs.cc: Vfs::save_compressed, vfs_write_zipped, save_internal, mount_disk, VfsNode::open_read", "src/Stream.cc: Read::from_zipped"]}
{"id": "C64", "title": "No script can cause undefined behaviour through an operator", "statement": "Executing any byte code, however hostile, has defined behaviour: an operator either pushes a result or raises a script exception.", "quantifier": "all operators and operand values, all scripts", "why_tests_cant": "Undefined behaviour is invisible to a test that happens to pass; only particular operand pairs trigger it.", "anchors": ["src/DaedalusVm.cc: DaedalusVm::exec", "src/DaedalusScript.cc: DaedalusSymbol::get_int"]}
{"id": "C65", "title": "A recursive call gets its arguments", "statement": "When a script function with local variable preservation is called while it is already on the call stack, it finds on the stack exactly the arguments the caller pushed, whatever locals are saved below them.", "quantifier": "all functions, all numbers of parameters and local slots, all argument values", "why_tests_cant": "The combinations of parameter and local counts are unbounded; the shift of the arguments only goes wrong when the two areas overlap.", "anchors": ["src/DaedalusVm.cc: push_local_variables, push_call"]}
{"id": "C66", "title": "Function values and the classes of instances are resolved", "statement": "A callback that takes a function gets the function that the passed value denotes, however many script variables of type function lead to it, and nothing if it denotes none. The class of an instance is found through any number of prototypes; an instance that descends from no class is refused with an exception.", "quantifier": "all symbol tables, all chains of variables and parents", "why_tests_cant": "The chains are followed by unbounded loops; cycles, missing values and missing parents do not occur in the scripts of the games.", "anchors": ["include/zenkit/DaedalusVm.hh: pop_value_for_external, allocate_instance", "src/DaedalusVm.cc: init_opaque_instance"]}
{"id": "C67", "title": "Symbols are found by name, index and address", "statement": "In a loaded script, find_symbol_by_name finds a symbol under its name in any spelling of upper and lower case letters, and the last one if several have the name; find_symbol_by_index finds the symbol with that index; find_symbol_by_address finds the function, prototype or instance whose code starts at the address; each finds nothing only if there is no such symbol.", "quantifier": "all script files, all names, indices and addresses", "why_tests_cant": "Tests look up a handful of names in one script; whether a name with lower case letters, a duplicate or a second load breaks the maps depends on the file.", "anchors": ["src/DaedalusScript.cc: DaedalusScript::load, find_symbol_by_name, find_symbol_by_index, find_symbol_by_address"]}
{"id": "C68", "title": "A loaded script says what the file says", "statement": "Loading a well-formed compiled script ends exactly behind it; version, code and the number of symbols are those of the file, and name, generated mark, type, count, flags, source location, parent, address, return type, member offset, class size and values of every symbol are those of its entry, texts with \\n and \\t replaced.", "quantifier": "all files, all entries of every type and flag, all values, whatever surrounds the file in the stream", "why_tests_cant": "Entries are packed bit fields of variable shape; one misread entry shifts all that follow, and the heuristic for broken lines fires on particular values of the parent only.", "anchors": ["src/DaedalusScript.cc: DaedalusScript::load, DaedalusSymbol::load, zk_internal_escape"]}
{"id": "C69", "title": "Calls from the host leave the machine as it was", "statement": "When the host calls a script function, the function sees exactly the arguments in order, the host gets the value the function left, and afterwards the stack, the call stack, the position and the current instance are what they were, also when the call fails. Initialising an instance restores the current instance and SELF.", "quantifier": "all scripts, functions, arguments and result types, any depth of calls", "why_tests_cant": "Residue on the stack only matters after many calls or in a later call with other arguments.", "anchors": ["include/zenkit/DaedalusVm.hh: call_function, push_call_parameters, pop_call_return_value, init_instance", "src/DaedalusVm.cc: unsafe_call, init_opaque_instance"]}
{"id": "C70", "title": "Instances have the class that was registered", "statement": "Creating an instance of a script class succeeds for an object of the C++ class its members were registered with, makes the symbol refer to that object and changes no other symbol; for every other class, and for script classes nothing was registered with, it is refused with an exception.", "quantifier": "all symbol tables, classes, instances and objects", "why_tests_cant": "Tests only create instances of classes they registered.", "anchors": ["include/zenkit/DaedalusVm.hh: allocate_instance, init_instance", "src/DaedalusVm.cc: init_opaque_instance", "src/DaedalusScript.cc: DaedalusOpaqueInstance"]}
{"id": "C71", "title": "as_rgba8 shows the pixels of the level", "statement": "For every texture in an uncompressed format and every mipmap level, as_rgba8 returns every pixel of the level with the channels stored for it, in the order RGBA, scaled to 8 bits; the largest value of a channel is shown as 255; a paletted pixel is looked up in the palette.", "quantifier": "all textures, levels and pixels", "why_tests_cant": "Formats, dimensions and pixel values multiply; errors sit in single channel values, in non-square levels and in rarely used formats.", "anchors": ["src/Texture.cc: Texture::as_rgba8, _ztex_to_rgba", "include/zenkit/Texture.hh: mipmap_width, mipmap_height"]}
{"id": "C72", "title": "BSP loading stays inside the polygon list", "statement": "Loading a BSP tree never reads outside its list of polygon indices, whatever polygon ranges the leaves of the file declare.", "quantifier": "all files", "why_tests_cant": "Needs damaged or hostile files; the reads are silent.", "anchors": ["src/world/BspTree.cc: BspTree::load"]}
{"id": "C73", "title": "Mesh geometry round trip", "statement": "A mesh that is saved and loaded again has the same vertices, features and polygons, each polygon with the same corners, material, light map and plane.", "quantifier": "all meshes whose members fit the fields of the file format, both game versions", "why_tests_cant": "The corners are written from different lists for the two versions, and the difference only shows for meshes with polygons of more than three corners or polygons that are not triangulated.", "anchors": ["src/Mesh.cc: Mesh::load, Mesh::save", "include/zenkit/Mesh.hh: Mesh, Polygon, PolygonList"]}
{"id": "C74", "title": "Memory owned by files of the virtual file system", "statement": "A buffer handed over to a file descriptor of the virtual file system is freed exactly once, when the last copy of the descriptor is gone, and never while a descriptor or an open reader of the file still refers to it.", "quantifier": "all histories of creating, copying, assigning and destroying descriptors, opening files and reading", "why_tests_cant": "A leak or a double free depends on the order of copies and destructions and is not visible in the results.", "anchors": ["include/zenkit/Vfs.hh: VfsFileDescriptor", "src/Vfs.cc: VfsFileDescriptor, VfsNode::open_read"]}
{"id": "C75", "title": "Model scripts are read as they are written", "statement": "Loading a textual model script gives exactly the skeleton, meshes, animations with their events, blends, aliases, combinations, disabled animations and model tags that the text spells out, in order, whatever the letter case of its keywords and whichever optional parts are left out.", "quantifier": "all model script texts", "why_tests_cant": "The parser decides by looking ahead and giving tokens back; whether an optional part is recognised depends on every possible follower, and the test fixtures contain one text.", "anchors": ["src/ModelScriptDsl.cc: MdsParser::parse_script, parse_aniEnum, parse_ani, parse_events, parse_aniBlend, maybe_flags", "src/ModelScript.cc: make_event_tag, extract_int, ModelScript::load"]}
{"id": "C76", "title": "Objects of the game keep their members through an archive", "statement": "An object of a game class (virtual objects, items, characters, triggers, zones, cameras, event managers, AI, cutscene data, the saved state of scripts) that is saved and loaded with the same game version has the members it had, its references denoting the loaded copies of the objects they denoted; this holds for whole graphs of objects, in all three archive formats, in worlds and in saved games.", "quantifier": "all values of all members of about fifty classes, both game versions, saved games or not, all finite object graphs", "why_tests_cant": "Loading is driven by what was loaded before (flag bits, counts, presence of objects), so that one wrong bit shifts everything that follows; tests load sample files and never save arbitrary objects", "anchors": ["src/vobs/VirtualObject.cc: VirtualObject::load, VirtualObject::save", "src/vobs/Misc.cc", "src/vobs/MovableObject.cc", "src/vobs/Trigger.cc", "src/vobs/Zone.cc", "src/vobs/Sound.cc", "src/vobs/Camera.cc", "src/CutsceneLibrary.cc", "src/SaveGame.cc: SaveState::load, SaveState::save", "src/World.cc: SkyController, CutscenePlayer"]}
{"id": "C77", "title": "Callbacks of the host are called as they are typed", "statement": "A C++ function can be registered for an external exactly if its parameter and result types are those the script declares. When the script calls it, it gets the values of the arguments in order, and its result takes their place on the stack; the script goes on behind the call with the context it had. Texts it gets stay valid while it runs.", "quantifier": "all signatures, all values of arguments and results, all callbacks", "why_tests_cant": "The order of popping, the conversion of every type and the lifetime of text arguments depend on the whole signature and on what the callback itself does with the machine.", "anchors": ["include/zenkit/DaedalusVm.hh: register_external, pop_values_for_external, pop_value_for_external, push_value_from_external, check_external_params", "src/DaedalusVm.cc: exec, pop_string"]}
{"id": "C78", "title": "Enumeration of the instances of a class", "statement": "enumerate_instances_by_class_name calls back with exactly the constant instances that derive from the class, directly or through prototypes, in the order of the table.", "quantifier": "all script files, all class names", "why_tests_cant": "The answer depends on the order of declarations and on the depth of prototype chains, which are unbounded.", "anchors": ["src/DaedalusScript.cc: DaedalusScript::enumerate_instances_by_class_name"]}
{"id": "C79", "title": "Lights and materials keep their members through an archive", "statement": "A light or a material that is saved and loaded with the same game version has the members it had, including those that are stored as text: texture scale and animation direction of a material, range factors and colours of an animated light; reading such text always ends and never has undefined behaviour.", "quantifier": "all values of all members, all finite floating point numbers, lists of any length, any text in the file, both game versions, the three archive formats", "why_tests_cant": "Numbers go through decimal text, so that each of four billion floats may lose digits; tests load sample files and never save animated lights or arbitrary materials", "anchors": ["src/vobs/Light.cc: LightPreset::load, LightPreset::save, VLight::load, VLight::save", "src/Material.cc: Material::load, Material::save"]}
{"id": "C80", "title": "Parameters and local variables of a function", "statement": "find_parameters_for_function gives the symbols of the declared parameters and find_locals_for_function the local variables behind them, wherever the function stands in the table; neither leaves the table.", "quantifier": "all symbol tables, all functions", "why_tests_cant": "The position of a function relative to the end of the table is a property of the file.", "anchors": ["src/DaedalusScript.cc: find_parameters_for_function, find_locals_for_function"]}
{"id": "C81", "title": "Multi resolution meshes are loaded completely", "statement": "MultiResolutionMesh::load of a well formed mesh gives all positions, normals and sub meshes with their materials, wherever in the content the tables say they are, and ends exactly behind the mesh.", "quantifier": "all well formed files, all layouts of the content, all previous states of the object", "why_tests_cant": "Layouts and counts are unbounded; test files come from one exporter.", "anchors": ["src/MultiResolutionMesh.cc: MultiResolutionMesh::load, load_from_section, SubMesh::load"]}
{"id": "C82", "title": "Soft skin meshes are loaded completely", "statement": "SoftSkinMesh::load of a well formed file gives the mesh, the weights of every vertex, the wedge normals, the nodes and their boxes.", "quantifier": "all well formed files", "why_tests_cant": "Counts are unbounded and the weights may be followed by unused bytes.", "anchors": ["src/SoftSkinMesh.cc: SoftSkinMesh::load"]}
{"id": "C83", "title": "Model meshes are loaded completely and can be saved", "statement": "ModelMesh::load of a well formed file gives every soft skin mesh and every attachment under its name; Model::load gives the hierarchy and the mesh behind it; a model mesh that is saved can be loaded again.", "quantifier": "all well formed files, all model meshes", "why_tests_cant": "Any number of attachments and meshes, in particular none.", "anchors": ["src/ModelMesh.cc: ModelMesh::load, ModelMesh::save", "src/Model.cc"]}
{"id": "C84", "title": "Morph meshes are loaded completely", "statement": "MorphMesh::load of a well formed file gives the name, the mesh, the morph positions, the animations and the sources of the file, and nothing else.", "quantifier": "all well formed files, all previous states of the object", "why_tests_cant": "Counts are unbounded; loading into a used object is not tested.", "anchors": ["src/MorphMesh.cc: MorphMesh::load"]}
{"id": "C85", "title": "Animations are loaded completely", "statement": "ModelAnimation::load of a well formed file gives the header, every event and every sample of the file.", "quantifier": "all well formed files, all previous states of the object", "why_tests_cant": "The reader of lines skips white space behind a line, so that it depends on the values in the file whether the next field is read right.", "anchors": ["src/ModelAnimation.cc: ModelAnimation::load"]}
{"id": "C86", "title": "Damaged files do no harm", "statement": "Loading any sequence of bytes as a mesh with its materials, a hierarchy, an animation, a compiled model script, a texture or a font ends, with a result or an exception; it never runs into undefined behaviour and never leaves the file.", "quantifier": "all files of less than 4 GiB", "why_tests_cant": "The space of damaged files cannot be sampled.", "anchors": ["src/MultiResolutionMesh.cc", "src/SoftSkinMesh.cc", "src/ModelMesh.cc", "src/MorphMesh.cc", "src/Mesh.cc", "src/Material.cc", "src/Texture.cc", "src/ModelAnimation.cc", "src/ModelHierarchy.cc", "src/Font.cc", "src/ModelScript.cc: parse_binary_script"]}
{"id": "C87", "title": "Meshes keep their materials", "statement": "The materials written by Mesh::save and MultiResolutionMesh::save are found again, in order, by the corresponding load, and reading goes on behind the last of them; objects of another class in their place are rejected with ParserError.", "quantifier": "all lists of materials, all previous contents of the file", "why_tests_cant": "The materials are an archive of its own inside the mesh: whether its beginning is found depends on the number of materials and on their names, and the original files are not part of the repository.", "anchors": ["src/Mesh.cc: Mesh::load, Mesh::save", "src/MultiResolutionMesh.cc: load_from_section, save_to_section", "src/Material.cc: Material::load(ReadArchive&), Material::get_version_identifier", "src/archive/ArchiveBinary.cc: ReadArchiveBinary::read_header"]}
{"id": "C88", "title": "Meshes come back with light maps that share their images as before", "statement": "A mesh that is saved and loaded into a new object has its geometry, its materials and its light maps: every light map at its place with its picture, and two light maps share one image exactly if they did before. A file with a light map that refers to an image which the file does not have is rejected.", "quantifier": "for all meshes, both game versions, all orders in which the program may save the shared images, and all files of either kind of light maps", "why_tests_cant": "The order of the images in a file depends on the addresses of the objects; a test sees one order, and one mesh. The reaction to numbers that are out of range shows only in files that no test contains.", "anchors": ["src/Mesh.cc: Mesh::load, Mesh::save", "include/zenkit/Mesh.hh: LightMap, Mesh"]}
{"id": "C89", "title": "Worlds of saved games come back", "statement": "A world of a saved game that is written to an archive and read again has the same trees of virtual objects, the same way net, cutscene player, sky and NPCs, the same spawn locations and spawn settings; an object with several uses (an NPC that is in a tree and in the list) is one object again.", "quantifier": "for all worlds, all objects in them, all three archive formats and both games", "why_tests_cant": "The repository has no saved game of every kind; the interplay of sections, references and nested trees is unbounded, and a difference between what is written and what is read shows only in certain games and formats.", "anchors": ["src/World.cc: World::save, World::load", "include/zenkit/World.hh: World, SpawnLocation", "src/Archive.cc: WriteArchive::write_object", "src/world/VobTree.cc: parse_vob_tree, save_vob_tree"]}
{"id": "C90", "title": "Worlds with their mesh", "statement": "A world that is not part of a saved game and that is saved to an archive of any of the three formats can be loaded again from it: the game it was saved for is recognised, the virtual objects with their trees and the way net are copies of those that were saved, the BSP tree is the same, and the mesh is the same with its materials and light maps, triangulated anew. Reading ends where writing ended. Loading a damaged file returns or throws.", "quantifier": "for all worlds, meshes, BSP trees and object graphs that fit into the format, both games, the three archive formats, and all surrounding bytes", "why_tests_cant": "The raw bytes of the mesh lie inside an archive whose structure is found by counting bytes or by lines of text; a test covers one mesh and one format, not every interaction of raw bytes with the reader, and a loop that does not end at a truncated file is not seen at all with intact files.", "anchors": ["src/World.cc: World::load, World::save, determine_world_version", "include/zenkit/World.hh: World", "src/Mesh.cc: Mesh::load, Mesh::save, Mesh::triangulate", "src/BspTree.cc: BspTree::load, BspTree::save", "src/archive/ArchiveBinary.cc", "src/archive/ArchiveBinsafe.cc", "src/archive/ArchiveAscii.cc"]}
{"id": "C91", "title": "Members of script classes are bound to fields", "statement": "Registering a field for a member of a script class succeeds exactly if the script has the member, its type is that of the field, it has no more elements than the field, and its class is not bound to another C++ class. After any series of such calls, whether they failed or not, a script that reads or writes an element of a member of an object gets and changes exactly that element of the field the member was last bound to; other fields stay as they are. Reading or writing a member never touches memory outside of the object's fields.", "quantifier": "for all scripts that can be loaded, all series of registrations in any order, all objects with the fields of their class, all elements and all values", "why_tests_cant": "A test registers one class with a matching script. Whether a later call, a failed call or a second class changes what an earlier member means depends on the history of calls, of which there are unboundedly many.", "anchors": ["include/zenkit/DaedalusScript.hh: DaedalusScript::register_member, DaedalusSymbol::get_member_ptr", "src/DaedalusScript.cc: DaedalusSymbol::get_int, DaedalusSymbol::set_int, DaedalusSymbol::get_float, DaedalusSymbol::set_float, DaedalusSymbol::get_string, DaedalusSymbol::set_string"]}
{"id": "C92", "title": "The classes of the games are bound completely", "statement": "register_all_script_classes binds every member of the 21 script classes to the field of the same name, each field to one member, with the type and number of elements of the field; a script that declares its classes like the games is accepted, and reads from an object what the program has put into the field of that name.", "quantifier": "for all 710 members, all scripts that can be loaded (with any subset of the classes), and all placements of the fields by the compiler", "why_tests_cant": "Registration succeeds just as well if two fields of one type are exchanged or one is registered twice; a test would have to compare each of the 710 members.", "anchors": ["src/addon/daedalus.cc: register_all_script_classes", "include/zenkit/addon/daedalus.hh"]}
{"id": "C93", "title": "Compiled model scripts say the same as their sources", "statement": "ModelScript::load tells from the first two bytes whether a file is compiled or text. A compiled script gives exactly the skeleton, meshes, animations, aliases, blends, combinations, disabled animations and tags of its chunks, in order, each event with the animation it follows, and nothing else; chunks of other types and bytes behind the content of a chunk change nothing. The text and the compiled form of a script give the same object.", "quantifier": "for all compiled scripts (any number and order of chunks, any texts and numbers, any trailing bytes in chunks), all sources in any layout, all scripts loaded into", "why_tests_cant": "A test compares a few sample files; which chunk belongs to which animation, what is ignored behind a line and where the two forms differ depends on the sequence of chunks and on the bytes behind each text.", "anchors": ["src/ModelScript.cc: ModelScript::load, load_binary, load_source", "include/zenkit/ModelScript.hh"]}
{"id": "C94", "title": "Textures converted to DDS files show the same image", "statement": "to_dds gives a file that programs which read DDS files accept: the header has the texture's width, height and number of mipmaps and the right sizes, every mipmap is in the file, largest first, and nothing else. The file shows every pixel with the colour as_rgba8 gives, and paletted and block compressed images are declared as such.", "quantifier": "for all textures of all formats, all dimensions, all numbers of mipmaps, all pixels", "why_tests_cant": "The only check is by eye on a few images of one format; whether masks, sizes and order of levels are right depends on format, dimensions and content of each pixel.", "anchors": ["src/addon/texcvt.cc: to_dds, write_dds_header, write_dds_palette, write_dds_data", "include/zenkit/addon/texcvt.hh", "src/Texture.cc: _ztex_mipmap_size, Texture::as_rgba8"]}
{"id": "C95", "title": "The kind of stream does not matter", "statement": "A function of the library that loads from a Read gives the same object or the same exception from a stream over a FILE* and from a stream over a std::istream as from a stream over memory with the same bytes; a function that saves to a Write puts the same bytes into a FILE* and into a std::ostream as into a vector.", "quantifier": "all functions that use a stream, all contents and positions, all loop counts", "why_tests_cant": "The test-suite opens files by name only, which gives memory streams; a difference needs a particular history of short reads, seeks and questions for the end.", "anchors": ["src/Stream.cc: detail::ReadFile, detail::ReadStream, detail::WriteFile, detail::WriteStream, Read::read_line_then_ignore", "include/zenkit/Stream.hh: proto::read_chunked, proto::write_chunk, Read::from, Write::to", "src/Texture.cc: Texture::load", "src/ModelAnimation.cc: ModelAnimation::load"]}
{"id": "C96", "title": "The time of a disk survives saving and mounting", "statement": "When a Vfs is saved with a given time and the file is mounted again, the mounted files and directories have that time, so that comparisons of NEWER and OLDER mean what they say.", "quantifier": "all times, all time zones, all trees", "why_tests_cant": "Tests use one time and one time zone; leap years, the ends of months, odd seconds, years outside of the format and other time zones give different results.", "anchors": ["src/Vfs.cc: vfs_unix_to_dos_time, vfs_dos_to_unix_time, Vfs::save_internal, Vfs::mount_disk", "include/zenkit/Vfs.hh: Vfs::save"]}
{"id": "C97", "title": "Mounting a directory of the host shows its files", "statement": "After mount_host every file below the directory can be resolved below the mount point, ignoring case, and reading it gives its content; conflicts with existing nodes are decided by the overwrite policy with the times of the files, and nothing else changes.", "quantifier": "all directory trees, all names, contents and times, all mount points and policies", "why_tests_cant": "A test has one small directory tree on one platform; collisions of names, empty files, the order of visiting and the epoch of the file clock are not covered.", "anchors": ["src/Vfs.cc: Vfs::mount_host, Vfs::mount", "include/zenkit/Vfs.hh: Vfs::mount_host"]}
{"id": "C98", "title": "Cutscene libraries answer for a name with its message", "statement": "A cutscene library that is saved and loaded, in any archive format, finds for every name of a block the message with the text and the sound name it had; get_message looks through any nesting of blocks, set_message changes exactly the blocks that share the inner block, and both end for every library that was loaded.", "quantifier": "all finite graphs of blocks with sharing and nesting, all names and texts a format can store, all messages", "why_tests_cant": "Tests load one library and compare one block; sharing, nesting, references back to a block and saving a library are not covered.", "anchors": ["src/CutsceneLibrary.cc: CutsceneLibrary::load, CutsceneLibrary::save, CutsceneLibrary::block_by_name, CutsceneBlock::get_message, CutsceneBlock::set_message"]}
{"id": "C99", "title": "Damaged archives do no harm", "statement": "Opening any sequence of bytes as an archive and reading an object from it ends, with an object, with nothing, or with an exception; it never runs into undefined behaviour and never leaves the file, however deep the objects are nested and whatever their classes are.", "quantifier": "all files of less than 4 GiB, all places in them, all three formats, both games", "why_tests_cant": "The space of damaged files cannot be sampled; objects nest and refer to each other.", "anchors": ["src/Archive.cc:ReadArchive::from", "src/Archive.cc:ReadArchive::read_object", "src/archive/ArchiveBinary.cc", "src/archive/ArchiveBinsafe.cc", "src/archive/ArchiveAscii.cc", "src/vobs", "src/Material.cc", "src/CutsceneLibrary.cc"]}
{"id": "C100", "title": "Scripts that keep a few rules cannot corrupt memory", "statement": "Take a machine whose memory is in order (which it is for every script file that loads and whose numbers are all in the file and that has no variables of type function), host functions that leave it in order (which those made by register_external, the default external and the lenient exception handler do), and any code. If before every instruction that is executed the current function has not taken values of its caller off the stack, operators have a result that fits, functions with parameters are not used as variables and called functions get their arguments, then a call of a function never has undefined behaviour, unless a billion strings are on the stack at once. After the call, also after an exception, the memory of the machine is in order again, so the same holds for the next call.", "quantifier": "all tables of symbols, all code, all memories, all hosts whose functions keep the memory in order, all functions, calls of any depth and length", "why_tests_cant": "Tests run particular scripts. Safety is about every instruction sequence, every interleaving of script, host functions and exceptions, and every state of the stack, the locals saved on it and the pool of temporary strings.", "anchors": ["src/DaedalusVm.cc: unsafe_call, exec, push_call, pop_call, push_local_variables, pop_local_variables, pop_int, pop_reference, pop_string, get_free_temporary_string", "src/DaedalusScript.cc: DaedalusSymbol::get_int, DaedalusSymbol::set_int, DaedalusScript::load, add_temporary_strings_symbol", "include/zenkit/DaedalusVm.hh: register_external, pop_value_for_external", "src/DaedalusVm.cc: lenient_vm_exception_handler, register_default_external"]}
{"id": "C101", "title": "Chunks of unknown types are skipped", "statement": "A multi resolution mesh, soft skin mesh, model mesh, model, morph mesh, animation, model hierarchy, world mesh or BSP tree whose file has additional chunks of types that the format does not define, in any number and between, before or behind its own chunks, is loaded exactly as if they were not there.", "quantifier": "all files of these formats, all additional chunks, all places for them, whatever surrounds the file", "why_tests_cant": "The number, place, type, size and content of the additional chunks are arbitrary.", "anchors": ["src/Internal.hh:read_chunked", "src/MultiResolutionMesh.cc", "src/SoftSkinMesh.cc", "src/ModelMesh.cc", "src/MorphMesh.cc", "src/ModelAnimation.cc", "src/ModelHierarchy.cc", "src/Model.cc", "src/Mesh.cc", "src/world/BspTree.cc"]}
{"id": "C102", "title": "The report about a failing script", "statement": "When a script fails and no handler takes care of it, the machine prints a report that names the active functions with their addresses, every value on the stack, the global variables and the current instance as they are. Printing it changes nothing in the machine and the exception that led to it reaches the caller.", "quantifier": "for all machines, scripts, call stacks and stack contents", "why_tests_cant": "What is on the stack when a script fails depends on the script and the place where it fails; tests print reports of a few failures, not of every state.", "anchors": ["src/DaedalusVm.cc:DaedalusVm::print_stack_trace", "src/DaedalusVm.cc:DaedalusVm::exec", "src/DaedalusVm.cc:DaedalusVm::unsafe_call"]}
{"id": "C103", "title": "Damaged scripts do no harm", "statement": "Whatever the bytes of a file are, DaedalusScript::load of it returns: no exception, no undefined behaviour, no endless loop, regardless of what the script object held before. Every variable of the loaded script has as many elements as its count says. If the loaded script has any code, every number of it was in the file. The parameters of every function can be asked for.", "quantifier": "all byte sequences, all positions in them, all former contents of the script object", "why_tests_cant": "Damaged files are unbounded in kind: every cut and every changed length or property word is another path through the loader, and an element that was not initialised looks like any other number in a test.", "anchors": ["src/DaedalusScript.cc: DaedalusScript::load, DaedalusSymbol::load, find_parameters_for_function", "src/Stream.cc: ReadMemory::read, ReadMemory::seek, Read::read_line"]}
{"id": "C104", "title": "What was loaded can be saved and loaded again, whatever the file", "statement": "Whenever loading a texture, a model hierarchy, a tree of oriented bounding boxes, a font, the materials of a mesh, a BSP tree or a mesh succeeds - from an intact file, a cut one or from arbitrary bytes - saving the loaded object and loading the result gives the very same object and stops exactly where the saved data ends. No value that loading can produce is one that saving mangles.", "quantifier": "all byte sequences and positions from which loading succeeds (files below 2 GiB for hierarchies, below 1 GiB for BSP trees, below 4 GiB for fonts and meshes), all writers and all data behind the saved object", "why_tests_cant": "Round trip tests start from a few sample files made by the original tools; converters are run over whatever users have. Whether some odd file loads into an object that cannot be stored can only be excluded for all byte sequences.", "anchors": ["src/Texture.cc: Texture::load, Texture::save", "src/ModelHierarchy.cc: ModelHierarchy::load, ModelHierarchy::save", "src/Boxes.cc: OrientedBoundingBox::load, OrientedBoundingBox::save", "src/Font.cc: Font::load, Font::save", "src/Material.cc: Material::load, Material::save", "src/world/BspTree.cc: BspTree::load, BspTree::save", "src/Mesh.cc: Mesh::load, Mesh::save"]}
{"id": "C105", "title": "Disks mounted over each other can be stored as one", "statement": "Any number of disk images - of whatever bytes - are mounted into an empty file system, in any order and with any overwrite policies, even if some of the mounts fail half way. If every file of the result can be read, no directory is empty, every name has a visible character and the whole is below 4 GiB, then saving it never fails, and mounting the saved disk into an empty file system gives exactly the same names and contents. In particular no name that comes from a disk is cut or changed by saving.", "quantifier": "all sequences of disk images (arbitrary bytes), policies and conversions of time; ordinary and compressed output", "why_tests_cant": "Tools merge patches of several disks into one. Tests do this with a few disks whose entries are tidy; which trees mounting can produce from arbitrary catalogs (repeated, overlapping, blank or padded entries) is a statement about all images and all mount sequences.", "anchors": ["src/Vfs.cc: Vfs::mount_disk, Vfs::save, Vfs::save_compressed, Vfs::save_internal"]}
{"id": "C106", "title": "Externals without implementation leave the stack balanced", "statement": "After register_default_external, a script that calls an external nobody registered goes on behind the call as if the function had run: exactly the arguments of the call are taken off the stack - whatever was below for unfinished expressions is still there -, a result is pushed if and only if the function declares one (zero, the empty text or no instance), and no variable, no instance, no active call and not the current instance changes. Temporary texts passed as arguments are released.", "quantifier": "all machines, all externals with any number of parameters, all argument values and stack contents below them", "why_tests_cant": "The combinations of parameter types, of ways an argument can have been pushed and of what is below on the stack are unbounded; a value left over or taken too much shows only later, in an expression around the call.", "anchors": ["include/zenkit/DaedalusVm.hh: DaedalusVm::register_default_external", "src/DaedalusVm.cc: DaedalusVm::register_default_external, DaedalusVm::exec (BE), DaedalusVm::pop_reference"]}
{"id": "C107", "title": "With the lenient handler a failed instruction costs a value, not the script", "statement": "With lenient_vm_exception_handler registered, a script goes on with the next instruction after one that failed, and the stack looks as if the instruction had worked: an assignment to a constant, or of something that cannot be read, takes its two operands and changes nothing; an operator whose operands cannot be read leaves the number zero in their place; a condition that cannot be read is taken off and counts as met. No variable, no instance and no active call changes.", "quantifier": "all machines, all stack contents, all operators, all reasons for which a value cannot be read as a number", "why_tests_cant": "Which instruction fails for which reason with what below on the stack is unbounded, and a stack that is off by one value shows only in later expressions.", "anchors": ["include/zenkit/DaedalusVm.hh: lenient_vm_exception_handler, DaedalusVm::register_exception_handler", "src/DaedalusVm.cc: lenient_vm_exception_handler, DaedalusVm::exec"]}
{"id": "C108", "title": "Loading into an object that was used before", "statement": "What `load` makes of a file does not depend on what the object held before: loading into a used Texture, ModelHierarchy, ModelAnimation, MultiResolutionMesh or SoftSkinMesh fails exactly as loading into a new one does, or leaves it as the new one. Where a file lacks a chunk, the members that this chunk holds are exactly those from before, and nothing else is.", "quantifier": "all files of less than 4 GiB made of chunks with any payloads (textures: any bytes), all previous contents of the object", "why_tests_cant": "Tests load every file into a new object; the previous content and the payloads range over unbounded domains, and what remains only shows for particular pairs of files.", "anchors": ["src/Texture.cc:Texture::load", "src/Texture.cc:Texture::data", "src/ModelHierarchy.cc:ModelHierarchy::load", "src/ModelAnimation.cc:ModelAnimation::load", "src/MultiResolutionMesh.cc:MultiResolutionMesh::load", "src/MultiResolutionMesh.cc:MultiResolutionMesh::load_from_section", "src/SoftSkinMesh.cc:SoftSkinMesh::load", "include/zenkit/Stream.hh:read_chunked"]}
{"id": "C109", "title": "Access traps guard the variables they are set on", "statement": "With an access trap registered, wherever a script names a symbol whose trap is enabled the host's function is called with that symbol instead, and what the function pushes is all the script gets; symbols without the flag are pushed as usual. Scripts by themselves can therefore neither change a trapped variable nor find out its value, and no reference to it gets on the stack. Enabling or disabling the trap (or the saving of locals) of a symbol changes that one flag and nothing else.", "quantifier": "for all scripts, functions called, machine states, values of the variable, hosts whose functions do not touch the variable themselves, and all ways the call may end", "why_tests_cant": "A test runs one script against one trap; that no sequence of instructions, nested call, exception or external reaches the variable another way is a statement about all executions, and that its value does not matter compares executions pairwise.", "anchors": ["src/DaedalusVm.cc: DaedalusVm::exec (PUSHV, PUSHVI, PUSHVV, GMOVI), DaedalusVm::register_access_trap", "src/DaedalusScript.cc: DaedalusSymbol::set_access_trap_enable, DaedalusSymbol::set_local_variables_enable", "include/zenkit/DaedalusScript.hh: DaedalusSymbol::has_access_trap, DaedalusSymbolFlag"]}
{"id": "C110", "title": "Mapped files and the memory behind mounted files", "statement": "A file that is mapped into memory shows its bytes for as long as the object that maps it, or one it was moved to, exists; it is unmapped exactly once and no file descriptor stays open, whatever the order of constructing, moving, reading and destroying. A reader made from a path reads the bytes of the file. Addresses of mapped files stay valid while a file system maps more files. Whatever is done to a file system, every file in it lies in memory that the file system keeps until its end or that the caller handed over, also when mounts fail. A path that cannot be mapped is reported by an exception.", "quantifier": "all histories of mapping, moving, reading and destroying; all histories of mkdir, create, remove, mount of nodes, mount_disk of memory, readers and paths (any bytes, any policy, failing or not) and mount_host", "why_tests_cant": "Dangling addresses usually still read the old bytes, leaked mappings and descriptors are not noticed, and the order in which objects are moved and destroyed depends on when a vector grows.", "anchors": ["src/MmapPosix.cc: Mmap::Mmap, Mmap::~Mmap", "include/zenkit/Mmap.hh: Mmap", "src/Stream.cc: ReadMmap, Read::from", "src/Vfs.cc: Vfs::mount_disk, Vfs::mount_host", "include/zenkit/Vfs.hh: Vfs::_m_data, Vfs::_m_data_mapped"]}
{"id": "C111", "title": "Calls of script functions end", "statement": "A call of a function of a compiled script ends, with a result or an exception, if the code only ever goes forward within a function and functions only call functions below them; the number of instructions of each activation is at most the size of the code. How long the caller is willing to wait does not change what the call does.", "quantifier": "for all scripts of that form, functions, arguments, types of results, values of variables, contents of the stack, and hosts whose own functions come back", "why_tests_cant": "Which branches are taken depends on the values of all variables and on what host functions return; a test runs a few of the paths, and no test distinguishes a call that never ends from a slow one.", "anchors": ["src/DaedalusVm.cc: DaedalusVm::unsafe_call, DaedalusVm::exec, DaedalusVm::jump, DaedalusVm::pop_call", "include/zenkit/DaedalusVm.hh: DaedalusVm::call_function"]}
{"id": "C112", "title": "Mounting a disk ends", "statement": "Mounting a disk archive ends, with success or an exception, if its catalog lies within the image and directories come before their entries. How long the caller is willing to wait does not change what is mounted.", "quantifier": "for all images of that form, contents of the Vfs before, and policies for names that exist already", "why_tests_cant": "Directories refer to their entries by arbitrary numbers, so the way through the catalog is decided by the bytes of the image; tests mount a few well formed archives.", "anchors": ["src/Vfs.cc: Vfs::mount_disk, load_entry", "include/zenkit/Vfs.hh: VfsOverwriteBehavior"]}
{"id": "C113", "title": "What is seen of a file system determines its archive", "statement": "Two file systems that show the same at every path are saved as the same archive, byte for byte: neither the order in which files were added, nor their times, nor the memory or archive they come from, nor whether they were compressed there has an influence. In particular saving, mounting the archive in an empty file system and saving again gives the same archive, of either kind.", "quantifier": "for all pairs of file systems with readable files and names without whitespace at the end, both kinds of archives and both signatures; for saving again: contents that an archive can hold (C26, C63)", "why_tests_cant": "It compares all pairs of histories that lead to the same contents; tests save one file system made in one way.", "anchors": ["src/Vfs.cc: Vfs::save, Vfs::mount_disk, VfsNode::create, VfsNode::open_read", "include/zenkit/Vfs.hh: VfsNode, VfsNodeComparator"]}
{"id": "C114", "title": "Looking at a script does not disturb it", "statement": "A host may ask a machine for the instruction at any address and for the size of its code, between calls and inside of the functions it registered: asking raises nothing, the instruction is the one encoded at the address, and calls of script functions have the same outcomes and the same effects as if it had not asked.", "quantifier": "for all scripts, machine states, addresses, hosts, functions and arguments; between calls without further conditions; inside of registered functions: for scripts control does not run off the end of and without exception handlers", "why_tests_cant": "Looking moves the very reader the interpreter uses, so every point of every execution at which a host function runs has to be considered; tests look at code that is not running.", "anchors": ["src/DaedalusScript.cc: DaedalusScript::instruction_at, DaedalusScript::size", "src/DaedalusVm.cc: DaedalusVm::exec, DaedalusVm::unsafe_call"]}
{"id": "C115", "title": "Resources are loaded from the middle of a stream as from its start", "statement": "A resource that is stored behind other bytes of the same stream - as meshes in worlds, soft skins in model meshes and materials in meshes are - is loaded like one that starts the stream: the same values or the same failure, and the stream stops at the same place of the resource. What is in front of it does not matter.", "quantifier": "for all bytes in front, all streams and positions, intact or damaged, and all objects that are loaded into; for textures, fonts, hierarchies, animations, trees, compiled model scripts and compiled Daedalus scripts without further conditions; for meshes and ASCII or BINARY archives in files below 4 GiB without BINSAFE archives; for the formats with multi resolution meshes if all of it is below 4 GiB", "why_tests_cant": "Loaders seek back, seek to offsets they have read and keep ends of chunks and objects, and tests open a file per resource, where positions and offsets coincide; a wrong base shows only for particular content and particular places.", "anchors": ["include/zenkit/Stream.hh: Read::seek, Read::tell, read_chunked", "src/MultiResolutionMesh.cc: MultiResolutionMesh::load_from_section", "src/archive/ArchiveBinary.cc: ReadArchiveBinary::read_object_begin, ReadArchiveBinary::skip_object", "src/archive/ArchiveBinsafe.cc: ReadArchiveBinsafe::read_header", "src/ModelScript.cc: ModelScript::load", "src/DaedalusScript.cc: DaedalusSymbol::load"]}
{"id": "C116", "title": "The choices of a dialogue are the ones added and not removed, newest first", "statement": "After any sequence of calls that add and remove choices, a dialogue holds choices that were added (or were there before) in the order of their age, newest first, as many as were added minus removed. Removing an index takes away the choice at that place and no other; removing the first after adding one undoes the addition. An index that is not below the number of choices is undefined behaviour, and no other call is.", "quantifier": "for all histories of calls, all choices, all 64 bit indices and all dialogues with less than 2^63 choices", "why_tests_cant": "Indices shift with every call, so the claim is about all interleavings of additions and removals.", "anchors": ["src/addon/daedalus.cc: IInfo::add_choice, IInfo::remove_choice", "include/zenkit/addon/daedalus.hh: IInfo, IInfoChoice"]}
{"id": "C117", "title": "The order of the chunks of a file does not matter", "statement": "A model hierarchy, world mesh, BSP tree, animation, morph mesh or soft skin mesh whose file has its chunks in another order in front of the end marker, also mixed with chunks of types that the format does not define, is loaded as the same object.", "quantifier": "all saved objects or well formed files of these formats, all orders of their chunks, all additional chunks, all objects to load into, whatever surrounds the file", "why_tests_cant": "The orders are too many to try, and whether two chunks depend on each other shows only for certain contents.", "anchors": ["src/Internal.hh:read_chunked", "src/ModelHierarchy.cc:ModelHierarchy::load", "src/Mesh.cc:Mesh::load", "src/world/BspTree.cc:BspTree::load", "src/ModelAnimation.cc:ModelAnimation::load", "src/MorphMesh.cc:MorphMesh::load", "src/SoftSkinMesh.cc:SoftSkinMesh::load"]}
{"id": "C118", "title": "Components are reached by their index", "statement": "For vectors, colors and quaternions, v[i] reads and writes the i-th component and no other; m[i][j] is row j of column i of a matrix, pointer() shows the columns one after the other, transpose() exchanges i and j, and identity() has ones exactly where i equals j.", "quantifier": "all values of all components, all indices", "why_tests_cant": "All values and indices, including those out of bounds, where a test sees whatever memory happens to hold.", "anchors": ["include/zenkit/Misc.hh:Vec2", "include/zenkit/Misc.hh:Vec3", "include/zenkit/Misc.hh:Vec4", "include/zenkit/Misc.hh:Color", "include/zenkit/Misc.hh:Quat", "include/zenkit/Misc.hh:Mat3", "include/zenkit/Misc.hh:Mat4"]}
{"id": "C119", "title": "Textures, fonts and boxes that end early are read as if filled up with zero bytes", "statement": "Loading a texture, a font or an oriented bounding box, and reading a line, from a memory stream that ends early gives exactly what it gives on the same bytes followed by any number of zero bytes: the same object or the same exception. How much is missing therefore cannot be told, and trailing zero bytes never matter. Files made of chunks behave differently: a chunk to be skipped that is not all there is not skipped, and its content is read as chunks.", "quantifier": "all byte sequences, all positions in them, all numbers of zero bytes", "why_tests_cant": "Every truncation of every file, including those inside the blanks behind a line and inside nested boxes, against every amount of padding.", "anchors": ["src/Stream.cc:read_any", "src/Stream.cc:Read::read_line_then_ignore", "src/Texture.cc:Texture::load", "src/Font.cc:Font::load", "src/Boxes.cc:OrientedBoundingBox::load", "include/zenkit/Stream.hh:proto::read_chunked"]}
{"id": "C120", "title": "Vectors, quaternions and matrices are compared as numbers", "statement": "v == w holds for vectors, quaternions and matrices exactly if each component of v stands for the same number as that of w; for colors exactly if all components are equal. The comparison is symmetric and transitive, and v == v holds exactly if no component is NaN. Equal values may be saved as different bytes (zeros of different sign).", "quantifier": "all bit patterns of all components, including NaN, infinities, denormal numbers and both zeros", "why_tests_cant": "2^32 patterns for each of up to 16 components.", "anchors": ["include/zenkit/Misc.hh:Vec2::operator==", "include/zenkit/Misc.hh:Vec3::operator==", "include/zenkit/Misc.hh:Vec4::operator==", "include/zenkit/Misc.hh:Color::operator==", "include/zenkit/Misc.hh:Quat::operator==", "include/zenkit/Misc.hh:Mat3::operator==", "include/zenkit/Misc.hh:Mat4::operator=="]}
{"id": "C121", "title": "Products of colors wrap around", "statement": "The product of two colors, or of a color and a factor, has as components the products of the components modulo 256; it is exact if none of these exceeds 255. The product is commutative and associative, and a factor is the same as a grey color. The neutral color is (1, 1, 1, 1): multiplying by white, (255, 255, 255, 255), negates every component modulo 256.", "quantifier": "all colors and factors", "why_tests_cant": "2^64 pairs of colors.", "anchors": ["include/zenkit/Misc.hh:Color::operator*"]}
{"id": "C122", "title": "Animation flags are the letters a script gives", "statement": "An animation of a model script has a flag exactly if the letter of that flag (M move, R rotate, E queue, F fly, I idle, P in place) occurs in the flags it is given; order, repetition and other characters do not matter, no other bit is ever set, and combining the flags of two texts gives those of the texts one after the other. Testing flags with & is true exactly if the operands have a flag in common, and | has the flags of both.", "quantifier": "all flag texts, all flags, all pairs of flag sets", "why_tests_cant": "There are infinitely many texts, and the fixtures use a handful of combinations in one order.", "anchors": ["src/ModelScript.cc: mds::animation_flags_from_string, operator&(AnimationFlags, AnimationFlags), operator|, operator|=", "include/zenkit/ModelScript.hh: AnimationFlags"]}
