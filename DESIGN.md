# Formal model of ZenKit in Lean 4 — design

This directory holds a hand-written Lean 4 model of parts of the C++ library in
`/repo` (GothicKit/ZenKit) and machine-checked proofs of the properties listed in
`properties.jsonl`. `MANIFEST.json` maps every property to the theorems that settle it.

## Trusted base

* Lean 4.33.0's kernel. No compiled evaluation (`native_decide`, `bv_decide`) is used.
* Axioms: every theorem depends on at most `propext`, `Classical.choice` and
  `Quot.sound`; `AXIOMS.md` lists for each theorem which of them. The project declares no axioms; there is no `sorry`.
* The fidelity of the model. The C++ was read as text and transcribed function by
  function; each definition cites the file and the lines it follows. The translation
  is not verified. Simplifications are listed in the comment of each definition and
  summarised below.
* C++ language rules that the model bakes in: unsigned arithmetic wraps, `char` is
  8 bits, integers are little endian in files, signed overflow / out-of-range shift /
  out-of-bounds indexing are undefined behaviour (a distinct outcome `ub`), an
  exception leaving a `noexcept` function terminates (a distinct outcome `terminate`).

## Layout

```
lean/Verif/Base/      bytes, results, little-endian coding, list lemmas
lean/Verif/Model/     the model: one file per C++ source area (definitions only)
lean/Verif/Lemmas/    helper lemmas
lean/Verif/Spec/      small independent specifications
lean/Verif/Props/     the property theorems (one file per area), with examples
```

## Modelling conventions

* A byte is `UInt8`, machine words are `BitVec w` or the fixed width `UIntN`; a
  `float` is its 32-bit pattern and is never computed with, unless stated.
* A read stream is the byte content plus a position (`Verif.Model.Stream`), a write
  stream likewise. Loaders are modelled on memory based streams; streams over `FILE*` and
  `std::istream` are modelled apart, as other machines for the same programs (C95). Memory mapping is not modelled.
* A reading function is a state-passing function with outcomes
  `ok value state | throw error | ub | terminate | hang`. Loops that the C++ does not
  bound are written with fuel; a property "terminates" states that some fuel
  suffices, "hangs" that no amount of fuel does.
* When the code does not satisfy a property, the theorem named `..._violation` proves the negation with
  a concrete witness and the strongest true variant carries the suffix `_partial`.

## Plan per property

| id | modelled | how |
|----|----------|-----|
| C01 | `Read::read_*`/`Write::write_*`, Date, AABB | `Reads` predicate over arbitrary context, one theorem per type |
| C02 | `ReadMemory` | refinement of an abstract cursor; induction over operation history |
| C03 | `read_any`, `read_string` at the end of the stream | closed form of the short read |
| C04 | `WriteDynamic` | refinement to "last write wins" over the history |
| C05 | `WriteStatic` | invariant over history: length constant, untouched bytes equal |
| C06 | `read_line`, `write_line` | round trip with iff condition |
| C07 | `read_chunked`, `write_chunk` | induction over the chunk list, handler is an arbitrary function |
| C08 | `read_chunked` | well-founded measure: remaining bytes |
| C09 | `ReadZipped`, decompressor is a parameter | simulation against `ReadMemory` of the content |
| C10 | `ArchiveBinary` entries | induction over entry list, plus witness for the excluded values |
| C11 | `ArchiveBinsafe` entries | induction over entry list |
| C12 | `ensure_entry_meta` | case analysis over type pairs |
| C13 | key table of `WriteArchiveBinsafe` | invariant over histories, header round trip |
| C14 | `skip_object`, Binsafe `skip_entry` | measure; balanced object grammar |
| C15 | `write_int`/`read_int` ASCII | negation witness, `_partial` for values above -10^9 |
| C16 | `write_raw`/`read_raw` ASCII | negation witness, exact characterisation |
| C17 | ASCII entries | negation for byte/word/mat3x3, `_partial` for the rest |
| C18 | both tables, the switch of `read_object` and the class hierarchy, transcribed (`Model/ArchiveClasses.lean`) | kernel evaluation over the whole enumeration; arbitrary class names by membership in the table |
| C19 | `read_object`/`write_object` with their caches over heaps; the save and load functions of classes are a parameter: a list of values and pointers, and a schema that reads the same kinds | writer and reader number objects in lock-step; the map "place in the order of writing" is shown to be a graph isomorphism by induction on the traversal; false for reused addresses (`c19_address_reuse_violation`) and nameless types |
| C20 | `icompare`, `iequals` | order laws proved over all byte strings |
| C21 | `VfsNode` tree and all mutators | invariant over operation histories |
| C22 | `child`/`create`/`remove` | map laws; trailing whitespace names are the documented violation |
| C23 | `resolve` | negation (path through a file terminates), `_partial` |
| C24 | `mkdir` | induction over path components |
| C25 | `mount` | refinement to a recursive merge specification |
| C26 | `save_internal`, `mount_disk` | catalog layout induction |
| C27 | as C26 | negation with witness, `_partial` via C26 |
| C28 | entry bound check of `mount_disk` | negation with 32-bit wrap witness, `_partial` without wrap |
| C29 | signature check | case analysis |
| C30 | `DaedalusInstruction::decode` | table + round trip |
| C31 | VM stack operations | invariant over histories, refinement to a bounded list |
| C32 | `exec` arithmetic opcodes | per opcode theorem against Int operators; UB is an outcome |
| C33 | `push_call`/`pop_call`/`unsafe_call` | frame: every callee; stack: negations, `_partial` for code with consistent stack heights, also of functions that save their locals (`call_effect_locals`) |
| C34 | `exec` BE + handler | negation with a concrete program, `_partial`: every other instruction keeps the call stack |
| C35 | `push_local_variables`/`pop_local_variables` as lists of items saved to and restored from the stack | `c35_locals_partial`: round trip for all locals, any body that respects the frames below; false for parameters: `c35_parameters_violation` |
| C36 | temporary string slots | negation (index truncation), `_partial` below 243 live strings |
| C37 | `DaedalusSymbol` accessors | get/set laws, negation for member floats at index >= 256 |
| C38 | VM setters | case analysis over all write paths |
| C39 | `register_as_opaque` | induction over the member list |
| C40 | `Texture::save`/`load` | round trip `c40_round_trip_partial` against `LevelBytes` (own table of layouts); `c40_foreign`; the conditions are necessary (`c40_empty_violation`, `c40_reuse_violation`, `c40_blocks_violation`) |
| C41 | `_ztex_to_rgba`/`_ztex_from_rgba`, `TextureBuilder` | loop lemma over pixel blocks, `c41_partial`, `c41_opaque_partial`; negations for A8R8G8B8, B8G8R8A8, R5G6B5, DXT |
| C42 | `TextureBuilder` | `c42_order` (reversed), `c42_violation`, `c42_single_partial` |
| C43 | `BspTree::save/load`, `_parse_bsp_nodes` | tree induction `c43_round_trip` against `BTree.nodesAt`; `c43_empty_violation`, `c43_reuse_violation` |
| C44 | the vector of nodes with capacity and generation of references | `c44_partial` (refinement: loader = list form of the tree of the file), `c44_violation` for all files of the described form |
| C45 | `Mesh::triangulate` with `std::binary_search` (`lowerBound`) | binary search = membership for sorted lists; fan loop by induction; exact result `c45_partial`; two negations |
| C46 | flag packing in `Mesh::load/save` | all 2^11 combinations of the packed fields by kernel evaluation, the sector index generically: `c46_kept`; negation for bit 1 of Gothic 1 `normal_axis` |
| C47 | `WayNet::save`/`load` over the object graph model with `use_count` counted over cache, heap, net and local variables (Model/WayNet) | the direct-style loader is tied to the graph round trip by `readAs` and the growth invariant; induction over edges; negations for a self loop first edge and for null ends |
| C48 | `save_vob_tree`, `parse_vob_tree` with its `skip` over the generic reader of all three formats; children as pushes | Saving: the calls of `save` are the fields of an object graph (C19), loading follows them by induction over the tree. Dropping: an abstract reader of documents (`docReader`) that all three formats refine; induction over the stored tree shows that pruning lost objects does not change what is loaded. `_partial` for BINSAFE because of C14; violations for shared and null children |
| C49 | `OrientedBoundingBox::load/save` (`src/Boxes.cc`) | tree induction `c49_round_trip`; `c49_load_terminates` for every stream; `c49_many_children_violation` shows the bound is needed |
| C50 | `Font::load/save`, `ModelHierarchy::load/save` | `c50_hierarchy`, `c50_font_partial`; negations for empty names and leading whitespace |
| C51 | `lowerBoundBy`, `blockByName`, `sortBlocks` (`Model/Cutscene.lean`); null blocks are undefined behaviour | invariant of the binary search by induction; exact result for absent names; negations `c51_violation`, `c51_unsorted_violation`, `c51_null_violation`; `c51_partial`, `c51_loaded_partial` |
| C52 | `MultiResolutionMesh::save/load`, `SoftSkinMesh::save/load` (`Model/Mrm.lean`, `Model/SoftSkin.lean`) | negation for every mesh: description of the saved bytes, inversion of the loader on them; positive part: the saved bytes are those of a well-formed file with a few sizes and one type wrong, and that file is loaded as the mesh |
| C53 | tokenizer (`next`, `next_line`, `backtrack`, `ignore_block`) over the stream | list lexer as spec; for texts of whole lines the tokens are those of the spec and end; hangs for all other endings proved |
| C54 | `SaveGame::save/load/load_world`, directories as maps from names to bytes, ASCII archives, texture; the archive of the world is an opaque byte string | composition of the archive, object and texture round trips; case-insensitive lookup proved to find the written file; violations for all games |
| C55 | the file system steps of `SaveGame::save` with the states a stopped process may leave | invariant over the steps for everything outside of the target; violations by the state after the first step |
| C56 | `OrientedBoundingBox::as_bbox`, over any linear order with the arithmetic as parameters | `c56_min`, `c56_max_partial`, `c56_violation` against the set of corners |
| C57 | `Logger::set/log` over histories | `c57_calls` against the last `set` of each prefix |
| C58 | `ReadZipped` after a failed read | which bytes can be read of a file with damaged blocks (`Spec/ZippedDamage`); refinement of the reader to it by induction over histories that do not return to the block read before a failure; reads without seeks are such. Negation witnesses for the others: wrong bytes, and copying from behind the cache |
| C59 | `write_header`/`read_header`, `ReadArchive::from` | `_partial` round trip of whole files, negation witnesses; BINARY and ASCII |
| C60 | ASCII `skip_object` | exact skipping by induction over the document; negation: no number of rounds suffices at the end of the file |
| C61 | `Vfs::remove` | effect on every path, via the resolve-and-change lemma |
| C62 | `Vfs::find` | invariant of the stack of directories, fuel bounded by the node count |
| C63 | as C26 with `vfs_write_zipped`, `open_read` | as C26, contents through C09; negations for empty files |
| C64 | `exec` operators, `get_int` | negation: exact set of operands that are undefined, concrete scripts; `_partial` for the others |
| C65 | the shift of the arguments in `push_local_variables` | `c65_arguments_partial` when the areas do not overlap; false otherwise: `c65_arguments_violation` |
| C71 | `Texture::as_rgba8` | per-format theorems over all pixel lists against `Px.bytes`/`Px4`/`Px565`; three negations |
| C72 | `leaf_polygons` loop of `BspTree::load` | `c72_partial`, `c72_violation` |
| C73 | `Mesh::load/save` without materials and light maps | chunk file round trip `mesh_round_trip`, `c73_g1_partial`, `c73_g2_partial`; negations for Gothic 2 corners, 16-bit indices, reuse of objects |
| C75 | textual model scripts: every parser function, look-ahead and giving back included, over the tokenizer model | source tree as spec with tokens and meaning, keywords in any letter case; parser combinator logic `Parses` over the tokens left; any text whose tokens are those of the source gives what the source says; violations for braces, letter case after blends, trailing spaces in frames, parentheses |
| C74 | reference count of file descriptors, readers of their memory | states with buffers and counters; invariant by induction over histories relates counters to the variables that refer to a buffer; violations for assignment (no operator is declared) and for readers that outlive the file |
| C66 | resolution of function values (`pop_value_for_external`), the loops over parents in `allocate_instance` and `init_opaque_instance` | meaning of a number as an inductive relation `Denotes`, classes as `ClassOf`; the loops compute them for every chain; negations for cycles, variables without a value and instances without a class |
| C69 | `call_function`, `init_instance` as functions over the machine of C33 | `c69_call` for every compiled script from `Kp`/`Eff` of C33; arguments by induction with the text slots of C36; negations for refused arguments, exceptions, `DaedalusFunction` results and ignored texts |
| C70 | `allocate_instance`, `init_opaque_instance` with the storage of opaque instances | decision by registered class; negations for unregistered classes (null dereference) and opaque instances of unregistered classes (write outside of the storage) |
| C77 | `register_external` and the function it stores; template arguments are values | decision logic of the registration; arguments by induction over the signature; one `BE` instruction as a whole; negations for views of texts, function results and instances without a class |
| C76 | `load` and `save` of all classes except for `WayNet`, `World`; `load` is a program whose steps are calls of the archive, generic in the type of pointers | each program reads what the calls of `save` wrote (composition of programs); with C19, for graphs in the three formats; negations for the members that are lost and the objects that cannot be read |
| C67 | the maps filled by `DaedalusScript::load`, the three lookups | invariant of the loop: a map knows the last symbol with a key; for any bytes that load; negations for lower case names and a second load |
| C68 | `DaedalusScript::load`, `DaedalusSymbol::load` with the state of the object before | encoder of files as spec, `Reads` for every part, accessors against the entry; heuristic by induction over the left over bytes; negations for suspicious parents and function variables |
| C78 | `enumerate_instances_by_class_name` | loop invariant over the part of the table seen; derivation through prototypes as inductive spec; negations for deep and late prototypes |
| C80 | `find_parameters_for_function`, `find_locals_for_function` | induction over the table; negations for functions at its end |
| C81 | `MultiResolutionMesh::load` | the loader on any well formed file (`Spec/Meshes.lean`), layout of the content arbitrary |
| C82 | `SoftSkinMesh::load` | the loader on any well formed file |
| C83 | `ModelMesh::load/save`, `Model::load` | the loader on any well formed file; negation for every saved mesh without attachments |
| C84 | `MorphMesh::load` | the loader on any well formed file; negation for used objects |
| C85 | `ModelAnimation::load`, arithmetic of samples as a parameter | the loader on any well formed file; negation for empty strings |
| C86 | the loaders of meshes, textures, animations, hierarchies and fonts; the archive of the materials | induction over the chunks: every handler ends and does not go back; materials by the readers of C99; compiled model scripts: an invariant (the current animation exists) from the first animation on (`Lemmas/MdsDamage`) |
| C79 | `LightPreset`, `VLight`, `Material`; `std::istringstream` extractions of `char`, `uint32_t` and `float`; `%.9g` and `operator<<(float)` as exact decimal arithmetic (`Base/FloatG`) | nine digits determine every finite float (distance argument on exact rationals), at most six digits survive six; induction over the lists in the text; composition with C10, C11, C17 for the formats; negations for what is lost |
| C87 | Model/Materials: the archive of materials inside meshes, for all three formats when loading | the document of the materials is written and read (simulation of the reader, as in C19); violation for ten materials for all of them |
| C88 | Whole meshes: geometry of C73 with materials (C87) and light maps, whose images are shared pointers (indices into a list of images); saving takes the order of `std::unordered_map` as a parameter | Round trip for every order of the images (chunk by chunk); files of either kind of light maps; negations for null images, numbers out of range and loading twice |
| C89 | Worlds of saved games (`World.cc`): sections of an archive, trees of virtual objects (C48), pointers (C19), the tail with NPCs and spawn locations; the fields of the classes are a parameter as in C19 | Round trip over documents with sections for each format (Gothic 1: complete; Gothic 2: BINARY with flags 0 or 1); negations for Gothic 2: the flags are written as `bool` and read as `int`, so that every such world in a BINSAFE or ASCII archive cannot be loaded. Not covered yet: the mesh of worlds that are not saved games |
| C90 | `Model/World` (`Level.save`, `Level.load`, `savePlain`, `scanMesh`, `determineVersion`), `Spec/Level` | Raw bytes inside an archive: `RawFirst` says what a reader needs to step over them; shown for each format from the bytes written. The section itself by C43, C87 and C88. Partial: see there; loading a truncated mesh never returns. |
| C91 | `register_member`, `get_member_ptr` (Model/DaedalusMember); fields by address, type and number of elements | refinement: the table after any series of calls is that of an abstract binding of classes and members; then reads and writes of C37 at the bound fields; negations for failed calls, members of members, and second bases |
| C92 | the 21 functions of `src/addon/daedalus.cc` and the fields of `include/zenkit/addon/daedalus.hh` as a table, with the placement of the fields as a parameter | the table is checked as a whole (`decide` over a finite table); what is bound afterwards by induction over the calls: a call that succeeds never takes a member from its class (any script, also with members that belong to members) |
| C93 | `ModelScript::load` and `load_binary` with every chunk type over the stream model; chunks as an inductive type with their bytes and their meaning, and the compilation of a source (C75) into chunks | each handler on its bytes whatever follows; induction over the chunks with the invariant that the index is that of the last animation; the meaning of the compiled source equals that of the source by induction |
| C94 | `to_dds` with header, palette and levels (Model/Dds); an independent strict reader of DDS files after the description of the format (Spec/Dds), with the colours of pixels by masks | the words of the header at their places in the file; sizes from C40; channels by arithmetic on the masks for all pixels; the table of formats as a whole; negations for the order of channels, palettes and partial blocks |
| C95 | functions as programs of calls of read, seek, tell and eof; memory, `FILE*` and `std::istream` as machines that run them, `std::vector`, `FILE*` and `std::ostream` for writers (Model/StreamIo) | simulation of machines by induction over programs; the loaders of textures and animations as programs, equal to the other models on memory; lines with the end of file bit; negation for loaders of chunks by induction over rounds, with termination of each round |
| C96 | the Gregorian calendar with `gmtime` and `mktime` for a fixed offset of local time, both conversions, the time written and read (Model/VfsTime) | the calendar against closed formulas; the fields of the 32-bit number; an invariant of mounting: all nodes have the time of the disk. False: local time is read where UTC is written, odd seconds are lost, other years wrap around |
| C97 | `mount_host` on trees of host files, in any order of visiting (Model/VfsHost) | induction over the tree: what is found at every path; composition of mounts; False: empty files are left out, names that differ in case collide, times are counted from another epoch, a single file can not be mounted |
| C98 | `CutsceneLibrary` as a class of C76, `Model/CutsceneMessage`: `get_message`, `set_message`, the sort at the end of `load`, `block_by_name` over the memory that was loaded | nesting as an inductive relation; the memory after loading is a copy (C76), so that nesting, names and messages carry over; lookup by C51; negations for cycles, null blocks, reuse |
| C99 | `Model/ObjRead`: `read_object` with the `load` functions of all classes, `ReadArchive::from`; the three readers | a program of calls is mild if it returns or throws whatever it reads (every class by going through its calls); a reader is tame if every call ends and moves on; induction over the depth of objects, which the length of the file bounds; the names of classes that are not mild are parts of the file (whole table by `decide`) |
| C100 | calls of script functions as in C30–C32 and C64 with all 42 instructions, saved locals, temporary strings, exceptions and host functions; the loaded machine (`Script.machine`) | invariant (`Good`: symbols hold their elements, instances their members, everything below the stack pointer is written, references are to symbols with values) kept by every operation, by induction over the fuel and the loop; host functions by the same relation; loaded files by inversion of the loader. C64 shows that each rule is needed |
| C101 | `read_chunked` and the chunk handlers of multi resolution, soft skin, model, morph and world meshes, hierarchies, models, BSP trees and animations | files as lists of chunks, `Extended` relates a list to one with more chunks; handlers skip unknown types; induction over the relation |
| C102 | `print_stack_trace` with the catch clauses of `exec` (`Model/DaedalusReport`), on top of the machine of C30 and C100 | a report is a list of lines; what each line must say is stated without the printing functions; induction over the stack and the call stack; the machine with reports simulates the one without, by induction over the fuel. False for functions without parameters, function variables without a function and members on the stack |
| C103 | `DaedalusScript::load` as in C68 (Model/DaedalusLoad), on any bytes and any former state | `Rest` logic: every reader returns, stays at the end once there, and above the end has its property; the search for the parent of a constant string is shown not to leave the end. Negations with literal files |
| C104 | Loaders and savers of textures, hierarchies, boxes and fonts (`Model/Texture`, `ModelHierarchy`, `Boxes`, `Font`) | What a loader returns meets the side conditions of the round trip theorems (C40, C49, C50): sizes from the loops that filled the lists, names without line ends, lengths bounded by the file (`Lemmas/Reload`, `EatsAt`). Fonts partial: a name that begins with a blank can be loaded and is lost. Materials: what every call of a program gives determines what the program gives (`Ld.Post`): lines without ends, bytes for enumerations, finite numbers from texts (`Lemmas/ReloadMaterials`) BSP trees: if the loader got through, the nodes are the list form of the tree in the file, whatever the capacity of the vector (`parse_shape`), with few nodes (`readTree_facts`); meshes: offsets add up and corners are there (`Lemmas/ReloadBsp`, `ReloadMesh`). False of inner nodes without children, of files without a tree, and of all meshes that are saved for Gothic 2 |
| C105 | `Vfs::mount_disk` and `Vfs::save_internal` (`Model/VfsDisk`) | Induction over the mounts (`Merged`) and over the entries of a disk: the tree stays ordered and every name is one a catalog can hold (`Lemmas/VfsCopy`), so the round trip theorems C26 and C63 apply. Empty directories: violation by example |
| C106 | `register_default_external` (`defaultPop`, `defaultExternal` in `Model/DaedalusVm`), `BE` | Induction over the parameters from the last to the first (`Drops` says which values fit): each is taken, temporary texts are released (`TmpOk`); then the lemma of C77 about pushing results. Violations: functions stay on the stack (for every external with functions only); instances returned by other externals make the call fail (for every external with an instance as last parameter) |
| C107 | `lenient_vm_exception_handler` (`lenient`), the handling of exceptions in `exec` (`execCatch`) | Case analysis of the instruction with the lemmas about pops; the general lemma `skips` says what follows a failed instruction. Violation for all operators with two operands, and an expression evaluated to the end by computation |
| C108 | `load` of textures, hierarchies, animations, meshes and soft skins, each with the object it is called on as an argument | Two runs of a loader on one file are compared (`TwinAt`): they read the same and end in related objects; induction over the chunks (`TwinAt.chunked`). Textures by a law for readers that alter a result (`Alters`). Violations are general for animations and textures |
| C109 | The flag setters as functions on symbols; the access trap is part of `Host` in the model of `exec`. The spec says what a host function that keeps its hands off a variable does, and `withValue` is the machine with another value of it | Two-run (non-interference) law over all operations: with no reference on the stack an operation does the same whatever the value is, leaves it alone, and puts no reference on the stack; induction over the fuel. False of array elements and of contexts: concrete scripts |
| C110 | `Model/Mmap` (kernel with mappings and descriptors, `Mmap` objects, copies of addresses), `Model/VfsMemory` (`mount_disk` for paths and readers, the blocks a Vfs keeps) | simulation between the machine and `Holders` (who holds which file) by induction over histories; invariant `Sure` (well formed, every file in kept, lent or failed memory) over `FsHistory`; violations: directories are mapped without an exception, `fstat` failures leak, a mount from a reader that throws half way leaves dangling files |
| C111 | `Model/DaedalusVm` (fuel = instructions per activation and depth) | fuel monotonicity `Le` of the interpreter by mutual induction; `En` (never hangs) by induction over levels and over the distance to the end of the code; violations: backward jump, recursion, lenient handler after `pop_call` raised |
| C112 | `Model/VfsDisk` (`loadEntry`, `loadLoop`, `mountDisk`) | fuel monotonicity; induction over the distance to the end of the image along `Spec.Disk.Ordered`; violations: catalog cut off (reads behind the end are zeros, never a last entry), directory containing itself |
| C113 | `Model/VfsDisk` (`save`, `writeNode`, `mountDisk`) | the writer depends on `view` only (mutual induction over trees); ordered trees are determined by what is seen at the paths (induction over both lists, the first entries agree by trichotomy of the order); saving again from C26 and C63 |
| C114 | `Model/DaedalusLook` (`look`, `codeSize`, `lookingHost`), `Model/DaedalusVm` (all of it) | a relation between machines that differ in the place of the reader, kept by every operation of the machine (congruence rules per operation), then induction over fuel for closed code; between calls the first fetch of the callee re-establishes equality; negation for code control runs off |
| C115 | all loaders over `Model/Stream` (`Tex`, `Font`, `Hierarchy`, `Animation`, `Bsp`, `MdsBinary`, `DaedalusLoad`, `WholeMesh`, `Mrm`, `SoftSkin`, `MorphMesh`, `ModelMesh`), the three archive readers, `Materials`, `ArchiveGraph` | spec `Relocates` (result and stop place of the stream with a prefix); a relational logic `Sh` for readers whose positions differ by the length of the prefix, with rules for absolute seeks to related places and seeks back above a lower bound; a simulation of the calls of a reader for archives, so that every user of an archive inherits it; negations by witnesses for empty model scripts and BINSAFE headers |
| C116 | `Model/InfoChoices` (`addChoice`, `removeChoice`, `acts`) | induction over the history: sublist of the additions in reverse and a count; the signed conversion of the index by case distinction at 2^63 |
| C117 | `read_chunked` and the chunk handlers of hierarchies, world meshes, BSP trees, animations, morph meshes and soft skin meshes | orders that keep those chunks in their order of which one needs the other (`Reordered`); each handler reads with a few members known and sets others, so two chunks that do not share members commute; induction over the list, moving one chunk to the front at a time. False where chunks need others (samples or polygons in front of the header, light points in front of the tree): violations |
| C118 | `operator[]`, `pointer()`, `transpose()` and `identity()` of vectors, colors, quaternions and matrices | objects as lists of their members in memory with the member that `pointer()` points to; an access outside is undefined behaviour; `Indexed` says which index is which named component; by cases. False of quaternions, whose pointer is that of the second member: violation |
| C119 | `Texture::load`, `Font::load`, `OrientedBoundingBox::load`, `read_line` on memory streams | relation between two streams with the same bytes ahead when zeroes are assumed behind the end (`Zf`), closed under sequencing; the line reader by what its two loops see ahead; the boxes with different recursion budgets, by what is left; `c119_violation` for chunked files |
| C120 | `operator==` of vectors, colors, quaternions and matrices | `float` as bit pattern with the `==` of IEEE 754 on bits; specification: the number as a multiple of 2^-149 (`Spec.number`); equality on bits is equality of numbers by injectivity of (exponent, fraction) -> magnitude; then component by component |
| C121 | `operator*` of colors | products as natural numbers, of which the constructor takes the low byte; products of vectors are left out, as they need the arithmetic of `float` |
| C122 | `animation_flags_from_string`, operators of `AnimationFlags` | induction over the text for each flag; a value below 64 is determined by its six flags, which gives equality of texts with the same letters |

## What is modelled, file by file

"All" means every function but for logging, comparison operators, trivial constructors and the texts of error messages. The
citations in the model name the lines.

| source | modelled | not modelled |
|--------|----------|--------------|
| `src/Stream.cc`, `include/zenkit/Stream.hh` | memory streams, `ReadZipped`, all typed reads and writes, chunks, lines; streams over `FILE*`, `std::istream`, `std::ostream` (Model/StreamIo) | opening files but for mapped ones (Model/Mmap); full disks |
| `src/Archive.cc`, `include/zenkit/Archive.hh`, `src/Object.cc` | all: header, opening, class tables, objects and references, skipping | |
| `src/archive/*` | all three formats, reading and writing | |
| `src/SaveGame.cc` | all | the file system but for the operations used |
| `src/Vfs.cc` | nodes, lookup, creation, removal, mounting of nodes, disks and directories of the host, saving of disks, time stamps, the memory that is kept for mounted files | daylight saving time, links and special files of the host |
| `src/DaedalusScript.cc`, `.hh` | loading, symbols, all accessors, opaque instances, lookup, registration of members | error classes |
| `src/DaedalusVm.cc`, `.hh` | all instructions, calls, externals, overrides, exception handler, locals, parameters, `print_stack_trace`, access traps | setters of callbacks |
| `src/Texture.cc` | load, save, size of levels, conversion to RGBA8 of all formats | the decompression of DXT blocks is a parameter |
| `src/Mesh.cc`, `src/Material.cc`, `src/world/BspTree.cc` | all | |
| `src/World.cc` | all | `World::load(Read*)` that calls the two functions modelled one after the other |
| `src/world/VobTree.cc`, `src/world/WayNet.cc` | all | |
| `src/vobs/*.cc` | all `load` and `save` functions | |
| `src/MultiResolutionMesh.cc`, `src/SoftSkinMesh.cc`, `src/ModelMesh.cc`, `src/MorphMesh.cc`, `src/ModelAnimation.cc`, `src/ModelHierarchy.cc`, `src/Model.cc` | all | |
| `src/ModelScriptDsl.cc` | tokenizer and parser | |
| `src/ModelScript.cc` | both forms, the dispatch between them, flags, event types | |
| `src/CutsceneLibrary.cc` | all functions | the constructor of `Cutscene` |
| `src/Font.cc`, `src/Date.cc`, `src/Boxes.cc`, `src/Misc.cc` | all | |
| `src/Logger.cc` | levels and callbacks | formatting, output |
| `src/addon/daedalus.cc`, `include/zenkit/addon/daedalus.hh` | all registrations (as a table) | `IInfo::add_choice`, `remove_choice` |
| `src/addon/texcvt.cc` | all | |
| `src/MmapPosix.cc`, `include/zenkit/Mmap.hh` | all | |
| `src/MmapWin32.cc`, `src/Error.cc` | | all |

## Findings

Where a property is false of the code, a theorem proves it. `FINDINGS.md` lists these theorems with a line each.

## Not modelled

Rendering-side users of the data,
zlib/miniz and squish internals (parameters of the model), floating point arithmetic
(its decimal text form is: `Verif.Base.Float`), locale dependent `tolower`/`isspace` outside of the C locale,
allocation failure, threads.
