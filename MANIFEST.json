{
 "claims": [
  {
   "property": "C01",
   "status": "proved",
   "theorems": [
    "Verif.Props.c01_scalar_round_trip"
   ],
   "note": "all value kinds, any writer content and position, any following bytes"
  },
  {
   "property": "C02",
   "status": "proved",
   "theorems": [
    "Verif.Props.c02_reader_refines_cursor",
    "Verif.Props.c02_position_in_bounds",
    "Verif.Props.c02_model_agrees",
    "Verif.Props.c02_wrap_violation",
    "Verif.Props.c02_far_violation"
   ],
   "note": "for sizes below 2^62 as stated; the wrap-around beyond is shown to be undefined behaviour"
  },
  {
   "property": "C03",
   "status": "proved",
   "theorems": [
    "Verif.Props.c03_short_read",
    "Verif.Props.c03_short_scalar",
    "Verif.Props.c03_short_eof"
   ],
   "note": ""
  },
  {
   "property": "C04",
   "status": "proved",
   "theorems": [
    "Verif.Props.c04_growing_writer_is_file",
    "Verif.Props.c04_negative_seek_violation"
   ],
   "note": "histories that stay in [0, 2^60]; seeking in front of the start is shown to be undefined"
  },
  {
   "property": "C05",
   "status": "proved",
   "theorems": [
    "Verif.Props.c05_fixed_writer"
   ],
   "note": ""
  },
  {
   "property": "C06",
   "status": "partial",
   "theorems": [
    "Verif.Props.c06_line_round_trip",
    "Verif.Props.c06_line_skipws_partial",
    "Verif.Props.c06_trailing_nul_violation"
   ],
   "note": "read_line(true) also swallows a NUL that is the last byte of the stream; everything else is proved"
  },
  {
   "property": "C07",
   "status": "proved",
   "theorems": [
    "Verif.Props.c07_chunk_framing"
   ],
   "note": ""
  },
  {
   "property": "C08",
   "status": "proved",
   "theorems": [
    "Verif.Props.c08_chunk_loop_terminates",
    "Verif.Props.c08_backward_handler_violation"
   ],
   "note": ""
  },
  {
   "property": "C09",
   "status": "proved",
   "theorems": [
    "Verif.Props.c09_zipped_transparent"
   ],
   "note": "decompressor is a parameter; content length plus block size at most 2^32"
  },
  {
   "property": "C10",
   "status": "proved",
   "theorems": [
    "Verif.Props.c10_binary_round_trip",
    "Verif.Props.c10_line_break_violation",
    "Verif.Props.c10_enum_truncated",
    "Verif.Props.c10_binary_skip"
   ],
   "note": "Round trip of whole documents (entries, nested, null and referenced objects) below 4 GiB under the stated conditions; the second half of the claim is shown by a witness with a line break and, for all enum values, by c10_enum_truncated."
  },
  {
   "property": "C100",
   "status": "proved",
   "theorems": [
    "Verif.Props.c100_memory",
    "Verif.Props.c100_external",
    "Verif.Props.c100_default",
    "Verif.Props.c100_lenient",
    "Verif.Props.c100_loaded",
    "Verif.Props.c100_script"
   ],
   "note": "The rules are hypotheses on the states the call goes through (Spec.Daedalus.Careful); C64 shows by concrete scripts that they are needed. Parameters of type function of externals are not covered."
  },
  {
   "property": "C101",
   "status": "proved",
   "theorems": [
    "Verif.Props.c101_mrm",
    "Verif.Props.c101_softskin",
    "Verif.Props.c101_modelmesh",
    "Verif.Props.c101_morph",
    "Verif.Props.c101_animation",
    "Verif.Props.c101_hierarchy",
    "Verif.Props.c101_model",
    "Verif.Props.c101_bsp",
    "Verif.Props.c101_mesh"
   ],
   "note": "Any file of the format with any chunks of other types put in anywhere; for formats without an end marker also behind the last chunk. Hierarchies, models, BSP trees and world meshes as the library saves them, with additional chunks anywhere in front of the last."
  },
  {
   "property": "C102",
   "status": "partial",
   "theorems": [
    "Verif.Props.c102_complete",
    "Verif.Props.c102_safe_partial",
    "Verif.Props.c102_report_partial",
    "Verif.Props.c102_unchanged",
    "Verif.Props.c102_handler",
    "Verif.Props.c102_hidden_violation",
    "Verif.Props.c102_function_violation",
    "Verif.Props.c102_member_violation"
   ],
   "note": "False of the code for some stacks: a function without parameters on the stack hides the exception that led to the report, function variables that hold no function make the report undefined, and members without a current instance replace the error. Proved: a printed report is complete and true for any machine; without a handler calls leave the same machine with and without reports; for machines in order whose references are to elements that exist the report is printed and the exception raised again."
  },
  {
   "property": "C103",
   "status": "partial",
   "theorems": [
    "Verif.Props.c103_load",
    "Verif.Props.c103_run_partial",
    "Verif.Props.c103_parameters_partial",
    "Verif.Props.c103_numbers_violation",
    "Verif.Props.c103_parameters_violation"
   ],
   "note": "Loading any bytes returns; sizes always agree and numbers are complete if the script has code (c103_load), so with C100 running such a script keeps memory in order (c103_run_partial, without variables of type function). False in two places: a file cut within an array leaves numbers uninitialised (c103_numbers_violation), and find_parameters_for_function of the last function of a damaged file leaves the table (c103_parameters_violation). Running out of memory for the numbers a file announces is not modelled."
  },
  {
   "property": "C104",
   "status": "partial",
   "theorems": [
    "Verif.Props.c104_texture",
    "Verif.Props.c104_obb",
    "Verif.Props.c104_hierarchy",
    "Verif.Props.c104_font_partial",
    "Verif.Props.c104_font_violation",
    "Verif.Props.c104_materials_partial",
    "Verif.Props.c104_materials_settle",
    "Verif.Props.c104_materials_violation",
    "Verif.Props.c104_bsp_partial",
    "Verif.Props.c104_bsp_violation",
    "Verif.Props.c104_bsp_empty_violation",
    "Verif.Props.c104_mesh_partial",
    "Verif.Props.c104_mesh_g1_partial",
    "Verif.Props.c104_mesh_violation"
   ],
   "note": "Textures and boxes: every byte sequence. Hierarchies: every file below 2 GiB loaded into a new object. Fonts: only if the loaded name is not empty and does not begin with whitespace; c104_font_violation shows a file for which it fails. Running out of memory or of call stack is not modelled. Materials of meshes in BINARY archives: any archive; what a game does not store of any material is lost, then nothing changes any more; c104_materials_violation: the mode of transparency 3 becomes 1. BSP trees: any file up to 1 GiB whose loaded members fit together; the violations are an inner node without children (saved as a leaf) and a file without a tree. Mesh geometry saved for Gothic 1: any file, up to what the game stores of no mesh, and the very same if there is nothing of that kind; saved for Gothic 2 every loaded mesh with a corner is read out of bounds (violation)."
  },
  {
   "property": "C105",
   "status": "partial",
   "theorems": [
    "Verif.Props.c105_merge_partial",
    "Verif.Props.c105_compress_partial",
    "Verif.Props.c105_empty_violation"
   ],
   "note": "Holds for all sequences of images under the conditions named in the statement (all files can be read, no empty directory, no blank names, size). c105_empty_violation: a damaged disk leaves a directory empty, which in the copy holds the files of another one (as C27). Compressed output also needs what C63 needs."
  },
  {
   "property": "C106",
   "status": "partial",
   "theorems": [
    "Verif.Props.c106_call_partial",
    "Verif.Props.c106_function_violation",
    "Verif.Props.c106_instance_violation"
   ],
   "note": "Proved for parameters that are numbers, texts and instances passed as numbers, variables or temporary texts. False for parameters that are functions, which stay on the stack, and for instances that another external returned, for which the call fails."
  },
  {
   "property": "C107",
   "status": "partial",
   "theorems": [
    "Verif.Props.c107_constant",
    "Verif.Props.c107_float",
    "Verif.Props.c107_text",
    "Verif.Props.c107_instance",
    "Verif.Props.c107_value",
    "Verif.Props.c107_unary",
    "Verif.Props.c107_binary_partial",
    "Verif.Props.c107_operand_violation",
    "Verif.Props.c107_condition",
    "Verif.Props.c107_sum_violation",
    "Verif.Props.c107_text_value"
   ],
   "note": "Proved for assignments of numbers and texts to constants, of instances to what holds none, of numbers and texts that cannot be read, the operators with one operand, conditions, and the operators with two operands if the upper one can be read. False if it cannot: the lower operand stays on the stack and later expressions take it (3 + 7 * x gives 7). Divisions by zero: C34."
  },
  {
   "property": "C108",
   "status": "partial",
   "theorems": [
    "Verif.Props.c108_hierarchy",
    "Verif.Props.c108_hierarchy_partial",
    "Verif.Props.c108_animation",
    "Verif.Props.c108_animation_partial",
    "Verif.Props.c108_animation_violation",
    "Verif.Props.c108_mesh_partial",
    "Verif.Props.c108_mesh_violation",
    "Verif.Props.c108_skin_partial",
    "Verif.Props.c108_texture",
    "Verif.Props.c108_texture_violation",
    "Verif.Props.c108_texture_bounds_violation"
   ],
   "note": "Hierarchies, animations (samples behind the header), meshes and skins (weights behind the mesh): exact for all payloads; nothing stays if the file has all chunks, except for the alpha test of meshes of Gothic 1. False: animations without events keep the events from before; a used texture shows its old images with the size and format of the new file, and reads behind them if the new image is larger. Materials of meshes are taken to be new."
  },
  {
   "property": "C109",
   "status": "partial",
   "theorems": [
    "Verif.Props.c109_enable",
    "Verif.Props.c109_locals",
    "Verif.Props.c109_called",
    "Verif.Props.c109_plain",
    "Verif.Props.c109_execution_partial",
    "Verif.Props.c109_references_partial",
    "Verif.Props.c109_elements_violation",
    "Verif.Props.c109_context_violation"
   ],
   "note": "False of elements of arrays (PUSHVV) and of instances used as context (GMOVI), which the machine reaches without asking the trap (c109_elements_violation, c109_context_violation). c109_execution_partial: for code that does neither, no execution changes the variable and none depends on its value (non-interference), whatever happens; missing are locals of functions that save theirs."
  },
  {
   "property": "C11",
   "status": "proved",
   "theorems": [
    "Verif.Props.c11_binsafe_round_trip",
    "Verif.Props.c11_long_string_truncated"
   ],
   "note": "Round trip of arbitrary documents; c11_long_string_truncated shows what happens beyond the 16 bit length."
  },
  {
   "property": "C110",
   "status": "partial",
   "theorems": [
    "Verif.Props.c110_mapped",
    "Verif.Props.c110_gone",
    "Verif.Props.c110_reader",
    "Verif.Props.c110_grow",
    "Verif.Props.c110_files",
    "Verif.Props.c110_files_partial",
    "Verif.Props.c110_kept",
    "Verif.Props.c110_directory_violation",
    "Verif.Props.c110_stat_violation",
    "Verif.Props.c110_half_violation"
   ],
   "note": "False as stated. Proved: all histories of mapped regular files refine the abstract ownership, nothing is left mapped or open, readers and growing vectors keep the bytes; for all histories of a file system every file lies in memory that is kept, lent, or of an image whose mount from a reader threw. Refuted: a directory is mapped without an exception and reading it is undefined (MAP_FAILED is compared with nullptr), a failing fstat leaks the descriptor, and a mount from a reader that throws half way leaves files behind whose memory is freed."
  },
  {
   "property": "C111",
   "status": "partial",
   "theorems": [
    "Verif.Props.c111_once",
    "Verif.Props.c111_more",
    "Verif.Props.c111_ends_partial",
    "Verif.Props.c111_ends_later_partial",
    "Verif.Props.c111_loop_violation",
    "Verif.Props.c111_recursion_violation",
    "Verif.Props.c111_handler_violation"
   ],
   "note": "Proved for scripts without loops and recursion on machines without exception handler; false otherwise: a backward jump and recursion never end, and a handler that goes on after an exception raised while a callee is being left resumes at a position computed from the callee, so that even a script without loops runs forever. The model has no limit on native recursion."
  },
  {
   "property": "C112",
   "status": "partial",
   "theorems": [
    "Verif.Props.c112_once",
    "Verif.Props.c112_ends_partial",
    "Verif.Props.c112_cut_violation",
    "Verif.Props.c112_circle_violation"
   ],
   "note": "Proved for images whose catalog is complete and in order; false otherwise: a catalog that is cut off and a directory that contains itself never end (the latter recurses without end, which the native stack does not survive)."
  },
  {
   "property": "C113",
   "status": "proved",
   "theorems": [
    "Verif.Props.c113_same",
    "Verif.Props.c113_again",
    "Verif.Props.c113_again_zipped_partial"
   ],
   "note": "Relative to the decompressor and compressor as in C26 and C63. For compressed first archives the exceptions of C63 (empty files, audio files that look like compressed ones) apply."
  },
  {
   "property": "C114",
   "status": "partial",
   "theorems": [
    "Verif.Props.c114_look",
    "Verif.Props.c114_look_same",
    "Verif.Props.c114_size",
    "Verif.Props.c114_before",
    "Verif.Props.c114_during_partial",
    "Verif.Props.c114_looking_partial",
    "Verif.Props.c114_end_violation"
   ],
   "note": "Between calls looking has no influence, without any condition (c114_before). Inside of host functions it has none as long as control stays inside of the code (c114_during_partial); a script that runs off the end of its code executes what the reader happens to stand at, so there looking decides between an exception and a regular return (c114_end_violation)."
  },
  {
   "property": "C115",
   "status": "partial",
   "theorems": [
    "Verif.Props.c115_texture",
    "Verif.Props.c115_font",
    "Verif.Props.c115_hierarchy",
    "Verif.Props.c115_animation",
    "Verif.Props.c115_tree",
    "Verif.Props.c115_compiled_modelscript",
    "Verif.Props.c115_modelscript_partial",
    "Verif.Props.c115_modelscript_violation",
    "Verif.Props.c115_script",
    "Verif.Props.c115_mesh_partial",
    "Verif.Props.c115_mrm_partial",
    "Verif.Props.c115_softskin_partial",
    "Verif.Props.c115_morph_partial",
    "Verif.Props.c115_modelmesh_partial",
    "Verif.Props.c115_model_partial",
    "Verif.Props.c115_archive_partial",
    "Verif.Props.c115_binsafe_violation"
   ],
   "note": "Proved outright for textures, fonts, hierarchies, animations, trees, compiled model scripts (by load_binary) and compiled Daedalus scripts. Restricted: meshes and archives without BINSAFE, because the header of a BINSAFE archive holds a place in the stream (violation); multi resolution meshes and what holds them up to 4 GiB, because the end of the section is kept in 32 bits; model scripts of at least two bytes that are compiled, because an empty one reads what is in front of it (violation). Missing: model script sources, worlds."
  },
  {
   "property": "C116",
   "status": "proved",
   "theorems": [
    "Verif.Props.c116_remove",
    "Verif.Props.c116_undefined",
    "Verif.Props.c116_undo",
    "Verif.Props.c116_order",
    "Verif.Props.c116_defined"
   ],
   "note": "Histories of add_choice and remove_choice; std::vector's insert and erase are taken as their list operations."
  },
  {
   "property": "C117",
   "status": "partial",
   "theorems": [
    "Verif.Props.c117_hierarchy",
    "Verif.Props.c117_mesh_partial",
    "Verif.Props.c117_bsp_partial",
    "Verif.Props.c117_animation_partial",
    "Verif.Props.c117_morph_partial",
    "Verif.Props.c117_mesh_violation",
    "Verif.Props.c117_bsp_violation",
    "Verif.Props.c117_animation_violation",
    "Verif.Props.c117_softskin_partial"
   ],
   "note": "Any order for hierarchies; for the other formats any order that keeps a chunk behind those that it needs (stated as a list of pairs of types). The violations show that polygons in front of the header of a mesh, light points in front of a BSP tree and samples in front of the header of an animation are lost or misread without an error."
  },
  {
   "property": "C118",
   "status": "partial",
   "theorems": [
    "Verif.Props.c118_vec2",
    "Verif.Props.c118_vec3",
    "Verif.Props.c118_vec4",
    "Verif.Props.c118_color",
    "Verif.Props.c118_quat_partial",
    "Verif.Props.c118_quat_violation",
    "Verif.Props.c118_transpose3",
    "Verif.Props.c118_transpose4",
    "Verif.Props.c118_pointer",
    "Verif.Props.c118_identity"
   ],
   "note": "Everything but quaternions, of which the index reaches only three components: the fourth index is behind the object and the component w cannot be reached."
  },
  {
   "property": "C119",
   "status": "proved",
   "theorems": [
    "Verif.Props.c119_texture",
    "Verif.Props.c119_font",
    "Verif.Props.c119_obb",
    "Verif.Props.c119_line",
    "Verif.Props.c119_violation"
   ],
   "note": "Whole loaders, from any position. c119_violation shows the difference for files made of chunks: a hierarchy file that is cut inside an unknown chunk."
  },
  {
   "property": "C12",
   "status": "partial",
   "theorems": [
    "Verif.Props.c12_binsafe_type_confusion_partial",
    "Verif.Props.c12_bbox_as_vec2_violation"
   ],
   "note": "Holds for all pairs of types that are stored under different tags. Vec2/bounding box and matrix/raw share a tag and are not told apart; c12_bbox_as_vec2_violation is the negation."
  },
  {
   "property": "C120",
   "status": "proved",
   "theorems": [
    "Verif.Props.c120_vec2",
    "Verif.Props.c120_vec3",
    "Verif.Props.c120_vec4",
    "Verif.Props.c120_quat",
    "Verif.Props.c120_mat3",
    "Verif.Props.c120_mat4",
    "Verif.Props.c120_color",
    "Verif.Props.c120_equivalence",
    "Verif.Props.c120_violation"
   ],
   "note": "The number that a bit pattern stands for is specified by sign, exponent and fraction as an integer multiple of 2^-149, apart from the model. c120_violation: a vector that is not equal to itself, and equal vectors that are saved as different bytes."
  },
  {
   "property": "C121",
   "status": "proved",
   "theorems": [
    "Verif.Props.c121_mul",
    "Verif.Props.c121_scale",
    "Verif.Props.c121_exact",
    "Verif.Props.c121_laws",
    "Verif.Props.c121_violation"
   ],
   "note": "c121_violation: white is not neutral."
  },
  {
   "property": "C122",
   "status": "proved",
   "theorems": [
    "Verif.Props.c122_letter",
    "Verif.Props.c122_only",
    "Verif.Props.c122_same",
    "Verif.Props.c122_append",
    "Verif.Props.c122_test",
    "Verif.Props.c122_union",
    "Verif.Props.c122_limits"
   ],
   "note": "c122_limits records what a caller may trip over: testing two flags at once is true with one of them, testing NONE is never true, lower-case letters are ignored."
  },
  {
   "property": "C13",
   "status": "proved",
   "theorems": [
    "Verif.Props.c13_key_table",
    "Verif.Props.c13_binsafe_file_round_trip",
    "Verif.Props.c13_hash"
   ],
   "note": "Any history of calls; the file theorem adds the end-to-end round trip through the header."
  },
  {
   "property": "C14",
   "status": "partial",
   "theorems": [
    "Verif.Props.c14_skip_terminates",
    "Verif.Props.c14_skip_exact_partial",
    "Verif.Props.c14_skip_string_violation"
   ],
   "note": "Termination for every byte sequence. Exactness holds unless a string starts with '['; the violation theorem is a witness."
  },
  {
   "property": "C15",
   "status": "partial",
   "theorems": [
    "Verif.Props.c15_ascii_int_partial",
    "Verif.Props.c15_ascii_int_violation"
   ],
   "note": "True exactly above -10^9: smaller numbers are never read back."
  },
  {
   "property": "C16",
   "status": "partial",
   "theorems": [
    "Verif.Props.c16_ascii_raw_damage",
    "Verif.Props.c16_ascii_raw_partial",
    "Verif.Props.c16_ascii_raw_violation",
    "Verif.Props.c16_ascii_raw_long_violation"
   ],
   "note": "False; exact characterisation of the data that survives and of the damage otherwise."
  },
  {
   "property": "C17",
   "status": "partial",
   "theorems": [
    "Verif.Props.c17_ascii_round_trip_partial",
    "Verif.Props.c17_byte_word_mat3_violation",
    "Verif.Props.c17_float_violation",
    "Verif.Props.c17_float_below_16_violation",
    "Verif.Props.c17_string_violation"
   ],
   "note": "False for byte, word and matrix entries and for floats with more than six decimals; round trip of nested documents of all other entries."
  },
  {
   "property": "C18",
   "status": "proved",
   "theorems": [
    "Verif.Props.c18_round_trip",
    "Verif.Props.c18_total",
    "Verif.Props.c18_injective",
    "Verif.Props.c18_load_save",
    "Verif.Props.c18_names",
    "Verif.Props.c18_vobject"
   ],
   "note": "Whole tables in both directions, with the classes made for each type."
  },
  {
   "property": "C19",
   "status": "partial",
   "theorems": [
    "Verif.Props.c19_binary",
    "Verif.Props.c19_binsafe",
    "Verif.Props.c19_ascii_partial",
    "Verif.Props.c19_sharing",
    "Verif.Props.c19_address_reuse_violation",
    "Verif.Props.c19_unknown_type_violation"
   ],
   "note": "Proved for every finite object graph (shared, null, cyclic) whose objects stay alive while the archive is written, in BINARY and BINSAFE archives; ASCII under the name/value conditions of C17. Missing: false when an address is reused while writing (the cache is keyed by raw pointer) and for types without class name; both violations are proved. What a class saves and loads is a parameter (`Schema`): loading asks for the kinds that saving wrote."
  },
  {
   "property": "C20",
   "status": "proved",
   "theorems": [
    "Verif.Props.c20_strict_weak_order",
    "Verif.Props.c20_incomparable_trans"
   ],
   "note": "tolower in the C locale; bytes above 127 are unchanged"
  },
  {
   "property": "C21",
   "status": "proved",
   "theorems": [
    "Verif.Props.c21_reachable"
   ],
   "note": "Invariant over all histories of mkdir, remove, mount, mount_disk, create and remove on nodes."
  },
  {
   "property": "C22",
   "status": "proved",
   "theorems": [
    "Verif.Props.c22_create",
    "Verif.Props.c22_remove",
    "Verif.Props.c22_trailing_whitespace_violation"
   ],
   "note": "the restriction to names without trailing whitespace is part of the claim; the last theorem shows that it is needed"
  },
  {
   "property": "C23",
   "status": "partial",
   "theorems": [
    "Verif.Props.c23_resolve_violation",
    "Verif.Props.c23_resolve_partial"
   ],
   "note": "violated: a path that continues behind a file terminates the program; the partial theorem is a complete account of all paths"
  },
  {
   "property": "C24",
   "status": "partial",
   "theorems": [
    "Verif.Props.c24_mkdir_violation",
    "Verif.Props.c24_mkdir_partial"
   ],
   "note": "violated for names with trailing whitespace; proved for all other paths"
  },
  {
   "property": "C25",
   "status": "proved",
   "theorems": [
    "Verif.Props.c25_mount",
    "Verif.Props.c25_none_keeps",
    "Verif.Props.c25_all_takes",
    "Verif.Props.c25_file_conflict"
   ],
   "note": "stacks and pointers of the loop replaced by recursion"
  },
  {
   "property": "C26",
   "status": "proved",
   "theorems": [
    "Verif.Props.c26_disk_roundtrip"
   ],
   "note": "All trees without empty directories, names that fit the catalog, image below 4 GiB."
  },
  {
   "property": "C27",
   "status": "partial",
   "theorems": [
    "Verif.Props.c27_empty_dir_violation",
    "Verif.Props.c27_empty_hang_violation",
    "Verif.Props.c27_no_empty_dirs_partial"
   ],
   "note": "False of the code: an empty directory gets the entries of the next one in the catalog, and the image of an empty Vfs makes mount_disk loop forever. Holds without empty directories."
  },
  {
   "property": "C28",
   "status": "partial",
   "theorems": [
    "Verif.Props.c28_wrap_violation",
    "Verif.Props.c28_zipped_violation",
    "Verif.Props.c28_ranges_partial",
    "Verif.Props.c28_no_wrap_partial"
   ],
   "note": "False of the code: offset + size wraps in 32 bits; in compressed archives the size is not checked. Holds for all images when the sum does not wrap."
  },
  {
   "property": "C29",
   "status": "proved",
   "theorems": [
    "Verif.Props.c29_bad_signature"
   ],
   "note": "All data, all trees."
  },
  {
   "property": "C30",
   "status": "proved",
   "theorems": [
    "Verif.Props.c30_length",
    "Verif.Props.c30_roundtrip",
    "Verif.Props.c30_program"
   ],
   "note": "total decoding inside of the code, size by opcode byte, encode/decode round trip, whole programs"
  },
  {
   "property": "C31",
   "status": "proved",
   "theorems": [
    "Verif.Props.c31_history",
    "Verif.Props.c31_defined"
   ],
   "note": "refinement of any history of requests to a bounded LIFO list"
  },
  {
   "property": "C32",
   "status": "proved",
   "theorems": [
    "Verif.Props.c32_binary",
    "Verif.Props.c32_unary",
    "Verif.Props.c32_zero"
   ],
   "note": "all operators at the level of exec, operands numbers or variables"
  },
  {
   "property": "C33",
   "status": "partial",
   "theorems": [
    "Verif.Props.c33_frame",
    "Verif.Props.c33_depth",
    "Verif.Props.c33_below_violation",
    "Verif.Props.c33_void_violation",
    "Verif.Props.c33_stack_partial"
   ],
   "note": "frame and depth are restored for all callees; the stack clause is false for code that pops its caller's values or returns a value it does not declare; partial: compiled code whose heights are consistent (bytecode verification), with or without saved locals, no exception handler"
  },
  {
   "property": "C34",
   "status": "partial",
   "theorems": [
    "Verif.Props.c34_leak_violation",
    "Verif.Props.c34_resume_violation",
    "Verif.Props.c34_calls_partial",
    "Verif.Props.c34_lenient",
    "Verif.Props.c34_lenient_result",
    "Verif.Props.c34_lenient_division"
   ],
   "note": "false: a raising external leaks the call frame, so the function resumes in the wrong place; partial: other instructions keep the call stack when they raise"
  },
  {
   "property": "C35",
   "status": "partial",
   "theorems": [
    "Verif.Props.c35_locals_partial",
    "Verif.Props.c35_parameters_violation"
   ],
   "note": "Full claim is false: parameters are not saved (c35_parameters_violation). The locals of the interrupted activation are restored for all functions, layouts and depths, for every body that respects the frames below it (Inner) and while at most 243 temporary strings are in use."
  },
  {
   "property": "C36",
   "status": "partial",
   "theorems": [
    "Verif.Props.c36_history_partial",
    "Verif.Props.c36_pair_partial",
    "Verif.Props.c36_full_violation",
    "Verif.Props.c36_violation"
   ],
   "note": "All histories with at most 243 live strings; with more the claim is false (slot numbers are cut to eight bits), proved as a negation."
  },
  {
   "property": "C37",
   "status": "partial",
   "theorems": [
    "Verif.Props.c37_read_back_partial",
    "Verif.Props.c37_other_index_partial",
    "Verif.Props.c37_other_symbol",
    "Verif.Props.c37_index",
    "Verif.Props.c37_type",
    "Verif.Props.c37_failed_write",
    "Verif.Props.c37_member_writable",
    "Verif.Props.c37_global_writable",
    "Verif.Props.c37_instance",
    "Verif.Props.c37_float_violation"
   ],
   "note": "All symbols, indices and values except float members at index 256 and above, where the getter cuts the index to eight bits (negation proved). Different members of one instance: together with c39_elements_partial."
  },
  {
   "property": "C38",
   "status": "partial",
   "theorems": [
    "Verif.Props.c38_execution_partial",
    "Verif.Props.c38_instruction_partial",
    "Verif.Props.c38_default_host_partial",
    "Verif.Props.c38_set_raises",
    "Verif.Props.c38_ignored",
    "Verif.Props.c38_mov_raises",
    "Verif.Props.c38_movf_raises",
    "Verif.Props.c38_movs_raises",
    "Verif.Props.c38_assign_raises",
    "Verif.Props.c38_instance_violation"
   ],
   "note": "No execution changes a constant that is not an instance, for all scripts, hosts that keep constants, and outcomes; MOVVI overwrites constant instances (negation proved)."
  },
  {
   "property": "C39",
   "status": "partial",
   "theorems": [
    "Verif.Props.c39_layout_partial",
    "Verif.Props.c39_script_partial",
    "Verif.Props.c39_instance_partial",
    "Verif.Props.c39_elements_partial",
    "Verif.Props.c39_violation"
   ],
   "note": "All classes that need less than 4 GiB; beyond that offsets wrap around (negation proved). The storage constructed for an instance holds every element with its first value."
  },
  {
   "property": "C40",
   "status": "partial",
   "theorems": [
    "Verif.Props.c40_round_trip_partial",
    "Verif.Props.c40_power_of_two",
    "Verif.Props.c40_foreign",
    "Verif.Props.c40_empty_violation",
    "Verif.Props.c40_reuse_violation",
    "Verif.Props.c40_blocks_violation"
   ],
   "note": "round trip for textures with a mipmap into a new object, against sizes given by an own table of layouts; images in DXT blocks with a side over 4 pixels that is no multiple of 4 are cut (c40_blocks_violation); other signatures and versions are refused (c40_foreign)"
  },
  {
   "property": "C41",
   "status": "partial",
   "theorems": [
    "Verif.Props.c41_partial",
    "Verif.Props.c41_opaque_partial",
    "Verif.Props.c41_argb_violation",
    "Verif.Props.c41_bgra_violation",
    "Verif.Props.c41_565_violation",
    "Verif.Props.c41_dxt_violation",
    "Verif.Props.c41_565_shown_partial",
    "Verif.Props.c41_565_colour_violation"
   ],
   "note": "holds for R8G8B8A8, A8B8G8R8 and (colours) the 24 bit formats; false for A8R8G8B8 (channels rotated) and B8G8R8A8 (index without factor 4); R5G6B5 and DXT are undefined behaviour c41_565_shown_partial says what comes back of R5G6B5 for images dark enough to be stored: red and blue are exchanged and all values enlarged."
  },
  {
   "property": "C42",
   "status": "partial",
   "theorems": [
    "Verif.Props.c42_violation",
    "Verif.Props.c42_order",
    "Verif.Props.c42_single_partial"
   ],
   "note": "false with two or more levels (reversed order); true for one"
  },
  {
   "property": "C43",
   "status": "partial",
   "theorems": [
    "Verif.Props.c43_round_trip",
    "Verif.Props.c43_empty_violation",
    "Verif.Props.c43_reuse_violation"
   ],
   "note": "Proved for every non-empty tree in preorder, with all members. The empty tree is not loaded back; loading into a used object appends."
  },
  {
   "property": "C44",
   "status": "partial",
   "theorems": [
    "Verif.Props.c44_partial",
    "Verif.Props.c44_violation",
    "Verif.Props.c44_file_violation",
    "Verif.Props.c44_tree"
   ],
   "note": "No dead reference if the declared node count covers the file; undefined behaviour for every file whose root has two children and a front subtree beyond the declared count."
  },
  {
   "property": "C45",
   "status": "partial",
   "theorems": [
    "Verif.Props.c45_partial",
    "Verif.Props.c45_in_step",
    "Verif.Props.c45_violation",
    "Verif.Props.c45_bounds_violation"
   ],
   "note": "Exact result of triangulation (all lists) for sorted leaf polygon lists and index ranges within the lists. Unsorted lists lose polygons (c45_violation), ranges outside the lists are read out of bounds (c45_bounds_violation)."
  },
  {
   "property": "C46",
   "status": "partial",
   "theorems": [
    "Verif.Props.c46_kept",
    "Verif.Props.c46_g2_partial",
    "Verif.Props.c46_g1_partial",
    "Verif.Props.c46_axis_violation"
   ],
   "note": "Exact result for all flags. Round trip for the flags each version stores, except for bit 1 of the Gothic 1 normal axis, which is lost (c46_axis_violation)."
  },
  {
   "property": "C47",
   "status": "partial",
   "theorems": [
    "Verif.Props.c47_binary_partial",
    "Verif.Props.c47_binsafe_partial",
    "Verif.Props.c47_ascii_partial",
    "Verif.Props.c47_loop_violation",
    "Verif.Props.c47_null_violation"
   ],
   "note": "For all way nets that satisfy NetOk: every point is valid, and the first edge that touches a point which is not free is not an edge from that point to itself. The edge to itself and the missing end are proved to be exceptions."
  },
  {
   "property": "C48",
   "status": "partial",
   "theorems": [
    "Verif.Props.c48_binary",
    "Verif.Props.c48_binsafe",
    "Verif.Props.c48_ascii",
    "Verif.Props.c48_binary_drop",
    "Verif.Props.c48_binsafe_drop_partial",
    "Verif.Props.c48_ascii_drop",
    "Verif.Props.c48_shared_violation",
    "Verif.Props.c48_null_violation",
    "Verif.Props.c48_binsafe_drop_violation"
   ],
   "note": "Round trip of VOb trees of any size and shape in all three formats, with the objects as in C19. Dropping: the archive loads as if the objects of unknown class, the null objects and everything that hangs on them were not there. False for an object that occurs twice in the tree (children doubled), for null children (undefined behaviour on save), and in BINSAFE archives for dropped objects with a string starting with '[' (C14)."
  },
  {
   "property": "C49",
   "status": "proved",
   "theorems": [
    "Verif.Props.c49_round_trip",
    "Verif.Props.c49_load_terminates",
    "Verif.Props.c49_many_children_violation"
   ],
   "note": "Round trip for trees with fewer than 65536 children per node (the stated domain); loading ends on every stream. With 65536 children the count wraps."
  },
  {
   "property": "C50",
   "status": "partial",
   "theorems": [
    "Verif.Props.c50_hierarchy",
    "Verif.Props.c50_font_partial",
    "Verif.Props.c50_font_empty_violation",
    "Verif.Props.c50_font_blank_violation"
   ],
   "note": "Hierarchies: proved. Fonts: proved for names that are not empty and do not begin with whitespace; false otherwise."
  },
  {
   "property": "C51",
   "status": "partial",
   "theorems": [
    "Verif.Props.c51_partial",
    "Verif.Props.c51_absent",
    "Verif.Props.c51_violation",
    "Verif.Props.c51_unsorted_violation",
    "Verif.Props.c51_load_sorts",
    "Verif.Props.c51_loaded_partial",
    "Verif.Props.c51_null_violation"
   ],
   "note": "False for names not in the library: the block with the next greater name is returned (c51_violation; c51_absent says exactly when). Names present in a sorted (loaded) library are always found."
  },
  {
   "property": "C52",
   "status": "partial",
   "theorems": [
    "Verif.Props.c52_mrm_violation",
    "Verif.Props.c52_softskin_violation",
    "Verif.Props.c52_mrm_content_partial",
    "Verif.Props.c52_softskin_content_partial"
   ],
   "note": "False of every mesh: the stored size of the content is four too large and the chunk with the weights has the type of the header, so that no sub mesh and no weight that was saved is ever loaded (universal negations). The partial theorems show that nothing else is wrong: the saved bytes hold everything, and in a file with the right sizes and types they are loaded as the mesh that was saved."
  },
  {
   "property": "C53",
   "status": "partial",
   "theorems": [
    "Verif.Props.c53_tokens_partial",
    "Verif.Props.c53_next_partial",
    "Verif.Props.c53_comment_violation",
    "Verif.Props.c53_slash_violation",
    "Verif.Props.c53_string_violation",
    "Verif.Props.c53_keyword_violation",
    "Verif.Props.c53_number_violation",
    "Verif.Props.c53_block_violation"
   ],
   "note": "False of the code: texts without a final newline, a lone slash before the last newline, and unclosed blocks of aniComb/aniBlend are read forever (violations hold for every such text). Proved for all texts of whole lines whose last line does not end in a slash: tokens as specified, progress, end of file after at most as many tokens as characters."
  },
  {
   "property": "C54",
   "status": "partial",
   "theorems": [
    "Verif.Props.c54_load_partial",
    "Verif.Props.c54_world_partial",
    "Verif.Props.c54_worlds_partial",
    "Verif.Props.c54_thumbnail_violation",
    "Verif.Props.c54_no_value_violation",
    "Verif.Props.c54_values_violation",
    "Verif.Props.c54_guild_violation",
    "Verif.Props.c54_again_violation",
    "Verif.Props.c54_alias_violation",
    "Verif.Props.c54_own_world_violation"
   ],
   "note": "Proved for games with a thumbnail, for all texts, states and objects that the ASCII format can hold: the loaded metadata, thumbnail, state and objects are the saved ones, and the worlds are found. False in general: without a thumbnail the game can never be loaded; Gothic 1 symbols without values are undefined behaviour, with more than one they lose values; guild tables are damaged; loading twice doubles missions; saving to another spelling of the same path loses the other worlds."
  },
  {
   "property": "C55",
   "status": "partial",
   "theorems": [
    "Verif.Props.c55_others_partial",
    "Verif.Props.c55_other_games_partial",
    "Verif.Props.c55_removed_violation",
    "Verif.Props.c55_in_place_violation"
   ],
   "note": "False: whenever the target exists, there is a point at which neither the old game nor the new one can be loaded (for every game and both ways of saving). Proved: at every point, everything that is not inside of the target directory is as before, so games saved elsewhere stay loadable."
  },
  {
   "property": "C56",
   "status": "partial",
   "theorems": [
    "Verif.Props.c56_min",
    "Verif.Props.c56_max_partial",
    "Verif.Props.c56_violation"
   ],
   "note": "Lower bound proved. The upper bound starts from FLT_MIN instead of the lowest float, so it is wrong for boxes at negative coordinates."
  },
  {
   "property": "C57",
   "status": "proved",
   "theorems": [
    "Verif.Props.c57_calls",
    "Verif.Props.c57_silent"
   ],
   "note": ""
  },
  {
   "property": "C58",
   "status": "partial",
   "theorems": [
    "Verif.Props.c58_blocks_partial",
    "Verif.Props.c58_reads_partial",
    "Verif.Props.c58_damaged_block_violation",
    "Verif.Props.c58_bounds_violation"
   ],
   "note": "False: a failed block overwrites the cache, which stays marked as that of the block read before; reading that block again gives wrong bytes, or bytes from behind the end of the cache if the damaged block is the short last one. Proved: all histories that do not return directly to the block read before a failure, among them all reads without seeks, give exactly the bytes of the blocks that are not damaged."
  },
  {
   "property": "C59",
   "status": "partial",
   "theorems": [
    "Verif.Props.c59_binary_file_partial",
    "Verif.Props.c59_ascii_file_partial",
    "Verif.Props.c59_first_size_violation",
    "Verif.Props.c59_longer_date_violation",
    "Verif.Props.c59_ascii_longer_date_violation"
   ],
   "note": "False when the first object has a size with low byte 10 (BINARY), or when the length of the date changes while writing."
  },
  {
   "property": "C60",
   "status": "partial",
   "theorems": [
    "Verif.Props.c60_ascii_skip",
    "Verif.Props.c60_ascii_skip_hang_violation",
    "Verif.Props.c60_ascii_truncated_violation"
   ],
   "note": "Balanced skipping proved; never returns when the object is not finished in the file."
  },
  {
   "property": "C61",
   "status": "proved",
   "theorems": [
    "Verif.Props.c61_remove"
   ],
   "note": ""
  },
  {
   "property": "C62",
   "status": "proved",
   "theorems": [
    "Verif.Props.c62_find"
   ],
   "note": ""
  },
  {
   "property": "C63",
   "status": "partial",
   "theorems": [
    "Verif.Props.c63_compressed_roundtrip_partial",
    "Verif.Props.c63_empty_file_violation",
    "Verif.Props.c63_empty_audio_violation"
   ],
   "note": "False for empty files (they read back as the rest of the archive, or vanish). Proved for non-empty files and audio files that do not look compressed."
  },
  {
   "property": "C64",
   "status": "partial",
   "theorems": [
    "Verif.Props.c64_operator_violation",
    "Verif.Props.c64_script_violation",
    "Verif.Props.c64_function_violation",
    "Verif.Props.c64_underflow_violation",
    "Verif.Props.c64_operator_partial"
   ],
   "note": "the claim is false: overflow, least value / -1, bad shifts, reading a function with parameters, a call with too few arguments; partial: operators on defined operands"
  },
  {
   "property": "C65",
   "status": "partial",
   "theorems": [
    "Verif.Props.c65_arguments_partial",
    "Verif.Props.c65_arguments_violation"
   ],
   "note": "Full claim is false: with fewer local slots than parameters the arguments overwrite each other (c65_arguments_violation). Proved when the function has no local slots or at least as many as parameters."
  },
  {
   "property": "C66",
   "status": "partial",
   "theorems": [
    "Verif.Props.c66_function_partial",
    "Verif.Props.c66_unique",
    "Verif.Props.c66_cycle_violation",
    "Verif.Props.c66_cycle_witness",
    "Verif.Props.c66_uninit_violation",
    "Verif.Props.c66_class",
    "Verif.Props.c66_orphan_violation",
    "Verif.Props.c66_opaque_orphan",
    "Verif.Props.c66_class_cycle_violation"
   ],
   "note": "True for every chain that ends; false for cycles (the machine hangs), variables without a value (undefined) and instances without a class in allocate_instance (null dereference)."
  },
  {
   "property": "C67",
   "status": "partial",
   "theorems": [
    "Verif.Props.c67_name_partial",
    "Verif.Props.c67_distinct_partial",
    "Verif.Props.c67_address",
    "Verif.Props.c67_index",
    "Verif.Props.c67_name_violation",
    "Verif.Props.c67_reload_violation"
   ],
   "note": "Address and index for every loaded file without conditions. By name only if the names in the file contain no lower case letters: a name that does is not found even in its own spelling. A second load into the same script keeps the names of the first."
  },
  {
   "property": "C68",
   "status": "partial",
   "theorems": [
    "Verif.Props.c68_load_partial",
    "Verif.Props.c68_recover",
    "Verif.Props.c68_escape",
    "Verif.Props.c68_escape_unique",
    "Verif.Props.c68_load_violation",
    "Verif.Props.c68_function_array_violation",
    "Verif.Props.c68_function_variable_violation"
   ],
   "note": "For all well-formed files without constant strings whose parent has a white space character in its low byte; with one, the entry takes the bytes of the next symbol for its parent. The heuristic is proved to skip one to four left over bytes before the parent -1. Function variables have room for one uninitialised element whatever their count."
  },
  {
   "property": "C69",
   "status": "partial",
   "theorems": [
    "Verif.Props.c69_args_partial",
    "Verif.Props.c69_checked",
    "Verif.Props.c69_call",
    "Verif.Props.c69_init",
    "Verif.Props.c69_refused_violation",
    "Verif.Props.c69_exception_violation",
    "Verif.Props.c69_init_violation",
    "Verif.Props.c69_func_violation",
    "Verif.Props.c69_ignore_violation"
   ],
   "note": "Proved for every call of compiled code that returns; false when an argument is refused or an exception leaves the script, for results of type DaedalusFunction, and ignored texts are never freed."
  },
  {
   "property": "C70",
   "status": "partial",
   "theorems": [
    "Verif.Props.c70_allocate_partial",
    "Verif.Props.c70_wrong",
    "Verif.Props.c70_unregistered_violation",
    "Verif.Props.c70_opaque_violation",
    "Verif.Props.c70_registered_example"
   ],
   "note": "Proved for registered classes; unregistered classes dereference null, and opaque instances of classes not registered as opaque write outside of their storage."
  },
  {
   "property": "C71",
   "status": "partial",
   "theorems": [
    "Verif.Props.c71_bytes_partial",
    "Verif.Props.c71_4444_partial",
    "Verif.Props.c71_565_partial",
    "Verif.Props.c71_palette_violation",
    "Verif.Props.c71_narrow_violation",
    "Verif.Props.c71_white_violation"
   ],
   "note": "true of square-enough levels of the uncompressed formats; false of paletted textures (write out of bounds), of levels with a side of 1 pixel that is shifted to 0, of full green in R5G6B5"
  },
  {
   "property": "C72",
   "status": "partial",
   "theorems": [
    "Verif.Props.c72_partial",
    "Verif.Props.c72_violation",
    "Verif.Props.c72_file_violation"
   ],
   "note": "Holds if the ranges of the leaves lie inside the list; false otherwise."
  },
  {
   "property": "C73",
   "status": "partial",
   "theorems": [
    "Verif.Props.c73_g1_partial",
    "Verif.Props.c73_g2_partial",
    "Verif.Props.c73_g2_bounds_violation",
    "Verif.Props.c73_g2_violation",
    "Verif.Props.c73_g1_violation",
    "Verif.Props.c73_reuse_violation"
   ],
   "note": "Gothic 1: proved for meshes that fit the format. Gothic 2 saves the corners of the triangles instead of the polygons: only meshes of triangles are kept, quads come back changed, meshes without triangles are read out of bounds. Materials and light maps are not modelled."
  },
  {
   "property": "C74",
   "status": "partial",
   "theorems": [
    "Verif.Props.c74_owners_partial",
    "Verif.Props.c74_assign_violation",
    "Verif.Props.c74_reader_violation"
   ],
   "note": "Proved for all histories without assignment and with readers used while a descriptor refers to their buffer; both exceptions are violated by the code. A counter is a natural number."
  },
  {
   "property": "C75",
   "status": "partial",
   "theorems": [
    "Verif.Props.c75_script_partial",
    "Verif.Props.c75_not_model",
    "Verif.Props.c75_brace_violation",
    "Verif.Props.c75_case_violation",
    "Verif.Props.c75_frames_violation",
    "Verif.Props.c75_paren_violation",
    "Verif.Props.c75_integer"
   ],
   "note": "Proved for all sources whose animations without braces are followed by another item and whose blends without flags are not followed by a keyword that looks like flags; the exceptions are violated by the code. Not modelled: float overflow in numbers, log output."
  },
  {
   "property": "C76",
   "status": "partial",
   "theorems": [
    "Verif.Props.c76_binary_partial",
    "Verif.Props.c76_binsafe_partial",
    "Verif.Props.c76_ascii_partial",
    "Verif.Props.c76_vobject",
    "Verif.Props.c76_vobject_g2_partial",
    "Verif.Props.c76_class_partial",
    "Verif.Props.c76_save_state_partial",
    "Verif.Props.c76_anim_mode_violation",
    "Verif.Props.c76_anim_mode_lost_violation",
    "Verif.Props.c76_bias_violation",
    "Verif.Props.c76_ambient_violation",
    "Verif.Props.c76_g1_physics_violation",
    "Verif.Props.c76_event_manager_violation",
    "Verif.Props.c76_unpacked_violation",
    "Verif.Props.c76_visual_name_violation",
    "Verif.Props.c76_trigger_flags_violation",
    "Verif.Props.c76_frame_pose_violation",
    "Verif.Props.c76_camera_count_violation",
    "Verif.Props.c76_npc_packed_violation",
    "Verif.Props.c76_synchronized_violation",
    "Verif.Props.c76_trigger_list_violation",
    "Verif.Props.c76_empty_symbol_violation",
    "Verif.Props.c76_code_master_violation",
    "Verif.Props.c76_code_master_game_partial",
    "Verif.Props.c76_screen_effect_game",
    "Verif.Props.c76_visual_kind"
   ],
   "note": "Holds for the members that Any.copy keeps and the objects Any.Readable admits; the violations show what is lost or cannot be read: animation mode, bias and ambient of Gothic 2, switches of triggers, matrices of camera frames, packed strings of characters, default objects in saved games of Gothic 1, objects saved unpacked, code masters in saved games of Gothic 2, trigger lists of 256 targets"
  },
  {
   "property": "C77",
   "status": "partial",
   "theorems": [
    "Verif.Props.c77_registered",
    "Verif.Props.c77_args_partial",
    "Verif.Props.c77_call_partial",
    "Verif.Props.c77_host",
    "Verif.Props.c77_function_violation",
    "Verif.Props.c77_view_violation",
    "Verif.Props.c77_class_violation"
   ],
   "note": "Proved for all signatures and callbacks; false for the lifetime of texts, for externals that return functions, and for instances without a class."
  },
  {
   "property": "C78",
   "status": "partial",
   "theorems": [
    "Verif.Props.c78_sound",
    "Verif.Props.c78_complete_partial",
    "Verif.Props.c78_complete_violation"
   ],
   "note": "Soundness and order for every loaded file. Completeness if prototypes derive from the class directly and stand before their instances; otherwise instances are left out."
  },
  {
   "property": "C79",
   "status": "partial",
   "theorems": [
    "Verif.Props.c79_material_g1",
    "Verif.Props.c79_material_binary",
    "Verif.Props.c79_material_g2_binary_partial",
    "Verif.Props.c79_static_light_partial",
    "Verif.Props.c79_light_partial",
    "Verif.Props.c79_ranges_partial",
    "Verif.Props.c79_ranges_end",
    "Verif.Props.c79_colors_end",
    "Verif.Props.c79_alpha_violation",
    "Verif.Props.c79_g2_binsafe_violation",
    "Verif.Props.c79_g2_ascii_violation",
    "Verif.Props.c79_alpha_g1_violation",
    "Verif.Props.c79_infinite_violation",
    "Verif.Props.c79_colors_violation",
    "Verif.Props.c79_colors_lost_violation",
    "Verif.Props.c79_uninitialised_violation",
    "Verif.Props.c79_precision_violation",
    "Verif.Props.c79_reload_violation",
    "Verif.Props.c79_bad_text_violation"
   ],
   "note": "Materials come back in Gothic 1 and, from BINARY archives, in Gothic 2 up to alpha_func; all finite texture scales to the last bit. Lights come back if they are static or have no range factors. The violations: alpha_func is written as a truth value, so that BINSAFE and ASCII archives with Gothic 2 materials cannot be loaded; the colour list of a light begins with its range factors; six digits; undefined behaviour for some texts."
  },
  {
   "property": "C80",
   "status": "partial",
   "theorems": [
    "Verif.Props.c80_parameters_partial",
    "Verif.Props.c80_parameters_violation",
    "Verif.Props.c80_locals_partial",
    "Verif.Props.c80_locals_violation"
   ],
   "note": "Parameters if the table has as many symbols behind the function as it declares, undefined otherwise. Local variables if another symbol follows them: at the end of the table the result is always empty."
  },
  {
   "property": "C81",
   "status": "proved",
   "theorems": [
    "Verif.Props.c81_load"
   ],
   "note": "Materials are abstract: any reader of materials."
  },
  {
   "property": "C82",
   "status": "proved",
   "theorems": [
    "Verif.Props.c82_load"
   ],
   "note": "Materials are abstract."
  },
  {
   "property": "C83",
   "status": "partial",
   "theorems": [
    "Verif.Props.c83_load",
    "Verif.Props.c83_model",
    "Verif.Props.c83_save_violation"
   ],
   "note": "Loading is proved for well formed files into new objects. Saving is false: every model mesh without attachments is saved as a file whose loading accesses a name that does not exist. Loading what was saved with attachments inherits the defects of C52."
  },
  {
   "property": "C84",
   "status": "partial",
   "theorems": [
    "Verif.Props.c84_load",
    "Verif.Props.c84_again_violation"
   ],
   "note": "Proved for objects without animations; false of objects that have some, whose animations are kept."
  },
  {
   "property": "C85",
   "status": "partial",
   "theorems": [
    "Verif.Props.c85_load",
    "Verif.Props.c85_empty_violation"
   ],
   "note": "Proved for files whose event strings are not empty and are not followed by a byte that looks like white space; false of events with an empty string. The arithmetic of the samples is a parameter."
  },
  {
   "property": "C86",
   "status": "partial",
   "theorems": [
    "Verif.Props.c86_mrm",
    "Verif.Props.c86_softskin",
    "Verif.Props.c86_morph",
    "Verif.Props.c86_animation",
    "Verif.Props.c86_hierarchy",
    "Verif.Props.c86_font",
    "Verif.Props.c86_texture",
    "Verif.Props.c86_mrm_file_partial",
    "Verif.Props.c86_softskin_file_partial",
    "Verif.Props.c86_morph_file_partial",
    "Verif.Props.c86_mesh_partial",
    "Verif.Props.c86_modelmesh_violation",
    "Verif.Props.c86_lightmap_violation",
    "Verif.Props.c86_materials_violation",
    "Verif.Props.c86_msb_partial",
    "Verif.Props.c86_msb_loads_partial",
    "Verif.Props.c86_msb_violation"
   ],
   "note": "Proved for files of less than 4 GiB: with any reader of materials that itself ends well, and with the real one for files without the names of the formats ASCII and BIN_SAFE; false of model meshes with an attachment without a name, of the images of light maps, and of materials in a BINSAFE archive. Running out of memory is not modelled. Compiled model scripts: proved if an animation comes before the first event; the frames of five kinds of events can be read forever (c93_hang_violation)."
  },
  {
   "property": "C87",
   "status": "partial",
   "theorems": [
    "Verif.Props.c87_parts_partial",
    "Verif.Props.c87_mesh_partial",
    "Verif.Props.c87_mesh_reload_partial",
    "Verif.Props.c87_reload_g2",
    "Verif.Props.c87_reload_length",
    "Verif.Props.c87_ten_violation",
    "Verif.Props.c87_ten_unnamed_violation",
    "Verif.Props.c87_load",
    "Verif.Props.c87_foreign",
    "Verif.Props.c87_mrm"
   ],
   "note": "False of the code for whole meshes: with ten materials (or any number whose lowest byte is 10) the number is mistaken for a line break behind the header of the archive. Proved for all other numbers below a billion, for materials without line breaks in their texts, and for date and user of the same total length when the archive is opened and finished (C59); of alpha_func only remains whether it is 0 (C79). c87_mrm puts it together with C81. Meshes in use: none of their materials is left, but with files of Gothic 1 some members of those at the same place (c87_mesh_reload_partial)."
  },
  {
   "property": "C88",
   "status": "partial",
   "theorems": [
    "Verif.Props.c88_partial",
    "Verif.Props.c88_shared",
    "Verif.Props.c88_own",
    "Verif.Props.c88_null_violation",
    "Verif.Props.c88_index_violation",
    "Verif.Props.c88_reload_violation"
   ],
   "note": "Holds with the limits of C73 (geometry) and C87 (materials) for meshes all light maps of which have an image. False: a number of an image that is too large is followed out of bounds; a light map without image is dereferenced when saving; loading twice adds light maps behind the old ones, which the polygons go on to mean."
  },
  {
   "property": "C89",
   "status": "partial",
   "theorems": [
    "Verif.Props.c89_binary",
    "Verif.Props.c89_binsafe",
    "Verif.Props.c89_ascii",
    "Verif.Props.c89_g2_binary",
    "Verif.Props.c89_g2_binary_partial",
    "Verif.Props.c89_g2_binary_violation",
    "Verif.Props.c89_g2_binsafe_violation",
    "Verif.Props.c89_g2_ascii_violation"
   ],
   "note": "Gothic 1: holds for every world of a saved game whose virtual objects form trees, in all formats. Gothic 2: in BINARY archives at the end of a file all but the flags for spawning is preserved, and the flags if they are 0 or 1; false otherwise: other flags become 1, and a world in a BINSAFE or ASCII archive is saved but cannot be loaded, since the flags are written as bool and read as int."
  },
  {
   "property": "C90",
   "status": "partial",
   "theorems": [
    "Verif.Props.c90_section",
    "Verif.Props.c90_binary_partial",
    "Verif.Props.c90_binsafe_partial",
    "Verif.Props.c90_ascii_partial",
    "Verif.Props.c90_truncated_violation"
   ],
   "note": "Round trip in all three formats for both games, with the version found. Missing: what C43, C73 and C87 exclude (number of materials, polygons that are not triangles in Gothic 2), users called XZEN, and objects behind the first 4 GiB. False of damaged files: a file that ends inside the mesh is read forever (c90_truncated_violation)."
  },
  {
   "property": "C91",
   "status": "partial",
   "theorems": [
    "Verif.Props.c91_history_partial",
    "Verif.Props.c91_accepts_partial",
    "Verif.Props.c91_read_partial",
    "Verif.Props.c91_write_partial",
    "Verif.Props.c91_defined_partial",
    "Verif.Props.c91_defined_write_partial",
    "Verif.Props.c91_apart_partial",
    "Verif.Props.c91_one_class_partial",
    "Verif.Props.c91_failed_call_violation",
    "Verif.Props.c91_member_parent_violation",
    "Verif.Props.c91_second_base_violation"
   ],
   "note": "For every series of calls. Missing: scripts in which the class of a member is a member itself (false: c91_member_parent_violation), and elements of float members behind the 255th (C37). False also: a call that fails because of the type binds the class (c91_failed_call_violation); for C++ classes that have another base before DaedalusInstance, fields are read at the wrong place (c91_second_base_violation)."
  },
  {
   "property": "C92",
   "status": "proved",
   "theorems": [
    "Verif.Props.c92_names",
    "Verif.Props.c92_fields",
    "Verif.Props.c92_members",
    "Verif.Props.c92_elements",
    "Verif.Props.c92_read",
    "Verif.Props.c92_write",
    "Verif.Props.c92_apart",
    "Verif.Props.c92_success"
   ],
   "note": "The table of the 710 registrations was extracted from the source and is checked as a whole; the four members whose field has another name are listed in Spec/ScriptClasses. Reading and writing: for all scripts with which registering succeeds, and every placement of the fields."
  },
  {
   "property": "C93",
   "status": "partial",
   "theorems": [
    "Verif.Props.c93_dispatch",
    "Verif.Props.c93_load_partial",
    "Verif.Props.c93_recognised_partial",
    "Verif.Props.c93_known_types",
    "Verif.Props.c93_same_partial",
    "Verif.Props.c93_order_violation",
    "Verif.Props.c93_reload_violation",
    "Verif.Props.c93_hang_violation",
    "Verif.Props.c93_confined_violation",
    "Verif.Props.c93_forms_violation"
   ],
   "note": "Proved for every list of known and unknown chunks with any bytes behind their content in which every event has an animation before it, and for the compiled form of every source of C75 without ATTACH. Fails otherwise: events before an animation are undefined, a second load adds events to the old animations, frames that are no numbers hang, missing arguments are taken from the next chunk, and seven kinds of events keep their slot in the compiled form only."
  },
  {
   "property": "C94",
   "status": "partial",
   "theorems": [
    "Verif.Props.c94_file_partial",
    "Verif.Props.c94_header",
    "Verif.Props.c94_compressed",
    "Verif.Props.c94_4444",
    "Verif.Props.c94_565",
    "Verif.Props.c94_1555",
    "Verif.Props.c94_bytes_partial",
    "Verif.Props.c94_palette_partial",
    "Verif.Props.c94_missing_levels",
    "Verif.Props.c94_colours_violation",
    "Verif.Props.c94_palette_violation",
    "Verif.Props.c94_blocks_violation"
   ],
   "note": "A strict reader of DDS files (Spec/Dds) accepts the file of every texture with complete levels and gets dimensions and levels; the colours of the 16 bit formats and the names of the compressions are right. False: the channels of all formats of whole bytes are in the opposite order of that of as_rgba8, the files of paletted textures declare zero bits per pixel, and images in blocks with sides that are not whole blocks declare too few bytes."
  },
  {
   "property": "C95",
   "status": "partial",
   "theorems": [
    "Verif.Props.c95_file_partial",
    "Verif.Props.c95_stream_partial",
    "Verif.Props.c95_sequential",
    "Verif.Props.c95_texture",
    "Verif.Props.c95_line_file_partial",
    "Verif.Props.c95_line_stream_partial",
    "Verif.Props.c95_nul_violation",
    "Verif.Props.c95_failed_violation",
    "Verif.Props.c95_chunks_violation",
    "Verif.Props.c95_animation_violation",
    "Verif.Props.c95_write_file_partial",
    "Verif.Props.c95_write_stream_partial",
    "Verif.Props.c95_chunk_model",
    "Verif.Props.c95_write_failed_violation",
    "Verif.Props.c95_write_hole_partial",
    "Verif.Props.c95_write_hole_violation"
   ],
   "note": "Proved for functions that only read (with textures), for lines, and for all functions that seek inside of the file and do not ask for the end at the end; false for loaders of chunks without a last chunk (animations, morph meshes, compiled model scripts), which never return, and for C++ streams that have failed. Positions behind the end: kept by files, lost by string streams."
  },
  {
   "property": "C96",
   "status": "partial",
   "theorems": [
    "Verif.Props.c96_calendar",
    "Verif.Props.c96_utc_partial",
    "Verif.Props.c96_zone_violation",
    "Verif.Props.c96_order_partial",
    "Verif.Props.c96_second_violation",
    "Verif.Props.c96_outside_violation",
    "Verif.Props.c96_default_violation",
    "Verif.Props.c96_zero",
    "Verif.Props.c96_disk"
   ],
   "note": "True in UTC for 1980 to 2107, up to odd seconds. False elsewhere: the time is written in UTC and read in local time; seconds are rounded to even ones; all other times come back as another year."
  },
  {
   "property": "C97",
   "status": "partial",
   "theorems": [
    "Verif.Props.c97_mount_partial",
    "Verif.Props.c97_tree_partial",
    "Verif.Props.c97_empty_violation",
    "Verif.Props.c97_case_violation",
    "Verif.Props.c97_time_violation",
    "Verif.Props.c97_missing_violation",
    "Verif.Props.c97_missing_partial",
    "Verif.Props.c97_file_violation"
   ],
   "note": "True for files with content whose names do not collide ignoring case. False: empty files are left out; of colliding names only the last is kept; the times are relative to the epoch of the file clock, so OLDER and NEWER compare wrongly; a single file can not be mounted though documented; a missing mount point goes unnoticed when there is nothing to mount."
  },
  {
   "property": "C98",
   "status": "partial",
   "theorems": [
    "Verif.Props.c98_get",
    "Verif.Props.c98_set",
    "Verif.Props.c98_binary_partial",
    "Verif.Props.c98_binsafe_partial",
    "Verif.Props.c98_ascii_partial",
    "Verif.Props.c98_null_violation",
    "Verif.Props.c98_no_atomic_violation",
    "Verif.Props.c98_cycle_violation",
    "Verif.Props.c98_reuse_violation",
    "Verif.Props.c98_negative_violation"
   ],
   "note": "proved for libraries without null blocks and names of one block, in the three formats (ASCII: texts as in C17); false: a file whose block refers to itself loads and get_message never ends, set_message on a null inner block does nothing, loading into a used library appends, a negative count is no ParserError"
  },
  {
   "property": "C99",
   "status": "partial",
   "theorems": [
    "Verif.Props.c99_binary_partial",
    "Verif.Props.c99_binsafe_partial",
    "Verif.Props.c99_ascii_partial",
    "Verif.Props.c99_open_partial",
    "Verif.Props.c99_file_partial",
    "Verif.Props.c99_block_violation",
    "Verif.Props.c99_cutscene_violation",
    "Verif.Props.c99_npc_violation",
    "Verif.Props.c99_light_violation",
    "Verif.Props.c99_table_violation",
    "Verif.Props.c99_hang_violation",
    "Verif.Props.c99_color_violation"
   ],
   "note": "proved for files in which the names of eight classes do not occur (blocks, contexts and libraries of cutscenes, people, lights: their load functions do not check what they read; way nets and worlds: described elsewhere); false: a block without content is a null pointer that is used (also in cutscenes and contexts), a null object in the pockets of people is used, colours of lights that are not numbers are not initialised, an index of the BINSAFE table is not checked, ASCII objects that do not end are searched forever, ASCII colours that are not complete are not initialised. The depth of the recursion is bounded by the length of the file; memory and stack have no limit in the model"
  }
 ]
}
