# Findings

Where a property is false of the code, a theorem proves it, by a witness or for every case. Each line names the theorem (in `Verif.Props`)
and says what it shows.

## C02: Memory reader is a bounded cursor

* `c02_wrap_violation`: Without the size restriction the claim is false: a read of `2^64 - 1` bytes after the first byte wraps around and copies from outside of the buffer.
* `c02_far_violation`: A seek that leaves the range of the offset is undefined in place of being ignored.

## C04: Growing writer is a sparse byte file

* `c04_negative_seek_violation`: The restriction on seeks is needed: seeking in front of the start and writing is undefined.

## C06: Line round trip

* `c06_trailing_nul_violation`: A NUL that is the last byte of the stream is consumed although it is not whitespace.

## C08: Chunk loop terminates on every input

* `c08_backward_handler_violation`: The proviso of C08 is needed: a handler that seeks to the start makes the loop run forever when the chunk size points behind the end of the stream.

## C10: Binary archive entry sequences round trip

* `c10_line_break_violation`: A string with a line break is cut off, and its rest is taken for the entries that follow.

## C102: The report about a failing script

* `c102_hidden_violation`: Violation — a function without parameters on the stack: the script fails because of a division by zero, but what reaches the caller is that an index is out of bounds.
* `c102_function_violation`: Violation — a function variable on the stack that holds no function: while the report is printed, a null pointer is dereferenced.
* `c102_member_violation`: Violation — a member on the stack while there is no current instance: the report fails, and what reaches the caller is that there is no context, whatever the error was.

## C103: Damaged scripts do no harm

* `c103_numbers_violation`: Without code numbers may not be initialised: the file ends behind the first number of an array, and reading the second is undefined.
* `c103_parameters_violation`: Asking a function for its parameters is undefined if they are not in the file.

## C104: What was loaded can be saved and loaded again, whatever the file

* `c104_font_violation`: Is false of fonts: one is loaded with a name that begins with a blank, which is gone after it was saved and loaded again.
* `c104_materials_violation`: Is false of materials: the mode of transparency 3 is loaded and is 1 after it was saved and loaded again.
* `c104_bsp_violation`: Is false of BSP trees: an inner node without children is saved as a leaf and loses its plane.
* `c104_bsp_empty_violation`: Is false of files without a BSP tree: after saving and loading there is a node that was in no file.
* `c104_mesh_violation`: Is false of meshes that are saved for Gothic 2, each of them that has a polygon with a corner: saving reads out of bounds.

## C105: Disks mounted over each other can be stored as one

* `c105_empty_violation`: Is false when a directory is left empty: a disk is mounted whose directory `A` has no file inside of the disk; in the copy `A` has the file `F` of the directory `B`.

## C106: Externals without implementation leave the stack balanced

* `c106_function_violation`: Arguments that are functions stay on the stack. For every external without result all of whose parameters are functions.
* `c106_instance_violation`: An argument that is an instance another external returned makes the call fail. For every external whose last parameter is an instance.

## C107: With the lenient handler a failed instruction costs a value, not the script

* `c107_operand_violation`: If the upper operand cannot be read the lower one stays: one value too many is left, whatever the operator and the machine.
* `c107_sum_violation`: (negation) to the end: with the lenient handler `3 + 7 * N.HP`, where `N` is nobody, is 7.

## C108: Loading into an object that was used before

* `c108_animation_violation`: The claim is false of animations without events, of which there are many: the events of the animation that was loaded before stay.
* `c108_mesh_violation`: Meshes of Gothic 1 have no alpha test in their files: whatever the mesh that was loaded before had stays.
* `c108_texture_violation`: The claim is false of textures: if the used texture has at least as many images as the file, then what is shown with the size and format of the new texture are the images of the old one, on all levels.
* `c108_texture_bounds_violation`: With a larger image, the pixels are read from behind the old one.

## C109: Access traps guard the variables they are set on

* `c109_elements_violation`: Violated: elements of trapped arrays are read and written without asking the trap. Here the trap refuses everything, and the script assigns to the variable all the same.
* `c109_context_violation`: Violated: members of a trapped instance are reached without asking the trap.

## C110: Mapped files and the memory behind mounted files

* `c110_directory_violation`: Is false of paths that can be opened but not mapped, like directories: no exception is thrown, and reading goes through the address that stands for the failure.
* `c110_stat_violation`: Is false of files whose size cannot be asked for: an exception is thrown, but the file descriptor stays open.
* `c110_half_violation`: Is false when mounting from a reader fails half way: the file `A` stays in the file system although its memory is gone. Had the same disk been mounted from its path, the memory would have been kept.

## C111: Calls of script functions end

* `c111_loop_violation`: A backward jump: the call never ends, and there is no limit that would stop it.
* `c111_recursion_violation`: A function that calls itself: the call never ends; there is no limit on the depth of calls either.
* `c111_handler_violation`: With the lenient handler a script without loops and recursion need not end either: on a full stack `F` cannot return its value, the exception is raised while it is left, and the handler continues at a position computed from the one in `F`; here it is the start of `MAIN` again.

## C112: Mounting a disk ends

* `c112_cut_violation`: Violated: mounting a disk never ends if its catalog is cut off, whatever is in the Vfs: behind the end of the image there are only entries without names that are not the last ones, which are added to the Vfs over and over again.
* `c112_circle_violation`: Violated: mounting a disk with a directory that contains itself goes down into it without end.

## C114: Looking at a script does not disturb it

* `c114_end_violation`: A script that runs off the end of its code: whether the host's function looked at an instruction decides what is executed next. Here the call raises an exception, but returns as if nothing was wrong when `E` looks at the first instruction of the code.

## C115: Resources are loaded from the middle of a stream as from its start

* `c115_modelscript_violation`: An empty model script is an error, unless it lies behind other bytes: the attempt to go back two bytes then leaves the script, and a quotation mark in front of it is taken for the start of a text that never ends.
* `c115_binsafe_violation`: The header of a BINSAFE archive holds the place of the table of names in the stream, not in the archive: behind eight other bytes an archive has no names.

## C117: The order of the chunks of a file does not matter

* `c117_mesh_violation`: Is false of meshes for Gothic 2 whose polygons come in front of the header: they are taken for those of Gothic 1, and no error is reported.
* `c117_bsp_violation`: Is false of BSP trees whose light points come in front of the tree: they are lost, as the number of leaves is not known yet.
* `c117_animation_violation`: Is false of animations whose samples come in front of the header: they are lost, as the number of nodes and frames is not known yet.

## C118: Components are reached by their index

* `c118_quat_violation`: Is false of quaternions: whatever order one expects, four components cannot be reached, as the index counts from the second member on; the fourth index is behind the object.

## C119: Textures, fonts and boxes that end early are read as if filled up with zero bytes

* `c119_violation`: Files made of chunks are different: a chunk that is to be skipped and that the file has not got all of is not skipped, its content is read as chunks. Filled up with zero bytes it is skipped.

## C12: Binsafe type confusion is detected

* `c12_bbox_as_vec2_violation`: A bounding box read as `Vec2` gives a value, the first two coordinates of its minimum.

## C120: Vectors, quaternions and matrices are compared as numbers

* `c120_violation`: Equal is not the same as indistinguishable: a vector that was loaded need not be equal to itself, and equal vectors may be saved as different bytes.

## C121: Products of colors wrap around

* `c121_violation`: Modulating with white, as a renderer would, is not neutral: it turns every component into its negative modulo 256, so that a dark color becomes a bright one.

## C14: Skipping an object of a Binsafe archive terminates and balances

* `c14_skip_string_violation`: An object with the string value `[]` is left inside, at the entry behind the string.

## C15: ASCII archive integers round trip

* `c15_ascii_int_violation`: No integer of at most -10^9 is read back, whatever `std::to_chars` leaves in a buffer that is too small, the name of the entry, and the content of the file around it.

## C16: ASCII archive raw blobs round trip

* `c16_ascii_raw_violation`: The bytes 1F 05 are read back as 1F 5F.
* `c16_ascii_raw_long_violation`: Of data with 65536 bytes nothing is written, and reading it throws.

## C17: ASCII archive entry sequences round trip

* `c17_byte_word_mat3_violation`: A `byte`, `word` or `mat3` entry can never be read back.
* `c17_float_violation`: 10^-7 is read back as zero, and one plus the smallest possible difference as one.
* `c17_float_below_16_violation`: The bound 16 is close: 15.99998951 is read back as the next number, 15.99999046.
* `c17_string_violation`: A string with a line break is cut off.

## C19: Object references preserve sharing

* `c19_address_reuse_violation`: Is false when memory is reused: the writer knows objects by their address only. An object that is made at the address of one that was written and destroyed is written as a reference to it; two objects become one.
* `c19_unknown_type_violation`: An object of a type without a class name cannot be written; the archive is left half written.

## C22: Creating, removing and finding entries obeys map laws

* `c22_trailing_whitespace_violation`: The restriction to names without trailing whitespace is needed: such a node cannot be found.

## C23: Path resolution never aborts the process

* `c23_resolve_violation`: A path that leads through a file terminates the program.

## C24: mkdir is idempotent and makes the path resolvable

* `c24_mkdir_violation`: For names with trailing whitespace: the new directory cannot be resolved.

## C27: Saved empty directories do not corrupt the tree

* `c27_empty_dir_violation`: Violated: `A` is empty and `B` holds `F`; after saving and mounting, `A` holds `F`, too.
* `c27_empty_hang_violation`: Violated: mounting the saved form of an empty Vfs never ends.

## C28: Files mounted from a disk image lie within the image

* `c28_wrap_violation`: Violated: offset and size of an entry wrap around, so that the check lets them pass; the file that is created ends far behind the image.
* `c28_zipped_violation`: Violated: in a compressed archive the size of a file is not checked at all; if its contents are not compressed, opening it goes behind the image.

## C33: Calls restore the caller's frame

* `c33_below_violation`: What is below of the arguments need not survive: a function without parameters and results changes the value its caller left on the stack.
* `c33_void_violation`: A function that is flagged as returning a value of type `void` and that pushes none returns none.

## C34: Exceptions in externals do not corrupt the caller's frame

* `c34_leak_violation`: Whenever an external raises a script error, its frame stays on the call stack, so that with a handler that lets execution continue the enclosing function "returns" into itself.
* `c34_resume_violation`: A concrete program: if the external raises, `MAIN` does not go on after its call of `F`, and a frame stays behind.

## C35: Recursion does not clobber local variables

* `c35_parameters_violation`: Parameters are not saved. A function calls itself with another argument; the call returns, and the parameter of the interrupted activation has the value of the inner one.

## C36: Temporary strings keep their value until popped

* `c36_full_violation`: When 243 strings are in use, a string that is pushed and popped again is lost, and a string that is in use comes instead.
* `c36_violation`: A history in which a pop does not give what was pushed. There are never more than 244 of the 2048 values the stack can hold.

## C37: Symbol members read back what was written

* `c37_float_violation`: The getter of a `float` member cuts the index to eight bits, so it reads another element: for every member with more than 256 elements whose objects exist, a value written to element 256 is not read from it.

## C38: Constants are write protected

* `c38_instance_violation`: `MOVVI` does not look at the specifier: for every constant instance there is an execution of the instruction that changes it.

## C39: Opaque instance layout is disjoint and in bounds

* `c39_violation`: Offsets are 32 bits wide; in a class of 32778 members of 4095 strings each, the last member lies in the middle of the first.

## C40: Texture files round trip

* `c40_empty_violation`: A texture without mipmaps (the builder makes one) comes back with one.
* `c40_reuse_violation`: Loading into an object that holds a texture already: the new levels are added behind the old ones, and `data` shows the old ones.
* `c40_blocks_violation`: Five by five pixels take four blocks; only the first comes back.

## C41: Pixel format conversion through RGBA is lossless where the format is

* `c41_argb_violation`: Is false of A8R8G8B8: the channels of a single pixel are rotated.
* `c41_bgra_violation`: Is false of B8G8R8A8 from two pixels on.
* `c41_565_violation`: Building a R5G6B5 texture from a bright image is undefined behaviour (a conversion out of range).
* `c41_dxt_violation`: Building a DXT texture writes to an empty buffer, whatever the image.
* `c41_565_colour_violation`: A dark red pixel comes back as a brighter blue one.

## C42: A built texture exposes the mipmaps that were added

* `c42_violation`: Is false with two levels: level 0 of the built texture is the smaller mipmap; and a file made of it does not even hold it.

## C43: BSP trees round trip

* `c43_empty_violation`: Is false of the empty tree: the loader always reads a root, here from the chunks behind the tree.
* `c43_reuse_violation`: Loading appends to the nodes of an object that is used a second time.

## C44: BSP loading is memory safe for every header

* `c44_violation`: Of every file whose root has two children and a front subtree that the declared count does not cover.
* `c44_file_violation`: The same through the public interface: a header that declares no nodes.

## C45: Fan triangulation covers each polygon exactly

* `c45_violation`: With a list of leaf polygons out of order, polygons of leaves are left out.
* `c45_bounds_violation`: A polygon with corners outside of the lists of indices is read out of bounds.

## C46: Polygon flags round trip

* `c46_axis_violation`: A Gothic 1 polygon whose normal axis is 2 comes back with 0, though that version stores the axis.

## C47: Way nets round trip

* `c47_loop_violation`: Is false for an edge from a way point to itself: the loaded way net lacks the way point. `use_count` is 3 because both ends of the edge own it.
* `c47_null_violation`: Is false for an edge without an end: the loaded way net has a null way point, which cannot be saved again.

## C48: VOb trees round trip

* `c48_shared_violation`: Is false for an object with children that occurs twice: what the number of its children was doubles.
* `c48_null_violation`: A null child is dereferenced by `save`.
* `c48_binsafe_drop_violation`: Is false for BINSAFE archives and unknown objects with a string that starts with `[`: the loaded tree lacks the sibling.

## C49: Nested oriented bounding boxes round trip

* `c49_many_children_violation`: The number of children is stored in 16 bits: a box with 65536 children comes back without any.

## C50: Fonts and model hierarchies round trip

* `c50_font_empty_violation`: Is false of fonts without a name: the end of the empty line is skipped together with the line before, and the height is taken for the name.
* `c50_font_blank_violation`: Is false of names that begin with a blank: it is lost.

## C51: Cutscene block lookup finds exactly the named block

* `c51_violation`: Asking for "B" in a library holding "A" and "C" gives the block "C".
* `c51_unsorted_violation`: Is false, for the present names too, when the application has filled the public list of blocks in another order.
* `c51_null_violation`: A library with an object that is not a known class, among others, is undefined behaviour to load.

## C52: Multi resolution and soft skin meshes round trip

* `c52_mrm_violation`: Is false of multi resolution meshes, every one of them: no sub mesh of a saved mesh is ever loaded again. The size that `MultiResolutionMesh::save` stores is too large by four, so that the loader takes a byte of the offset of the positions, which is zero, for the number of sub meshes. (`mats` is any reader of the materials that does not change the file.)
* `c52_softskin_violation`: Is false of soft skin meshes, every one of them: nothing but (at most) the positions and normals of a saved mesh is loaded again. The chunk with the weights, normals, nodes and boxes is saved with the type of the header.

## C53: The model script tokenizer terminates on every input

* `c53_comment_violation`: A comment in the last line of a text, without an end of line, is read forever.
* `c53_slash_violation`: So is a single slash at the end of the last line, although the line is ended.
* `c53_string_violation`: A string without a closing quotation mark in a last line without an end is read forever.
* `c53_keyword_violation`: A text that ends with a letter, or another character a keyword may start with, is never read to its end: the last character is a token again and again.
* `c53_number_violation`: And one that ends with a digit.
* `c53_block_violation`: The block of an `aniComb` or `aniBlend` that is not closed is skipped forever, even in a text of whole lines.

## C54: A saved game can always be loaded

* `c54_thumbnail_violation`: A game without a thumbnail cannot be loaded after it has been saved: an empty THUMB.SAV is written, and loading a texture from it throws.
* `c54_no_value_violation`: In Gothic 1, saving a state with a symbol that has no values is undefined behaviour.
* `c54_values_violation`: In Gothic 1, all values of a symbol but the first are lost: what is saved does not depend on them.
* `c54_guild_violation`: Games with different attitudes of the guilds have the same file: a value below 16 behind a greater one gets its second digit (C17).
* `c54_again_violation`: Loading again appends the missions, and the values of symbols, to those that are there.
* `c54_alias_violation`: If the path is written differently but denotes the directory of the loaded game, all the other worlds are lost.
* `c54_own_world_violation`: A new game saved with a world that its metadata does not name has no world of its own when it is loaded.

## C55: Saving a game is crash safe

* `c55_removed_violation`: Saving over an existing game, with another game loaded, begins by removing it: if the process stops then, neither the old game nor the new one is there.
* `c55_in_place_violation`: Saving the game at the path it was loaded from begins by emptying SAVEINFO.SAV: if the process stops then, the game cannot be loaded.

## C56: Axis aligned box of an oriented box contains it

* `c56_violation`: Is false of every box that lies at negative coordinates in some direction: its upper bound is `FLT_MIN` there.

## C58: A damaged block of a compressed file does not affect other blocks

* `c58_damaged_block_violation`: A damaged block does affect reads of undamaged blocks: block 0 is `[1, 2]`, block 1 is damaged. Reading block 0, then failing on block 1, then reading block 0 again gives other bytes than before.
* `c58_bounds_violation`: Violation — the memory of the cache: the last block, which is short, is damaged. Reading the first block again after having failed on it copies from behind the end of the cache.

## C59: A finished archive file can be opened and read

* `c59_first_size_violation`: When the first object takes 266 bytes, its first byte is taken for a line break behind the header.
* `c59_longer_date_violation`: When the date grows by a digit between opening and finishing the archive, the final header overwrites the beginning of the content.
* `c59_ascii_longer_date_violation`: When the date grows by a digit between opening and finishing the archive, the final header overwrites the beginning of the content.

## C60: Skipping an object of an ASCII archive terminates and balances

* `c60_ascii_skip_hang_violation`: Inside of an object, at the end of the file, skipping never ends, however many rounds it is given.
* `c60_ascii_truncated_violation`: Skipping an object whose end is missing in the file does not return.

## C63: Compressed disk archive round trip

* `c63_empty_file_violation`: Violated: an empty file of a compressed archive has contents after mounting: everything from there to the end of the archive.
* `c63_empty_audio_violation`: Violated: an empty audio file at the end of a compressed archive is gone after mounting.

## C64: No script can cause undefined behaviour through an operator

* `c64_operator_violation`: The claim that no script has undefined behaviour is false: every operator has undefined behaviour for every pair of operands for which C++ leaves its result undefined, except that division by zero raises.
* `c64_script_violation`: A concrete script: a function that evaluates `-2147483648 / -1`.
* `c64_function_violation`: Using a function with parameters as a number reads through a null pointer.
* `c64_underflow_violation`: A script can write outside of the stack: a call with too few arguments moves the stack pointer below zero.

## C65: A recursive call gets its arguments

* `c65_arguments_violation`: A function with two parameters and one local that calls itself with the arguments 7 and 8 finds the arguments 7 and 7.

## C66: Function values and the classes of instances are resolved

* `c66_cycle_violation`: Where the variables never lead to a function the machine never calls the callback. For every script.
* `c66_uninit_violation`: `load` leaves a variable of type function without a value; passing it on reads that.
* `c66_orphan_violation`: If an instance descends from no class, `allocate_instance` dereferences null.
* `c66_class_cycle_violation`: If the chain of parents is a cycle, both do not return.

## C67: Symbols are found by name, index and address

* `c67_name_violation`: A name with lower case letters is not found, not even in its own spelling.
* `c67_reload_violation`: Loading a second file into the same script keeps the names of the first: they find symbols that have other names.

## C68: A loaded script says what the file says

* `c68_load_violation`: Not every well-formed file: a constant string with the parent 32 takes the bytes of the next symbol for its parent, and the next symbol is lost.
* `c68_function_array_violation`: A function variable of two elements: the loader makes room for one, so reading the second is undefined.
* `c68_function_variable_violation`: A function variable has no value before a script assigns one.

## C69: Calls from the host leave the machine as it was

* `c69_refused_violation`: When an argument is refused, the ones before it stay on the stack. For every function and every call.
* `c69_exception_violation`: An exception out of the script leaves the arguments and the call on the stacks, and the position where it happened.
* `c69_init_violation`: After an exception the instance stays the current one and the value of `SELF`.
* `c69_func_violation`: A call for a `DaedalusFunction` does not return a value, whenever the script returns.
* `c69_ignore_violation`: Ignoring a text keeps its place in use. After 243 such calls every further text is lost: the next call returns another one.

## C70: Instances have the class that was registered

* `c70_unregistered_violation`: For every class without a registered member, `allocate_instance` and `init_instance` dereference null instead of refusing it.
* `c70_opaque_violation`: Creating an opaque instance of a class that was not registered as opaque writes outside of its storage, whenever an object of a member does not fit where the script file says. For every such class.

## C71: as_rgba8 shows the pixels of the level

* `c71_palette_violation`: Is false of paletted textures: reading one as RGBA writes outside of the buffer, whatever the image.
* `c71_narrow_violation`: Is false of the lower levels of images that are not square: a level of 2 by 1 pixels is followed by one of 1 by 1, which `as_rgba8` shows as nothing.
* `c71_white_violation`: Is false of R5G6B5 white: its green channel is 254.

## C72: BSP loading stays inside the polygon list

* `c72_violation`: Is false of every leaf with polygons whose range goes beyond the list.
* `c72_file_violation`: The same through the public interface: a single leaf with one polygon, and no polygons.

## C73: Mesh geometry round trip

* `c73_g2_bounds_violation`: Saving a mesh that has not been triangulated for Gothic 2 reads out of bounds.
* `c73_g2_violation`: Fails for Gothic 2: the corners of the triangles are saved in place of those of the polygons. A quad with the corners 0, 1, 2, 3 comes back with the corners 0, 1, 2, 0.
* `c73_g1_violation`: Fails for Gothic 1 meshes with more than 65536 vertices: indices are cut off.
* `c73_reuse_violation`: Fails for objects that are loaded twice: the corners are added to the old ones, while the polygons refer to the first ones.

## C74: Memory owned by files of the virtual file system

* `c74_assign_violation`: The rest of the claim fails: a descriptor that is assigned takes the other's memory without counting it, so the memory is freed while a descriptor still refers to it, and the destruction of that descriptor is undefined; the memory it had before is never freed.
* `c74_reader_violation`: The rest of the claim fails: a reader of a file does not keep its memory; reading after the file was removed is undefined.

## C75: Model scripts are read as they are written

* `c75_brace_violation`: The rest of the claim fails: the events of an animation without braces take the brace that closes the list. The list then goes on, a mesh registered behind it is skipped as an unknown keyword of the list, and no error is reported.
* `c75_case_violation`: The rest of the claim fails: a keyword behind a blend without flags is taken for its flags when it is not written in small letters, though keywords may otherwise be in any letter case; the script is then rejected.
* `c75_frames_violation`: The rest of the claim fails: a space behind the last number of a list of frames repeats that frame, and an empty list of frames gives the frame 0.
* `c75_paren_violation`: The rest of the claim fails: a string that ends with a closing parenthesis loses it.

## C76: Objects of the game keep their members through an archive

* `c76_anim_mode_violation`: In Gothic 2, an object with a name and without a preset gets the animation mode 2, whatever it had.
* `c76_anim_mode_lost_violation`: In Gothic 2, the animation mode of an object without name and preset is forgotten.
* `c76_bias_violation`: In Gothic 2, the bias of a loaded object is 16 if it was odd, and 0 if not.
* `c76_ambient_violation`: In Gothic 2, an object whose bias has bit 1 becomes ambient.
* `c76_g1_physics_violation`: The object that `VirtualObject()` makes cannot be read again from a saved game of Gothic 1: it has physics but no rigid body, so that `load` reads what `save` has not written.
* `c76_event_manager_violation`: An event manager that is saved outside a saved game is not read, and what follows is read in its place.
* `c76_unpacked_violation`: An object that is saved with `enable_packed_save(false)` cannot be read: `load` always reads two objects, and `save` writes the names again.
* `c76_visual_name_violation`: The name of a visual that is not of a known type is read into `visual_name`, but the next `save` takes the name from the default visual: it is lost.
* `c76_trigger_flags_violation`: The flags of a trigger that are members of their own are not saved, only the bits are.
* `c76_frame_pose_violation`: The matrix of a camera frame is transposed.
* `c76_camera_count_violation`: A camera whose counts say more frames than it has is saved with undefined behaviour.
* `c76_npc_packed_violation`: Of the packed strings of a character, Gothic 2 keeps the first.
* `c76_synchronized_violation`: `CutsceneAtomicBlock::synchronized` is not saved.
* `c76_trigger_list_violation`: A trigger list with 256 targets, or 512 and so on, loses all of them, and their entries are left behind.
* `c76_empty_symbol_violation`: Gothic 1 saves the first value of a symbol without asking whether there is one.
* `c76_code_master_violation`: A code master in a saved game of Gothic 2 cannot be read: `load` reads a byte that `save` does not write.

## C77: Callbacks of the host are called as they are typed

* `c77_function_violation`: An external that returns a function cannot be registered, neither as a function nor as its index. For every one.
* `c77_view_violation`: The text a callback gets is gone as soon as it pushes another: it then reads that one. For every text.
* `c77_class_violation`: An instance that was not created by the machine has no class; passing it for a parameter of a class dereferences null.

## C78: Enumeration of the instances of a class

* `c78_complete_violation`: Instances of a prototype of a prototype are left out, and so are instances in front of their prototype.

## C79: Lights and materials keep their members through an archive

* `c79_alpha_violation`: In a BINARY archive every `alpha_func` other than 0 becomes 1, such as `BLEND` (2) becomes `NONE` (1): nothing tells the files of the two materials apart.
* `c79_g2_binsafe_violation`: No material of Gothic 2 that was saved to a BINSAFE archive can be loaded: `load` asks for an enumeration where `save` has written a truth value.
* `c79_g2_ascii_violation`: Nor one that was saved to an ASCII archive. Values as in C17.
* `c79_alpha_g1_violation`: In Gothic 1, a loaded material has `alpha_func` `DEFAULT`, while a new one has `NONE`.
* `c79_infinite_violation`: Infinity is not read back, and the number behind it is not read at all.
* `c79_colors_violation`: The list of colours begins with the factors for the range, which become greys. Here all factors are whole numbers of at most six digits.
* `c79_colors_lost_violation`: Of the colours of a light with the factors 0.5 and 0.25 none comes back: there are two others.
* `c79_uninitialised_violation`: Loading a light with the single factor 0.5 uses a variable that has no value: undefined behaviour, from a light that was saved by `save`.
* `c79_precision_violation`: Six digits do not suffice for 1/3.
* `c79_reload_violation`: Loading into a light that already has an animation adds to it.
* `c79_bad_text_violation`: A text of one opening bracket is enough for that.

## C80: Parameters and local variables of a function

* `c80_parameters_violation`: A function at the end of the table that declares parameters.
* `c80_locals_violation`: Local variables at the end of the table are not found: whatever they are, the result is empty.

## C83: Model meshes are loaded completely and can be saved

* `c83_save_violation`: Is false of saved model meshes without attachments, every one of them: the chunk of the attachments is written nevertheless, and the loader accesses a name that does not exist.

## C84: Morph meshes are loaded completely

* `c84_again_violation`: Is false of objects that already hold animations: they are kept, so that loading a file twice gives every animation twice.

## C85: Animations are loaded completely

* `c85_empty_violation`: Is false of events with an empty string: the line end of the empty line is skipped together with the line before it, and everything behind it is misread.

## C86: Damaged files do no harm

* `c86_modelmesh_violation`: Is false of model meshes: a file with an attachment for which it has no name.
* `c86_lightmap_violation`: Is false of meshes: the index of the image of a light map is not checked.
* `c86_materials_violation`: Is false of meshes: the archive of the materials may be a BINSAFE archive with a table that is not checked.
* `c86_msb_violation`: Is false of compiled model scripts that begin with an event: for the two kinds of events without texts, whatever follows. Loading is into a new script.

## C87: Meshes keep their materials

* `c87_ten_violation`: A mesh with ten materials does not get them back. The ten is taken for a line break behind the header of the archive, and the number is read one byte too late.
* `c87_ten_unnamed_violation`: If the first of the ten has no name, the mesh has no materials at all.

## C88: Meshes come back with light maps that share their images as before

* `c88_null_violation`: Fails for light maps without an image, which a program can make: saving follows the null pointer.
* `c88_index_violation`: A number that is too large is not rejected, the vector of the images is accessed out of bounds.
* `c88_reload_violation`: Fails for an object that has light maps: those of the file are added to them, while the polygons of the file mean the first ones.

## C89: Worlds of saved games come back

* `c89_g2_binary_violation`: Is false of saved games of Gothic 2 with other flags: they are loaded as 1.
* `c89_g2_binsafe_violation`: Is false of saved games of Gothic 2 in BINSAFE archives: every such world can be saved, and cannot be loaded.
* `c89_g2_ascii_violation`: Is false of saved games of Gothic 2 in ASCII archives: every such world can be saved, and cannot be loaded.

## C90: Worlds with their mesh

* `c90_truncated_violation`: Is false of damaged files: if the file ends behind any number of chunks of the mesh, loading never returns, whatever the fuel.

## C91: Members of script classes are bound to fields

* `c91_failed_call_violation`: A call that fails because of the type binds the script class all the same: the right C++ class is turned away afterwards.
* `c91_member_parent_violation`: A script in which a member belongs to another member: registering the one makes the other readable, at an offset that was never set.
* `c91_second_base_violation`: `struct C : Other, DaedalusInstance { int32_t a; int32_t pad[3]; int32_t b; }` with 16 bytes in `Other`: the registered address counts from the start of the object, `data()` from its `DaedalusInstance`. A script that reads `a` gets `b`.

## C93: Compiled model scripts say the same as their sources

* `c93_order_violation`: The rest of the claim fails: an event before the first animation is written behind the end of the list of animations.
* `c93_reload_violation`: The rest of the claim fails: if a script that has animations is filled again, the events of the file are added to the animations that were there.
* `c93_hang_violation`: The rest of the claim fails: frames that are not numbers make the reader run forever; the text form of the same event is read with the frame 0.
* `c93_confined_violation`: The rest of the claim fails: an event whose argument is missing takes the header of the next chunk for it.
* `c93_forms_violation`: The rest of the claim fails: the two forms of an event that removes an item from a slot differ; the text form loses the slot. And only the text form can mark an event as attached.

## C94: Textures converted to DDS files show the same image

* `c94_colours_violation`: Is false of the colours of these formats: a red pixel (with some blue) has other colours in the file than those `as_rgba8` gives, in each of the six formats.
* `c94_palette_violation`: Is false of paletted images: the header of none of them says that a pixel is a byte (the number of bits is zero), so that the file cannot be read.
* `c94_blocks_violation`: Is false of images in blocks whose sides are not whole blocks: five by five pixels are four blocks, but the file declares the bytes of one.

## C95: The kind of stream does not matter

* `c95_nul_violation`: Behind a line that is followed by a NUL at the end, a file is left in front of that NUL, but memory behind it.
* `c95_failed_violation`: A C++ stream that has run into its end gives only zeroes from then on, wherever one seeks, although there are bytes. Memory and files do not.
* `c95_chunks_violation`: A loader of chunks that does not know about a last chunk never returns when it reads from a file or from a C++ stream, for every content and from every position: moving to the end of a chunk makes the stream forget that it has ended.
* `c95_animation_violation`: `ModelAnimation::load` goes on forever on every file and on every C++ stream, with every content. On memory it is the loader of C85, and loads what was written.
* `c95_write_failed_violation`: Nothing that is written to a C++ stream that has failed, such as one over a file that could not be opened, arrives, and `write` says each time that all of it did.
* `c95_write_hole_violation`: A string stream does not. Bytes that are written behind its end are lost, and so is all that follows.

## C96: The time of a disk survives saving and mounting

* `c96_zone_violation`: Violated: a computer whose clock is `off` seconds ahead of UTC reads the time of a disk wrong by `off`.
* `c96_second_violation`: Violated: two disks that were saved one second apart can not be told apart.
* `c96_outside_violation`: Violated: no other time ever comes back; what comes back lies between 1980 and 2107.
* `c96_default_violation`: Violated: the time of a new Vfs, one second in front of 1970, comes back as the last day of 2097.

## C97: Mounting a directory of the host shows its files

* `c97_empty_violation`: Violated: a file without content is left out.
* `c97_case_violation`: Violated: of two files whose names are the same but for their case only the one that is visited last is kept.
* `c97_time_violation`: Violated with libstdc++: `OLDER` never replaces a file by a newer one of the host, because the times of the host are counted from another epoch and are negative.
* `c97_missing_violation`: Violated: a mount point that does not exist is not reported when there is nothing to mount.
* `c97_file_violation`: Violated: a single file can not be mounted, and a path that does not exist is reported by an exception that is not documented. The Vfs stays as it is.

## C98: Cutscene libraries answer for a name with its message

* `c98_null_violation`: Is false for a block whose inner block is null: `set_message` says nothing and the message is lost.
* `c98_no_atomic_violation`: A block without an atomic block is dereferenced.
* `c98_cycle_violation`: There are files that can be loaded without an exception, with a block whose message cannot be asked for: the loop does not end.
* `c98_reuse_violation`: Is false for a library that is loaded into an object that has blocks already: they stay.
* `c98_negative_violation`: A negative number of blocks is not a `ParserError`.

## C99: Damaged archives do no harm

* `c99_block_violation`: Is false of cutscene blocks: a block without content makes `load` use a null pointer.
* `c99_cutscene_violation`: Is false of cutscenes and of cutscene contexts, which are read as blocks first.
* `c99_npc_violation`: Is false of people: `load` asks the null object in the pockets for its flags.
* `c99_light_violation`: Is false of lights: a colour that is not a number has components that were never set.
* `c99_table_violation`: Is false of BINSAFE archives: an index of the table in the file is not checked.
* `c99_hang_violation`: Is false of ASCII archives: the end of an object that does not end is searched forever.
* `c99_color_violation`: Is false of ASCII archives: a colour that is not complete has components that were never set.
