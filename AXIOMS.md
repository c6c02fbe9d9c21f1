# Axioms of the theorems in MANIFEST.json

Output of `#print axioms` for every theorem, grouped. Names are relative to `Verif.Props`.

## no axioms (20)

`c02_wrap_violation`, `c04_negative_seek_violation`, `c06_trailing_nul_violation`, `c08_backward_handler_violation`, `c104_font_violation`, `c115_binsafe_violation`, `c119_violation`, `c120_violation`, `c18_total`, `c19_unknown_type_violation`, `c48_null_violation`, `c50_font_empty_violation`, `c50_font_blank_violation`, `c68_escape`, `c76_empty_symbol_violation`, `c85_empty_violation`, `c95_nul_violation`, `c95_failed_violation`, `c95_write_failed_violation`, `c99_table_violation`

## [propext] (83)

`c02_far_violation`, `c10_line_break_violation`, `c104_materials_violation`, `c108_texture`, `c110_directory_violation`, `c110_stat_violation`, `c117_animation_violation`, `c118_vec2`, `c118_vec3`, `c118_vec4`, `c118_color`, `c118_transpose3`, `c118_transpose4`, `c120_color`, `c121_mul`, `c121_scale`, `c121_laws`, `c14_skip_string_violation`, `c16_ascii_raw_violation`, `c17_float_violation`, `c17_float_below_16_violation`, `c17_string_violation`, `c18_round_trip`, `c18_injective`, `c18_load_save`, `c18_names`, `c18_vobject`, `c19_sharing`, `c19_address_reuse_violation`, `c22_trailing_whitespace_violation`, `c24_mkdir_violation`, `c25_none_keeps`, `c25_all_takes`, `c25_file_conflict`, `c34_lenient`, `c37_failed_write`, `c37_instance`, `c38_set_raises`, `c38_ignored`, `c40_reuse_violation`, `c40_blocks_violation`, `c45_violation`, `c45_bounds_violation`, `c47_loop_violation`, `c47_null_violation`, `c48_shared_violation`, `c48_binsafe_drop_violation`, `c51_violation`, `c51_unsorted_violation`, `c58_damaged_block_violation`, `c58_bounds_violation`, `c59_first_size_violation`, `c59_longer_date_violation`, `c59_ascii_longer_date_violation`, `c60_ascii_truncated_violation`, `c66_unique`, `c66_cycle_witness`, `c66_uninit_violation`, `c68_escape_unique`, `c74_assign_violation`, `c74_reader_violation`, `c76_synchronized_violation`, `c79_alpha_g1_violation`, `c79_infinite_violation`, `c79_colors_lost_violation`, `c79_uninitialised_violation`, `c79_precision_violation`, `c79_reload_violation`, `c79_bad_text_violation`, `c86_materials_violation`, `c87_reload_g2`, `c87_reload_length`, `c87_foreign`, `c91_failed_call_violation`, `c91_member_parent_violation`, `c91_second_base_violation`, `c95_chunk_model`, `c97_empty_violation`, `c97_missing_violation`, `c97_file_violation`, `c98_null_violation`, `c98_no_atomic_violation`, `c98_negative_violation`

## [propext, Quot.sound] (219)

`c03_short_read`, `c03_short_scalar`, `c03_short_eof`, `c06_line_round_trip`, `c100_external`, `c100_default`, `c100_lenient`, `c100_loaded`, `c102_complete`, `c102_safe_partial`, `c102_report_partial`, `c102_unchanged`, `c102_handler`, `c102_hidden_violation`, `c102_function_violation`, `c102_member_violation`, `c103_parameters_partial`, `c103_numbers_violation`, `c103_parameters_violation`, `c104_bsp_violation`, `c104_bsp_empty_violation`, `c105_empty_violation`, `c106_function_violation`, `c107_sum_violation`, `c108_texture_violation`, `c108_texture_bounds_violation`, `c109_called`, `c109_plain`, `c109_elements_violation`, `c109_context_violation`, `c110_kept`, `c110_half_violation`, `c111_once`, `c111_more`, `c111_loop_violation`, `c111_recursion_violation`, `c112_once`, `c112_circle_violation`, `c114_look`, `c114_look_same`, `c114_size`, `c114_before`, `c114_during_partial`, `c114_looking_partial`, `c114_end_violation`, `c115_texture`, `c115_modelscript_violation`, `c116_remove`, `c116_undo`, `c116_order`, `c116_defined`, `c117_mesh_violation`, `c118_quat_partial`, `c118_quat_violation`, `c118_pointer`, `c118_identity`, `c119_texture`, `c120_equivalence`, `c121_exact`, `c121_violation`, `c122_only`, `c122_test`, `c122_union`, `c122_limits`, `c13_hash`, `c23_resolve_violation`, `c27_empty_dir_violation`, `c28_wrap_violation`, `c28_zipped_violation`, `c29_bad_signature`, `c30_length`, `c31_defined`, `c33_frame`, `c33_depth`, `c33_below_violation`, `c33_void_violation`, `c34_leak_violation`, `c34_resume_violation`, `c34_calls_partial`, `c34_lenient_result`, `c35_parameters_violation`, `c37_read_back_partial`, `c37_other_index_partial`, `c37_other_symbol`, `c37_index`, `c37_type`, `c37_member_writable`, `c37_global_writable`, `c37_float_violation`, `c38_execution_partial`, `c38_instruction_partial`, `c38_default_host_partial`, `c38_mov_raises`, `c38_movf_raises`, `c38_movs_raises`, `c38_assign_raises`, `c38_instance_violation`, `c39_layout_partial`, `c39_script_partial`, `c39_instance_partial`, `c39_elements_partial`, `c39_violation`, `c40_empty_violation`, `c41_argb_violation`, `c41_bgra_violation`, `c41_565_violation`, `c41_dxt_violation`, `c41_565_colour_violation`, `c42_violation`, `c42_order`, `c43_empty_violation`, `c43_reuse_violation`, `c44_partial`, `c44_file_violation`, `c45_partial`, `c45_in_step`, `c51_null_violation`, `c53_comment_violation`, `c53_slash_violation`, `c53_string_violation`, `c53_keyword_violation`, `c53_number_violation`, `c54_values_violation`, `c54_guild_violation`, `c55_others_partial`, `c55_other_games_partial`, `c55_removed_violation`, `c56_min`, `c56_max_partial`, `c56_violation`, `c57_calls`, `c57_silent`, `c60_ascii_skip_hang_violation`, `c63_empty_file_violation`, `c63_empty_audio_violation`, `c64_script_violation`, `c64_function_violation`, `c64_underflow_violation`, `c65_arguments_violation`, `c66_class`, `c66_orphan_violation`, `c66_opaque_orphan`, `c66_class_cycle_violation`, `c67_name_violation`, `c67_reload_violation`, `c68_load_violation`, `c68_function_array_violation`, `c68_function_variable_violation`, `c69_checked`, `c69_init`, `c69_exception_violation`, `c69_init_violation`, `c69_func_violation`, `c69_ignore_violation`, `c70_allocate_partial`, `c70_wrong`, `c70_unregistered_violation`, `c70_opaque_violation`, `c70_registered_example`, `c71_palette_violation`, `c71_narrow_violation`, `c71_white_violation`, `c72_partial`, `c72_violation`, `c72_file_violation`, `c73_g2_bounds_violation`, `c75_brace_violation`, `c75_case_violation`, `c75_frames_violation`, `c75_paren_violation`, `c76_g1_physics_violation`, `c76_event_manager_violation`, `c76_unpacked_violation`, `c76_visual_name_violation`, `c76_camera_count_violation`, `c76_code_master_violation`, `c76_code_master_game_partial`, `c76_screen_effect_game`, `c77_registered`, `c77_function_violation`, `c78_complete_violation`, `c79_material_binary`, `c79_alpha_violation`, `c80_parameters_partial`, `c80_parameters_violation`, `c80_locals_violation`, `c86_texture`, `c86_lightmap_violation`, `c92_names`, `c92_fields`, `c92_members`, `c92_elements`, `c93_known_types`, `c93_order_violation`, `c93_reload_violation`, `c93_hang_violation`, `c93_confined_violation`, `c93_forms_violation`, `c94_missing_levels`, `c95_file_partial`, `c95_stream_partial`, `c95_sequential`, `c95_texture`, `c95_chunks_violation`, `c95_write_file_partial`, `c95_write_stream_partial`, `c95_write_hole_partial`, `c95_write_hole_violation`, `c96_default_violation`, `c96_zero`, `c98_get`, `c98_set`, `c98_cycle_violation`, `c99_block_violation`, `c99_cutscene_violation`, `c99_npc_violation`, `c99_light_violation`, `c99_hang_violation`, `c99_color_violation`

## [propext, Classical.choice, Quot.sound] (369)

`c01_scalar_round_trip`, `c02_reader_refines_cursor`, `c02_position_in_bounds`, `c02_model_agrees`, `c04_growing_writer_is_file`, `c05_fixed_writer`, `c06_line_skipws_partial`, `c07_chunk_framing`, `c08_chunk_loop_terminates`, `c09_zipped_transparent`, `c10_binary_round_trip`, `c10_enum_truncated`, `c10_binary_skip`, `c100_memory`, `c100_script`, `c101_mrm`, `c101_softskin`, `c101_modelmesh`, `c101_morph`, `c101_animation`, `c101_hierarchy`, `c101_model`, `c101_bsp`, `c101_mesh`, `c103_load`, `c103_run_partial`, `c104_texture`, `c104_obb`, `c104_hierarchy`, `c104_font_partial`, `c104_materials_partial`, `c104_materials_settle`, `c104_bsp_partial`, `c104_mesh_partial`, `c104_mesh_g1_partial`, `c104_mesh_violation`, `c105_merge_partial`, `c105_compress_partial`, `c106_call_partial`, `c106_instance_violation`, `c107_constant`, `c107_float`, `c107_text`, `c107_instance`, `c107_value`, `c107_unary`, `c107_binary_partial`, `c107_operand_violation`, `c107_condition`, `c107_text_value`, `c108_hierarchy`, `c108_hierarchy_partial`, `c108_animation`, `c108_animation_partial`, `c108_animation_violation`, `c108_mesh_partial`, `c108_mesh_violation`, `c108_skin_partial`, `c109_enable`, `c109_locals`, `c109_execution_partial`, `c109_references_partial`, `c11_binsafe_round_trip`, `c11_long_string_truncated`, `c110_mapped`, `c110_gone`, `c110_reader`, `c110_grow`, `c110_files`, `c110_files_partial`, `c111_ends_partial`, `c111_ends_later_partial`, `c111_handler_violation`, `c112_ends_partial`, `c112_cut_violation`, `c113_same`, `c113_again`, `c113_again_zipped_partial`, `c115_font`, `c115_hierarchy`, `c115_animation`, `c115_tree`, `c115_compiled_modelscript`, `c115_modelscript_partial`, `c115_script`, `c115_mesh_partial`, `c115_mrm_partial`, `c115_softskin_partial`, `c115_morph_partial`, `c115_modelmesh_partial`, `c115_model_partial`, `c115_archive_partial`, `c116_undefined`, `c117_hierarchy`, `c117_mesh_partial`, `c117_bsp_partial`, `c117_animation_partial`, `c117_morph_partial`, `c117_bsp_violation`, `c117_softskin_partial`, `c119_font`, `c119_obb`, `c119_line`, `c12_binsafe_type_confusion_partial`, `c12_bbox_as_vec2_violation`, `c120_vec2`, `c120_vec3`, `c120_vec4`, `c120_quat`, `c120_mat3`, `c120_mat4`, `c122_letter`, `c122_same`, `c122_append`, `c13_key_table`, `c13_binsafe_file_round_trip`, `c14_skip_terminates`, `c14_skip_exact_partial`, `c15_ascii_int_partial`, `c15_ascii_int_violation`, `c16_ascii_raw_damage`, `c16_ascii_raw_partial`, `c16_ascii_raw_long_violation`, `c17_ascii_round_trip_partial`, `c17_byte_word_mat3_violation`, `c19_binary`, `c19_binsafe`, `c19_ascii_partial`, `c20_strict_weak_order`, `c20_incomparable_trans`, `c21_reachable`, `c22_create`, `c22_remove`, `c23_resolve_partial`, `c24_mkdir_partial`, `c25_mount`, `c26_disk_roundtrip`, `c27_empty_hang_violation`, `c27_no_empty_dirs_partial`, `c28_ranges_partial`, `c28_no_wrap_partial`, `c30_roundtrip`, `c30_program`, `c31_history`, `c32_binary`, `c32_unary`, `c32_zero`, `c33_stack_partial`, `c34_lenient_division`, `c35_locals_partial`, `c36_history_partial`, `c36_pair_partial`, `c36_full_violation`, `c36_violation`, `c40_round_trip_partial`, `c40_power_of_two`, `c40_foreign`, `c41_partial`, `c41_opaque_partial`, `c41_565_shown_partial`, `c42_single_partial`, `c43_round_trip`, `c44_violation`, `c44_tree`, `c46_kept`, `c46_g2_partial`, `c46_g1_partial`, `c46_axis_violation`, `c47_binary_partial`, `c47_binsafe_partial`, `c47_ascii_partial`, `c48_binary`, `c48_binsafe`, `c48_ascii`, `c48_binary_drop`, `c48_binsafe_drop_partial`, `c48_ascii_drop`, `c49_round_trip`, `c49_load_terminates`, `c49_many_children_violation`, `c50_hierarchy`, `c50_font_partial`, `c51_partial`, `c51_absent`, `c51_load_sorts`, `c51_loaded_partial`, `c52_mrm_violation`, `c52_softskin_violation`, `c52_mrm_content_partial`, `c52_softskin_content_partial`, `c53_tokens_partial`, `c53_next_partial`, `c53_block_violation`, `c54_load_partial`, `c54_world_partial`, `c54_worlds_partial`, `c54_thumbnail_violation`, `c54_no_value_violation`, `c54_again_violation`, `c54_alias_violation`, `c54_own_world_violation`, `c55_in_place_violation`, `c58_blocks_partial`, `c58_reads_partial`, `c59_binary_file_partial`, `c59_ascii_file_partial`, `c60_ascii_skip`, `c61_remove`, `c62_find`, `c63_compressed_roundtrip_partial`, `c64_operator_violation`, `c64_operator_partial`, `c65_arguments_partial`, `c66_function_partial`, `c66_cycle_violation`, `c67_name_partial`, `c67_distinct_partial`, `c67_address`, `c67_index`, `c68_load_partial`, `c68_recover`, `c69_args_partial`, `c69_call`, `c69_refused_violation`, `c71_bytes_partial`, `c71_4444_partial`, `c71_565_partial`, `c73_g1_partial`, `c73_g2_partial`, `c73_g2_violation`, `c73_g1_violation`, `c73_reuse_violation`, `c74_owners_partial`, `c75_script_partial`, `c75_not_model`, `c75_integer`, `c76_binary_partial`, `c76_binsafe_partial`, `c76_ascii_partial`, `c76_vobject`, `c76_vobject_g2_partial`, `c76_class_partial`, `c76_save_state_partial`, `c76_anim_mode_violation`, `c76_anim_mode_lost_violation`, `c76_bias_violation`, `c76_ambient_violation`, `c76_trigger_flags_violation`, `c76_frame_pose_violation`, `c76_npc_packed_violation`, `c76_trigger_list_violation`, `c76_visual_kind`, `c77_args_partial`, `c77_call_partial`, `c77_host`, `c77_view_violation`, `c77_class_violation`, `c78_sound`, `c78_complete_partial`, `c79_material_g1`, `c79_material_g2_binary_partial`, `c79_static_light_partial`, `c79_light_partial`, `c79_ranges_partial`, `c79_ranges_end`, `c79_colors_end`, `c79_g2_binsafe_violation`, `c79_g2_ascii_violation`, `c79_colors_violation`, `c80_locals_partial`, `c81_load`, `c82_load`, `c83_load`, `c83_model`, `c83_save_violation`, `c84_load`, `c84_again_violation`, `c85_load`, `c86_mrm`, `c86_softskin`, `c86_morph`, `c86_animation`, `c86_hierarchy`, `c86_font`, `c86_mrm_file_partial`, `c86_softskin_file_partial`, `c86_morph_file_partial`, `c86_mesh_partial`, `c86_modelmesh_violation`, `c86_msb_partial`, `c86_msb_loads_partial`, `c86_msb_violation`, `c87_parts_partial`, `c87_mesh_partial`, `c87_mesh_reload_partial`, `c87_ten_violation`, `c87_ten_unnamed_violation`, `c87_load`, `c87_mrm`, `c88_partial`, `c88_shared`, `c88_own`, `c88_null_violation`, `c88_index_violation`, `c88_reload_violation`, `c89_binary`, `c89_binsafe`, `c89_ascii`, `c89_g2_binary`, `c89_g2_binary_partial`, `c89_g2_binary_violation`, `c89_g2_binsafe_violation`, `c89_g2_ascii_violation`, `c90_section`, `c90_binary_partial`, `c90_binsafe_partial`, `c90_ascii_partial`, `c90_truncated_violation`, `c91_history_partial`, `c91_accepts_partial`, `c91_read_partial`, `c91_write_partial`, `c91_defined_partial`, `c91_defined_write_partial`, `c91_apart_partial`, `c91_one_class_partial`, `c92_read`, `c92_write`, `c92_apart`, `c92_success`, `c93_dispatch`, `c93_load_partial`, `c93_recognised_partial`, `c93_same_partial`, `c94_file_partial`, `c94_header`, `c94_compressed`, `c94_4444`, `c94_565`, `c94_1555`, `c94_bytes_partial`, `c94_palette_partial`, `c94_colours_violation`, `c94_palette_violation`, `c94_blocks_violation`, `c95_line_file_partial`, `c95_line_stream_partial`, `c95_animation_violation`, `c96_calendar`, `c96_utc_partial`, `c96_zone_violation`, `c96_order_partial`, `c96_second_violation`, `c96_outside_violation`, `c96_disk`, `c97_mount_partial`, `c97_tree_partial`, `c97_case_violation`, `c97_time_violation`, `c97_missing_partial`, `c98_binary_partial`, `c98_binsafe_partial`, `c98_ascii_partial`, `c98_reuse_violation`, `c99_binary_partial`, `c99_binsafe_partial`, `c99_ascii_partial`, `c99_open_partial`, `c99_file_partial`
