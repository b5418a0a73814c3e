# Axioms of the property theorems

Generated by `tools/axioms.py` from `#print axioms`.

| property | theorem | axioms |
|---|---|---|
| C01 | `IP.C01_contains_iff_subset` | propext, Classical.choice, Quot.sound |
| C02 | `IP.C02_lt_order` | propext, Classical.choice, Quot.sound |
| C02 | `IP.C02_trichotomy_partial` | propext, Classical.choice, Quot.sound |
| C02 | `IP.C02_trichotomy_fails` | propext, Classical.choice, Quot.sound |
| C02 | `IP.C02_eq_hash` | propext, Classical.choice, Quot.sound |
| C02 | `IP.C02_longest_match` | propext, Classical.choice, Quot.sound |
| C03 | `IP.C03_add_exact` | propext, Classical.choice, Quot.sound |
| C03 | `IP.C03_sub_exact_partial` | propext, Classical.choice, Quot.sound |
| C03 | `IP.C03_sub_fails` | propext, Classical.choice, Quot.sound |
| C03 | `IP.C03_add_sub_partial` | propext, Classical.choice, Quot.sound |
| C04 | `IP.C04_network_bounds` | propext, Classical.choice, Quot.sound |
| C04 | `IP.C04_numhosts` | propext, Classical.choice, Quot.sound |
| C05 | `IP.C05_offset_partial` | propext, Classical.choice, Quot.sound |
| C05 | `IP.C05_offset_fails` | propext, Classical.choice, Quot.sound |
| C06 | `IP.C06_fixed_width` | propext, Classical.choice, Quot.sound |
| C06 | `IP.C06_cidr_roundtrip` | propext, Classical.choice, Quot.sound |
| C06 | `IP.C06_mask_notations` | propext, Classical.choice, Quot.sound |
| C07 | `IP.C07_contains_sound_partial` | propext, Classical.choice, Quot.sound |
| C07 | `IP.C07_contains_complete_partial` | propext, Classical.choice, Quot.sound |
| C07 | `IP.C07_contains_fails` | propext, Classical.choice, Quot.sound |
| C08 | `IP.C08_order` | propext, Classical.choice, Quot.sound |
| C08 | `IP.C08_add_exact` | propext, Classical.choice, Quot.sound |
| C08 | `IP.C08_sub_exact_partial` | propext, Classical.choice, Quot.sound |
| C08 | `IP.C08_sub_fails` | propext |
| C08 | `IP.C08_network_bounds` | propext, Classical.choice, Quot.sound |
| C09 | `Range.C09_expand` | propext, Classical.choice, Quot.sound |
| C10 | `Range.C10_compress_expand` | propext, Classical.choice, Quot.sound |
| C10 | `Range.C10_text_compress_expand` | propext, Classical.choice, Quot.sound |
| C10 | `Range.C10_compress_canonical` | propext, Classical.choice, Quot.sound |
| C11 | `Range.C11_as_list_pure_partial` | propext, Classical.choice, Quot.sound |
| C11 | `Range.C11_as_list_doubles_fails` | propext, Quot.sound |
| C12 | `Range.C12_append` | propext, Quot.sound |
| C12 | `Range.C12_remove` | propext, Quot.sound |
| C12 | `Range.C12_remove_append` | propext, Classical.choice, Quot.sound |
| C12 | `Range.C12_history` | propext, Quot.sound |
| C13 | `Range.C13_add_union` | propext, Classical.choice, Quot.sound |
| C13 | `Range.C13_sub_difference_partial` | propext, Classical.choice, Quot.sound |
| C13 | `Range.C13_sub_self_fails` | propext, Classical.choice, Quot.sound |
| C14 | `Intf.C14_name` | propext, Classical.choice, Quot.sound |
| C14 | `Intf.C14_parse` | propext, Classical.choice, Quot.sound |
| C14 | `Intf.C14_valid` | propext, Classical.choice, Quot.sound |
| C14 | `Intf.C14_normal` | propext, Classical.choice, Quot.sound |
| C14 | `Intf.C14_injective` | propext, Classical.choice, Quot.sound |
| C14 | `Intf.C14_copy` | propext, Classical.choice, Quot.sound |
| C15 | `Intf.C15_eq` | propext |
| C15 | `Intf.C15_eq_equivalence` | propext |
| C15 | `Intf.C15_eq_text` | propext, Classical.choice, Quot.sound |
| C15 | `Intf.C15_hash` | propext |
| C15 | `Intf.C15_lt` | propext, Classical.choice, Quot.sound |
| C15 | `Intf.C15_gt` | propext |
| C15 | `Intf.C15_strict` | propext, Classical.choice, Quot.sound |
| C15 | `Intf.C15_incomparable` | propext, Classical.choice, Quot.sound |
| C15 | `Intf.C15_total_partial` | propext, Classical.choice, Quot.sound |
| C15 | `Intf.C15_typeError` | propext |
| C15 | `Intf.C15_lt_fails` | propext, Classical.choice, Quot.sound |
| C15 | `Intf.C15_prefix_fails` | propext, Classical.choice, Quot.sound |
| C16 | `Intf.C16_members_partial` | propext, Classical.choice, Quot.sound |
| C16 | `Intf.C16_nothing` | propext, Classical.choice, Quot.sound |
| C16 | `Intf.C16_hyphen_fails` | propext, Classical.choice, Quot.sound |
| C16 | `Intf.C16_channel_fails` | propext, Classical.choice, Quot.sound |
| C16 | `Intf.C16_slot_fails` | propext, Classical.choice, Quot.sound |
| C17 | `Misc.C17_decrypt_type7` | propext, Classical.choice, Quot.sound |
| C17 | `Misc.C17_empty_raises` | propext, Classical.choice, Quot.sound |
| C17 | `Misc.C17_odd` | propext, Quot.sound |
| C18 | `Misc.C18_eq` | propext, Classical.choice, Quot.sound |
| C18 | `Misc.C18_lt` | propext, Classical.choice, Quot.sound |
| C18 | `Misc.C18_gt` | propext, Classical.choice, Quot.sound |
| C18 | `Misc.C18_range_partial` | propext, Classical.choice, Quot.sound |
| C18 | `Misc.C18_range_bounds_fails` | propext, Classical.choice, Quot.sound |
| C18 | `Misc.C18_neq_fails` | propext, Classical.choice, Quot.sound |
| C18 | `Misc.C18_unsupported` | propext, Classical.choice, Quot.sound |
| C18 | `Misc.C18_names` | propext, Classical.choice, Quot.sound |
| C18 | `Misc.C18_table` | propext, Classical.choice, Quot.sound |
| C18 | `Misc.C18_ftp_fails` | propext, Classical.choice, Quot.sound |
| C19 | `Vlan.C19_order_partial` | propext, Classical.choice, Quot.sound |
| C19 | `Vlan.C19_except_partial` | propext, Classical.choice, Quot.sound |
| C19 | `Vlan.C19_kinds` | propext, Classical.choice, Quot.sound |
| C19 | `Vlan.C19_default` | propext, Classical.choice, Quot.sound |
| C19 | `Vlan.C19_not_trunk` | propext, Classical.choice, Quot.sound |
| C19 | `Vlan.C19_return_fails` | propext, Classical.choice, Quot.sound |
| C19 | `Vlan.C19_twice_fails` | propext, Classical.choice, Quot.sound |
| C19 | `Vlan.C19_reset_fails` | propext, Classical.choice, Quot.sound |
| C19 | `Vlan.C19_except_fails` | propext, Classical.choice, Quot.sound |
| C20 | `Conf.C20_texts_partial` | propext, Classical.choice, Quot.sound |
| C20 | `Conf.C20_keep_all` | propext, Classical.choice, Quot.sound |
| C20 | `Conf.C20_no_loss` | propext, Classical.choice, Quot.sound |
| C20 | `Conf.C20_fails` | propext, Classical.choice, Quot.sound |
| C21 | `Conf.C21_parent` | propext, Classical.choice, Quot.sound |
| C21 | `Conf.C21_indent` | propext, Classical.choice, Quot.sound |
| C21 | `Conf.C21_root` | propext, Classical.choice, Quot.sound |
| C22 | `Conf.C22_parent_before` | propext, Classical.choice, Quot.sound |
| C22 | `Conf.C22_root_reached` | propext, Classical.choice, Quot.sound |
| C22 | `Conf.C22_children_after` | propext, Classical.choice, Quot.sound |
| C22 | `Conf.C22_children` | propext, Classical.choice, Quot.sound |
| C22 | `Conf.C22_agree_partial` | propext, Classical.choice, Quot.sound |
| C22 | `Conf.C22_braces_fails` | propext, Classical.choice, Quot.sound |
| C22 | `Conf.C22_banner_fails` | propext, Classical.choice, Quot.sound |
| C22 | `Conf.C22_stale_fails` | propext, Classical.choice, Quot.sound |
| C23 | `Conf.C23_linenum_partial` | propext, Classical.choice, Quot.sound |
| C23 | `Conf.C23_increasing` | propext, Classical.choice, Quot.sound |
| C23 | `Conf.C23_fails` | propext, Classical.choice, Quot.sound |
| C24 | `Conf.C24_no_children` | propext, Classical.choice, Quot.sound |
| C24 | `Conf.C24_never_parent_partial` | propext, Classical.choice, Quot.sound |
| C24 | `Conf.C24_fails` | propext, Classical.choice, Quot.sound |
| C25 | `Conf.C25_parent` | propext, Classical.choice, Quot.sound |
| C25 | `Conf.C25_children_partial` | propext, Classical.choice, Quot.sound |
| C25 | `Conf.C25_kept` | propext, Classical.choice, Quot.sound |
| C25 | `Conf.C25_outside` | propext, Classical.choice, Quot.sound |
| C25 | `Conf.C25_twice_fails` | propext, Classical.choice, Quot.sound |
| C26 | `Conf.C26_parent` | propext, Classical.choice, Quot.sound |
| C26 | `Conf.C26_children` | propext, Classical.choice, Quot.sound |
| C27 | `Conf.C27_succeeds` | propext, Classical.choice, Quot.sound |
| C27 | `Conf.C27_texts_partial` | propext, Classical.choice, Quot.sound |
| C27 | `Conf.C27_stable_partial` | propext, Classical.choice, Quot.sound |
| C27 | `Conf.C27_tree_partial` | propext, Classical.choice, Quot.sound |
| C27 | `Conf.C27_commit_partial` | propext, Classical.choice, Quot.sound |
| C27 | `Conf.C27_fails` | propext, Classical.choice, Quot.sound |
| C27 | `Conf.C27_macro_fails` | propext, Classical.choice, Quot.sound |
| C28 | `Conf.C28_succeeds_iff_partial` | propext, Classical.choice, Quot.sound |
| C28 | `Conf.C28_plain` | propext, Classical.choice, Quot.sound |
| C28 | `Conf.C28_errors` | propext, Classical.choice, Quot.sound |
| C28 | `Conf.C28_brace_fails` | propext, Classical.choice, Quot.sound |
| C28 | `Conf.C28_macro_fails` | propext, Classical.choice, Quot.sound |
| C29 | `Query.C29_find_objects` | propext, Classical.choice, Quot.sound |
| C29 | `Query.C29_find_lines` | propext, Quot.sound |
| C30 | `Query.C30_children` | propext, Classical.choice, Quot.sound |
| C30 | `Query.C30_recurse` | propext, Classical.choice, Quot.sound |
| C30 | `Query.C30_parents_partial` | propext, Classical.choice, Quot.sound |
| C30 | `Query.C30_fails` | propext, Classical.choice, Quot.sound |
| C31 | `Query.C31_partition` | propext |
| C31 | `Query.C31_ordered` | propext, Classical.choice, Quot.sound |
| C32 | `Query.C32_children` | propext, Classical.choice, Quot.sound |
| C32 | `Query.C32_parent_partial` | propext, Classical.choice, Quot.sound |
| C32 | `Query.C32_both_partial` | propext, Classical.choice, Quot.sound |
| C32 | `Query.C32_fails` | propext, Classical.choice, Quot.sound |
| C33 | `Query.C33_all_children` | propext, Classical.choice, Quot.sound |
| C33 | `Query.C33_all_children_exact_partial` | propext, Classical.choice, Quot.sound |
| C33 | `Query.C33_kids` | propext, Classical.choice, Quot.sound |
| C33 | `Query.C33_all_parents_partial` | propext, Classical.choice, Quot.sound |
| C33 | `Query.C33_ancestor_descendant` | propext, Classical.choice, Quot.sound |
| C33 | `Query.C33_agree_partial` | propext, Classical.choice, Quot.sound |
| C33 | `Query.C33_digit_fails` | propext, Classical.choice, Quot.sound |
| C33 | `Query.C33_brace_fails` | propext, Classical.choice, Quot.sound |
| C34 | `Query.C34_contiguous` | propext, Classical.choice, Quot.sound |
| C34 | `Query.C34_endpoint` | propext, Classical.choice, Quot.sound |
| C34 | `Query.C34_family` | propext, Classical.choice, Quot.sound |
| C35 | `Query.C35_rows` | propext, Classical.choice, Quot.sound |
| C35 | `Query.C35_chains_partial` | propext, Classical.choice, Quot.sound |
| C35 | `Query.C35_single_fails` | propext |
| C35 | `Query.C35_short` | propext |
| C35 | `Query.C35_flags_fails` | propext, Classical.choice, Quot.sound |
| C36 | `Query.C36_parents` | none |
| C36 | `Query.C36_children_w_parents` | propext, Classical.choice, Quot.sound |
| C36 | `Query.C36_agree_partial` | propext, Classical.choice, Quot.sound |
| C36 | `Query.C36_fails` | propext, Classical.choice, Quot.sound |
| C37 | `Edit.C37_delete_partial` | propext, Classical.choice, Quot.sound |
| C37 | `Edit.C37_parse_partial` | propext, Classical.choice, Quot.sound |
| C37 | `Edit.C37_single` | propext, Classical.choice, Quot.sound |
| C37 | `Edit.C37_gap_fails` | propext, Classical.choice, Quot.sound |
| C37 | `Edit.C37_stale_fails` | propext, Classical.choice, Quot.sound |
| C37 | `Edit.C37_new_fails` | propext, Classical.choice, Quot.sound |
| C38 | `Edit.C38_delete_lines_partial` | propext, Classical.choice, Quot.sound |
| C38 | `Edit.C38_parse_partial` | propext, Classical.choice, Quot.sound |
| C38 | `Edit.C38_nested_fails` | propext, Classical.choice, Quot.sound |
| C39 | `Edit.C39_line_before` | propext, Classical.choice, Quot.sound |
| C39 | `Edit.C39_line_after_fails` | propext |
| C39 | `Edit.C39_before` | propext, Classical.choice, Quot.sound |
| C39 | `Edit.C39_after` | propext, Classical.choice, Quot.sound |
| C39 | `Edit.C39_insert_before_partial` | propext, Classical.choice, Quot.sound |
| C39 | `Edit.C39_insert_after_partial` | propext, Classical.choice, Quot.sound |
| C39 | `Edit.C39_insert_before_one_partial` | propext, Classical.choice, Quot.sound |
| C39 | `Edit.C39_insert_after_one_partial` | propext, Classical.choice, Quot.sound |
| C39 | `Edit.C39_new_indent` | propext, Classical.choice, Quot.sound |
| C39 | `Edit.C39_twice_fails` | propext, Classical.choice, Quot.sound |
| C39 | `Edit.C39_exact_fails` | propext, Classical.choice, Quot.sound |
| C40 | `Edit.C40_append_partial` | propext, Classical.choice, Quot.sound |
| C40 | `Edit.C40_fails` | propext, Classical.choice, Quot.sound |
| C41 | `Edit.C41_history_partial` | propext, Classical.choice, Quot.sound |
| C41 | `Edit.C41_nodup_partial` | propext, Classical.choice, Quot.sound |
| C41 | `Edit.C41_alias_fails` | propext, Classical.choice, Quot.sound |
| C42 | `Edit.C42_replace_partial` | propext, Classical.choice, Quot.sound |
| C42 | `Edit.C42_blank_fails` | propext, Classical.choice, Quot.sound |
| C42 | `Edit.C42_indent_fails` | propext, Classical.choice, Quot.sound |
| C43 | `Conf.C43_eq_partial` | propext, Classical.choice, Quot.sound |
| C43 | `Conf.C43_equivalence` | propext |
| C43 | `Conf.C43_fails` | propext, Classical.choice, Quot.sound |
| C44 | `Misc.C44_uncfg_command` | propext, Classical.choice, Quot.sound |
| C44 | `Misc.C44_uncfg_no` | propext, Classical.choice, Quot.sound |
| C44 | `Misc.C44_twice_command` | propext, Classical.choice, Quot.sound |
| C44 | `Misc.C44_twice_no_partial` | propext, Classical.choice, Quot.sound |
| C44 | `Misc.C44_twice_fails` | propext, Classical.choice, Quot.sound |
| C45 | `Junos.C45_convert` | propext, Classical.choice, Quot.sound |
| C45 | `Junos.C45_length` | propext |
| C45 | `Junos.C45_empty` | none |
| C45 | `Junos.C45_oneline_fails` | propext, Classical.choice, Quot.sound |
| C45 | `Junos.C45_lost_fails` | propext, Classical.choice, Quot.sound |
| C45 | `Junos.C45_twice_fails` | propext, Classical.choice, Quot.sound |
| C46 | `Junos.C46_parses` | propext, Classical.choice, Quot.sound |
| C46 | `Junos.C46_parent` | propext, Classical.choice, Quot.sound |
| C46 | `Junos.C46_children` | propext, Classical.choice, Quot.sound |
| C46 | `Junos.C46_texts` | propext, Classical.choice, Quot.sound |
| C46 | `Junos.C46_comment_fails` | propext, Classical.choice, Quot.sound |
| C46 | `Junos.C46_oneline_fails` | propext, Classical.choice, Quot.sound |
| C47 | `Junos.C47_parent` | propext, Classical.choice, Quot.sound |
| C47 | `Junos.C47_unbalanced` | propext, Classical.choice, Quot.sound |
| C47 | `Junos.C47_balanced` | propext, Classical.choice, Quot.sound |
| C47 | `Junos.C47_else_fails` | propext, Classical.choice, Quot.sound |
| C48 | `Diff.C48_succeeds_partial` | propext, Classical.choice, Quot.sound |
| C48 | `Diff.C48_plus_partial` | propext, Classical.choice, Quot.sound |
| C48 | `Diff.C48_minus_partial` | propext, Classical.choice, Quot.sound |
| C48 | `Diff.C48_same_partial` | propext, Classical.choice, Quot.sound |
| C48 | `Diff.C48_signs_partial` | propext, Classical.choice, Quot.sound |
| C48 | `Diff.C48_identical` | propext, Classical.choice, Quot.sound |
| C48 | `Diff.C48_identical_succeeds` | propext, Classical.choice, Quot.sound |
| C48 | `Diff.C48_identical_text` | propext, Classical.choice, Quot.sound |
| C48 | `Diff.C48_digits_fails` | propext, Classical.choice, Quot.sound |
| C49 | `Conf.C49_no_loss` | propext, Classical.choice, Quot.sound |
| C49 | `Conf.C49_exact_partial` | propext, Classical.choice, Quot.sound |
| C49 | `Conf.C49_factory_partial` | propext, Classical.choice, Quot.sound |
| C49 | `Conf.C49_keep` | propext, Classical.choice, Quot.sound |
| C49 | `Conf.C49_tree_partial` | propext, Classical.choice, Quot.sound |
| C49 | `Conf.C49_terminators` | propext, Classical.choice, Quot.sound |
| C49 | `Conf.C49_grow_fails` | propext, Classical.choice, Quot.sound |
| C49 | `Conf.C49_banner_fails` | propext, Classical.choice, Quot.sound |
| C49 | `Conf.C49_open_fails` | propext, Classical.choice, Quot.sound |
| C49 | `Conf.C49_return_fails` | propext, Classical.choice, Quot.sound |
| C50 | `Misc.C50_parity_partial` | propext, Quot.sound |
| C50 | `Misc.C50_idempotent` | propext, Quot.sound |
| C50 | `Misc.C50_short_command_fails` | propext, Classical.choice, Quot.sound |
| C51 | `Query.C51_families_partial` | propext, Classical.choice, Quot.sound |
| C51 | `Query.C51_digit_fails` | propext, Classical.choice, Quot.sound |
| C52 | `Query.C52_all_missing_partial` | propext, Classical.choice, Quot.sound |
| C52 | `Query.C52_partition` | propext, Quot.sound |
| C52 | `Query.C52_literal_fails` | propext, Classical.choice, Quot.sound |
| C53 | `Query.C53_list_partial` | propext, Classical.choice, Quot.sound |
| C53 | `Query.C53_list_fails` | propext, Classical.choice, Quot.sound |
| C53 | `Query.C53_child_list_partial` | propext, Quot.sound |
| C53 | `Query.C53_child_list_fails` | propext, Classical.choice, Quot.sound |
| C54 | `Query.C54_lineage_partial` | propext, Classical.choice, Quot.sound |
| C54 | `Query.C54_find_lineage` | propext |
| C54 | `Query.C54_digit_fails` | propext, Classical.choice, Quot.sound |
| C55 | `Query.C55_blocks_partial` | propext, Classical.choice, Quot.sound |
| C55 | `Query.C55_digit_fails` | propext, Classical.choice, Quot.sound |
| C56 | `Query.C56_siblings_partial` | propext, Classical.choice, Quot.sound |
| C56 | `Query.C56_brace_fails` | propext, Classical.choice, Quot.sound |
| C57 | `Edit.C57_append_effect` | propext, Classical.choice, Quot.sound |
| C57 | `Edit.C57_prepend` | propext, Classical.choice, Quot.sound |
| C57 | `Edit.C57_factory_fails` | none |
| C57 | `Edit.C57_append_fails` | propext, Classical.choice, Quot.sound |
| C57 | `Edit.C57_append_any` | propext, Classical.choice, Quot.sound |
| C58 | `Edit.C58_child_partial` | propext, Classical.choice, Quot.sound |
| C58 | `Edit.C58_before_partial` | propext, Classical.choice, Quot.sound |
| C58 | `Edit.C58_after_partial` | propext, Classical.choice, Quot.sound |
| C58 | `Edit.C58_other_fails` | propext, Classical.choice, Quot.sound |
| C58 | `Edit.C58_child_fails` | propext, Classical.choice, Quot.sound |
| C59 | `Edit.C59_commit_partial` | propext, Classical.choice, Quot.sound |
| C59 | `Edit.C59_ok` | propext, Classical.choice, Quot.sound |
| C59 | `Edit.C59_blank_fails` | propext, Classical.choice, Quot.sound |
| C60 | `Edit.C60_children_sound` | propext, Classical.choice, Quot.sound |
| C60 | `Edit.C60_all_children_sound` | propext, Classical.choice, Quot.sound |
| C60 | `Edit.C60_exclude_partial` | propext, Classical.choice, Quot.sound |
| C60 | `Edit.C60_replace_children_partial` | propext, Classical.choice, Quot.sound |
| C60 | `Edit.C60_depth_fails` | propext, Classical.choice, Quot.sound |
| C61 | `Edit.C61_parse_partial` | propext, Classical.choice, Quot.sound |
| C61 | `Edit.C61_gap_fails` | propext, Classical.choice, Quot.sound |
| C61 | `Edit.C61_delete_children_partial` | propext, Classical.choice, Quot.sound |
| C62 | `Edit.C62_delitem_partial` | propext, Classical.choice, Quot.sound |
| C62 | `Edit.C62_delitem_index` | propext, Classical.choice, Quot.sound |
| C62 | `Edit.C62_insert_partial` | propext, Classical.choice, Quot.sound |
| C62 | `Edit.C62_factory_fails` | none |
| C62 | `Edit.C62_blank_fails` | propext, Classical.choice, Quot.sound |
| C63 | `Intf.C63_dropped_fails` | propext, Classical.choice, Quot.sound |
| C64 | `Diff.C64_complete_partial` | propext, Classical.choice, Quot.sound |
| C64 | `Diff.C64_once_partial` | propext, Classical.choice, Quot.sound |
| C64 | `Diff.C64_syntax_fails` | propext, Classical.choice, Quot.sound |
| C65 | `Diff.C65_order_partial` | propext, Classical.choice, Quot.sound |
| C65 | `Diff.C65_reverse_fails` | propext, Classical.choice, Quot.sound |
| C65 | `Diff.C65_parent_fails` | propext, Classical.choice, Quot.sound |
| C66 | `Diff.C66_compliant` | propext, Classical.choice, Quot.sound |
| C67 | `Diff.C67_commands_partial` | propext, Classical.choice, Quot.sound |
| C67 | `Diff.C67_succeeds_partial` | propext, Classical.choice, Quot.sound |
| C67 | `Diff.C67_raise_fails` | propext, Classical.choice, Quot.sound |
| C67 | `Diff.C67_syntax_fails` | propext, Classical.choice, Quot.sound |
| C68 | `Diff.C68_parents_partial` | propext, Classical.choice, Quot.sound |
| C68 | `Diff.C68_remove_fails` | propext, Classical.choice, Quot.sound |
| C69 | `Diff.C69_header_partial` | propext, Classical.choice, Quot.sound |
| C69 | `Diff.C69_duplicate_fails` | propext, Classical.choice, Quot.sound |
| C69 | `Diff.C69_swapped_fails` | propext, Classical.choice, Quot.sound |
| C70 | `Cisco.C70_typed` | propext, Classical.choice, Quot.sound |
| C70 | `Cisco.C70_match` | propext, Classical.choice, Quot.sound |
| C70 | `Cisco.C70_invalid` | propext, Classical.choice, Quot.sound |
| C70 | `Cisco.C70_dict_keys` | propext, Classical.choice, Quot.sound |
| C70 | `Cisco.C70_dict_default` | propext, Classical.choice, Quot.sound |
| C71 | `Cisco.C71_arp` | propext, Classical.choice, Quot.sound |
| C71 | `Cisco.C71_carrierdelay` | propext, Classical.choice, Quot.sound |
| C71 | `Cisco.C71_xconnect` | propext, Classical.choice, Quot.sound |
| C71 | `Cisco.C71_numbers` | propext, Classical.choice, Quot.sound |
| C71 | `Cisco.C71_has` | propext, Classical.choice, Quot.sound |
| C72 | `Cisco.C72_mac_partial` | propext, Classical.choice, Quot.sound |
| C72 | `Cisco.C72_has_accessgroup_partial` | propext, Classical.choice, Quot.sound |
| C72 | `Cisco.C72_description` | propext, Classical.choice, Quot.sound |
| C72 | `Cisco.C72_encapsulation` | propext, Classical.choice, Quot.sound |
| C72 | `Cisco.C72_duplex` | propext, Classical.choice, Quot.sound |
| C72 | `Cisco.C72_accessgroup_partial` | propext, Classical.choice, Quot.sound |
| C72 | `Cisco.C72_vrf_partial` | propext, Classical.choice, Quot.sound |
| C72 | `Cisco.C72_blanks_fails` | propext, Classical.choice, Quot.sound |
| C73 | `Cisco.C73_ip_flags_partial` | propext, Classical.choice, Quot.sound |
| C73 | `Cisco.C73_ip_flags_fails` | propext, Classical.choice, Quot.sound |
| C73 | `Cisco.C73_shutdown` | propext, Classical.choice, Quot.sound |
| C73 | `Cisco.C73_mpls` | propext, Classical.choice, Quot.sound |
| C73 | `Cisco.C73_speed` | propext, Classical.choice, Quot.sound |
| C74 | `Cisco.C74_addr` | propext, Classical.choice, Quot.sound |
| C74 | `Cisco.C74_object` | propext, Classical.choice, Quot.sound |
| C74 | `Cisco.C74_consistent_partial` | propext, Classical.choice, Quot.sound |
| C74 | `Cisco.C74_secondary_fails` | propext, Classical.choice, Quot.sound |
| C75 | `Cisco.C75_switchport` | propext, Classical.choice, Quot.sound |
| C75 | `Cisco.C75_modes` | propext, Classical.choice, Quot.sound |
| C75 | `Cisco.C75_access_vlan_partial` | propext, Classical.choice, Quot.sound |
| C75 | `Cisco.C75_native_vlan_partial` | propext, Classical.choice, Quot.sound |
| C75 | `Cisco.C75_portsecurity` | propext, Classical.choice, Quot.sound |
| C75 | `Cisco.C75_errors_fails` | propext, Classical.choice, Quot.sound |
| C75 | `Cisco.C75_encap_fails` | propext, Classical.choice, Quot.sound |
| C75 | `Cisco.C75_dtp_fails` | propext, Classical.choice, Quot.sound |
| C76 | `Cisco.C76_addr` | propext, Classical.choice, Quot.sound |
| C76 | `Cisco.C76_timers` | propext, Classical.choice, Quot.sound |
| C76 | `Cisco.C76_keychain` | propext, Classical.choice, Quot.sound |
| C76 | `Cisco.C76_usebia` | propext, Classical.choice, Quot.sound |
| C76 | `Cisco.C76_preempt_fails` | propext, Classical.choice, Quot.sound |
| C76 | `Cisco.C76_group` | propext, Classical.choice, Quot.sound |
| C76 | `Cisco.C76_mask` | propext, Classical.choice, Quot.sound |
| C76 | `Cisco.C76_priority_partial` | propext, Classical.choice, Quot.sound |
| C76 | `Cisco.C76_priority_fails` | propext, Classical.choice, Quot.sound |
| C77 | `Cisco.C77_class` | propext, Classical.choice, Quot.sound |
| C77 | `Cisco.C77_global` | propext, Classical.choice, Quot.sound |
| C77 | `Cisco.C77_other` | propext, Classical.choice, Quot.sound |
| C77 | `Cisco.C77_sound` | propext, Classical.choice, Quot.sound |
| C77 | `Cisco.C77_cfg` | propext, Classical.choice, Quot.sound |
| C77 | `Cisco.C77_server_group` | propext, Classical.choice, Quot.sound |
| C78 | `Cisco.C78_tree` | propext, Classical.choice, Quot.sound |
| C79 | `Cisco.C79_route` | propext, Classical.choice, Quot.sound |
| C79 | `Cisco.C79_network` | propext, Classical.choice, Quot.sound |
| C79 | `Cisco.C79_class` | propext, Classical.choice, Quot.sound |
| C80 | `Cisco.C80_global_fails` | propext, Classical.choice, Quot.sound |
| C80 | `Cisco.C80_refused_fails` | propext, Classical.choice, Quot.sound |
| C80 | `Cisco.C80_total_partial` | propext, Classical.choice, Quot.sound |
| C80 | `Cisco.C80_raises_fails` | propext, Classical.choice, Quot.sound |
| C81 | `Cisco.C81_nexthop_partial` | propext, Classical.choice, Quot.sound |
| C81 | `Cisco.C81_nexthop_fails` | propext, Classical.choice, Quot.sound |
| C81 | `Cisco.C81_interface_fails` | propext, Classical.choice, Quot.sound |
| C81 | `Cisco.C81_order_fails` | propext, Classical.choice, Quot.sound |
| C81 | `Cisco.C81_ipv6_fails` | propext, Classical.choice, Quot.sound |
| C82 | `Cisco.C82_hostname` | propext, Classical.choice, Quot.sound |
| C82 | `Cisco.C82_name` | propext, Classical.choice, Quot.sound |
| C82 | `Cisco.C82_range` | propext, Classical.choice, Quot.sound |
| C82 | `Cisco.C82_range_str` | propext, Classical.choice, Quot.sound |
| C82 | `Cisco.C82_exectimeout` | propext, Classical.choice, Quot.sound |
| C83 | `Cisco.C83_minutes_fails` | propext, Classical.choice, Quot.sound |
| C83 | `Cisco.C83_range_fails` | propext, Classical.choice, Quot.sound |
| C84 | `Cisco.C84_is_intf` | propext, Classical.choice, Quot.sound |
| C84 | `Cisco.C84_loopback` | propext, Classical.choice, Quot.sound |
| C84 | `Cisco.C84_subintf` | propext, Classical.choice, Quot.sound |
| C84 | `Cisco.C84_ethernet` | propext, Classical.choice, Quot.sound |
| C84 | `Cisco.C84_virtual` | propext, Classical.choice, Quot.sound |
| C84 | `Cisco.C84_channel_group` | propext, Classical.choice, Quot.sound |
| C84 | `Cisco.C84_global` | propext, Classical.choice, Quot.sound |
| C85 | `Cisco.C85_interface_number` | propext, Classical.choice, Quot.sound |
| C85 | `Cisco.C85_subinterface_number` | propext, Classical.choice, Quot.sound |
| C85 | `Cisco.C85_port_type` | propext, Classical.choice, Quot.sound |
| C85 | `Cisco.C85_type` | propext, Classical.choice, Quot.sound |
| C85 | `Cisco.C85_abbreviated` | propext, Classical.choice, Quot.sound |
| C85 | `Cisco.C85_name` | propext, Classical.choice, Quot.sound |
| C85 | `Cisco.C85_object` | propext, Classical.choice, Quot.sound |
| C85 | `Cisco.C85_no_object` | propext, Classical.choice, Quot.sound |
| C86 | `Cisco.C86_class_fails` | propext, Classical.choice, Quot.sound |
| C86 | `Cisco.C86_blank_fails` | propext, Classical.choice, Quot.sound |
| C86 | `Cisco.C86_channel_fails` | propext, Classical.choice, Quot.sound |
| C87 | `IP.C87_reads` | propext, Classical.choice, Quot.sound |
| C87 | `IP.C87_regular` | propext, Classical.choice, Quot.sound |
| C87 | `IP.C87_writes` | propext, Classical.choice, Quot.sound |
| C87 | `IP.C87_exploded` | propext, Classical.choice, Quot.sound |
| C87 | `IP.C87_roundtrip` | propext, Classical.choice, Quot.sound |
| C87 | `IP.C87_hash` | propext, Classical.choice, Quot.sound |
| C88 | `IP.C88_sound_partial` | propext, Classical.choice, Quot.sound |
| C88 | `IP.C88_sound_fails` | propext, Classical.choice, Quot.sound |
| C88 | `IP.C88_mask_fails` | propext, Classical.choice, Quot.sound |
| C89 | `IP.C89_quad_partial` | propext, Classical.choice, Quot.sound |
| C89 | `IP.C89_quad_fails` | propext, Classical.choice, Quot.sound |
| C90 | `IP.C90_masks4` | propext, Classical.choice, Quot.sound |
| C90 | `IP.C90_masks6` | propext, Classical.choice, Quot.sound |
| C90 | `IP.C90_range4` | propext, Classical.choice, Quot.sound |
| C90 | `IP.C90_range6` | propext, Classical.choice, Quot.sound |
| C90 | `IP.C90_numbers4` | propext, Classical.choice, Quot.sound |
| C90 | `IP.C90_numbers6` | propext, Classical.choice, Quot.sound |
| C90 | `IP.C90_classes4` | propext, Classical.choice, Quot.sound |
| C90 | `IP.C90_classes6` | propext, Classical.choice, Quot.sound |
| C91 | `IP.C91_accepts` | propext, Classical.choice, Quot.sound |
| C91 | `IP.C91_stdlib` | propext, Classical.choice, Quot.sound |
| C91 | `IP.C91_modes` | propext, Classical.choice, Quot.sound |
| C92 | `IP.C92_accepts_partial` | propext, Classical.choice, Quot.sound |
| C92 | `IP.C92_long_fails` | propext, Classical.choice, Quot.sound |
| C92 | `IP.C92_zone_fails` | propext, Classical.choice, Quot.sound |
| C93 | `IP.C93_exact` | propext, Classical.choice, Quot.sound |
| C94 | `Query.C94_pattern` | propext, Classical.choice, Quot.sound |
| C94 | `Query.C94_literal` | propext, Classical.choice, Quot.sound |
| C94 | `Query.C94_lines` | propext, Quot.sound |
| C95 | `Query.C95_pattern_partial` | propext, Classical.choice, Quot.sound |
| C95 | `Query.C95_words` | propext, Classical.choice, Quot.sound |
| C95 | `Query.C95_repeat_fails` | propext, Classical.choice, Quot.sound |
| C95 | `Query.C95_set_fails` | propext, Classical.choice, Quot.sound |
| C96 | `Query.C96_exact_partial` | propext, Classical.choice, Quot.sound |
| C96 | `Query.C96_alternative_fails` | propext, Classical.choice, Quot.sound |
| C97 | `Query.C97_parents` | propext, Classical.choice, Quot.sound |
| C97 | `Query.C97_without` | propext, Classical.choice, Quot.sound |
| C97 | `Query.C97_children` | propext, Classical.choice, Quot.sound |
| C98 | `Query.C98_parents_partial` | propext, Classical.choice, Quot.sound |
| C98 | `Query.C98_children` | propext, Classical.choice, Quot.sound |
| C98 | `Query.C98_backslash_fails` | propext, Classical.choice, Quot.sound |
| C98 | `Query.C98_ws_fails` | propext, Classical.choice, Quot.sound |
| C99 | `Query.C99_missing_partial` | propext, Classical.choice, Quot.sound |
| C99 | `Query.C99_letters_fails` | propext, Classical.choice, Quot.sound |
| C100 | `Query.C100_words_partial` | propext, Classical.choice, Quot.sound |
| C100 | `Query.C100_indent_fails` | propext, Classical.choice, Quot.sound |
| C100 | `Query.C100_special_fails` | propext, Classical.choice, Quot.sound |
| C101 | `Query.C101_exclusive_partial` | propext, Classical.choice, Quot.sound |
| C101 | `Query.C101_refused` | propext, Classical.choice, Quot.sound |
| C101 | `Query.C101_no_fails` | propext, Classical.choice, Quot.sound |
| C101 | `Query.C101_top_fails` | propext, Classical.choice, Quot.sound |
| C102 | `Query.C102_child_indent_partial` | propext, Classical.choice, Quot.sound |
| C102 | `Query.C102_banner_fails` | propext, Classical.choice, Quot.sound |
| C103 | `Query.C103_search` | propext, Classical.choice, Quot.sound |
| C103 | `Query.C103_match` | propext, Quot.sound |
| C104 | `Cisco.C104_first_partial` | propext, Classical.choice, Quot.sound |
| C104 | `Cisco.C104_refused` | propext, Classical.choice, Quot.sound |
| C104 | `Cisco.C104_other_fails` | propext, Classical.choice, Quot.sound |
| C105 | `Cisco.C105_dna` | propext, Classical.choice, Quot.sound |
| C105 | `Cisco.C105_refused` | propext, Classical.choice, Quot.sound |
| C106 | `Intf.XR.C106_four` | propext, Classical.choice, Quot.sound |
| C106 | `Intf.XR.C106_two` | propext, Classical.choice, Quot.sound |
| C106 | `Intf.XR.C106_one` | propext, Classical.choice, Quot.sound |
| C107 | `Intf.XR.C107_dropped_fails` | propext, Classical.choice, Quot.sound |
| C107 | `Intf.XR.C107_subinterface_fails` | propext, Classical.choice, Quot.sound |
| C107 | `Intf.XR.C107_three_fails` | propext, Classical.choice, Quot.sound |
| C108 | `Intf.XR.C108_eq` | propext, Classical.choice, Quot.sound |
| C108 | `Intf.XR.C108_hash` | propext |
| C108 | `Intf.XR.C108_lt` | propext, Classical.choice, Quot.sound |
| C108 | `Intf.XR.C108_typeError` | propext |
| C108 | `Intf.XR.C108_gt` | propext |
| C108 | `Intf.XR.C108_strict` | propext, Classical.choice, Quot.sound |
| C108 | `Intf.XR.C108_total_partial` | propext, Classical.choice, Quot.sound |
| C108 | `Intf.XR.C108_number_fails` | propext, Classical.choice, Quot.sound |
| C108 | `Intf.XR.C108_lt_fails` | propext, Classical.choice, Quot.sound |
| C109 | `Intf.XR.C109_dict` | propext, Classical.choice, Quot.sound |
| C109 | `Intf.XR.C109_constructor_fails` | propext, Classical.choice, Quot.sound |
| C109 | `Intf.XR.C109_copy_fails` | propext, Classical.choice, Quot.sound |
| C109 | `Intf.XR.C109_only` | propext, Classical.choice, Quot.sound |
| C110 | `Asa.C110_names` | propext, Classical.choice, Quot.sound |
| C110 | `Asa.C110_groups` | propext, Classical.choice, Quot.sound |
| C110 | `Asa.C110_access_list` | propext, Classical.choice, Quot.sound |
| C110 | `Asa.C110_refused` | propext, Classical.choice, Quot.sound |
| C111 | `Asa.C111_class` | propext, Classical.choice, Quot.sound |
| C111 | `Asa.C111_one` | propext, Classical.choice, Quot.sound |
| C111 | `Asa.C111_refused` | propext, Classical.choice, Quot.sound |
| C111 | `Asa.C111_tree` | propext, Classical.choice, Quot.sound |
| C111 | `Asa.C111_parse` | propext, Classical.choice, Quot.sound |
| C112 | `Asa.C112_factory_partial` | propext, Classical.choice, Quot.sound |
| C112 | `Asa.C112_fails` | propext, Classical.choice, Quot.sound |
| C113 | `Asa.C113_strings` | propext, Classical.choice, Quot.sound |
| C113 | `Asa.C113_stable` | propext, Classical.choice, Quot.sound |
| C113 | `Asa.C113_count` | propext, Classical.choice, Quot.sound |
| C113 | `Asa.C113_cycle` | propext, Classical.choice, Quot.sound |
| C114 | `Asa.C114_object_fails` | propext, Classical.choice, Quot.sound |
| C114 | `Asa.C114_blank_fails` | propext, Classical.choice, Quot.sound |
| C115 | `Asa.C115_networks` | propext, Classical.choice, Quot.sound |
| C115 | `Asa.C115_cache` | propext, Classical.choice, Quot.sound |
| C116 | `Asa.C116_line` | propext, Classical.choice, Quot.sound |
| C116 | `Asa.C116_ports` | propext, Classical.choice, Quot.sound |
| C117 | `Asa.C117_numbers_partial` | propext, Classical.choice, Quot.sound |
| C117 | `Asa.C117_operator_fails` | propext, Classical.choice, Quot.sound |
| C117 | `Asa.C117_digit_fails` | propext, Classical.choice, Quot.sound |
| C117 | `Asa.C117_group_fails` | propext, Classical.choice, Quot.sound |
| C118 | `Asa.C118_reads` | propext, Classical.choice, Quot.sound |
| C118 | `Asa.C118_total` | propext, Classical.choice, Quot.sound |
| C118 | `Asa.C118_name` | propext, Classical.choice, Quot.sound |
| C119 | `Asa.C119_accepts` | propext, Classical.choice, Quot.sound |
| C119 | `Asa.C119_refuses` | propext, Classical.choice, Quot.sound |
| C119 | `Asa.C119_names` | propext, Classical.choice, Quot.sound |
| C120 | `Asa.C120_icmp_partial` | propext, Classical.choice, Quot.sound |
| C120 | `Asa.C120_any4_fails` | propext, Classical.choice, Quot.sound |
| C121 | `Junos.C121_is_intf` | propext, Classical.choice, Quot.sound |
| C121 | `Junos.C121_name_outer` | propext, Classical.choice, Quot.sound |
| C121 | `Junos.C121_name_inner` | propext, Classical.choice, Quot.sound |
| C121 | `Junos.C121_no_name` | propext, Classical.choice, Quot.sound |
| C121 | `Junos.C121_switchport` | propext, Classical.choice, Quot.sound |
| C122 | `Junos.C122_unit_partial` | propext, Classical.choice, Quot.sound |
| C122 | `Junos.C122_any_fails` | propext, Classical.choice, Quot.sound |
| C122 | `Junos.C122_kinds_fails` | propext, Classical.choice, Quot.sound |
| C123 | `Hsrp.C123_groups_partial` | propext, Classical.choice, Quot.sound |
| C123 | `Hsrp.C123_raises_fails` | propext, Classical.choice, Quot.sound |
| C124 | `Hsrp.C124_priority` | propext, Classical.choice, Quot.sound |
| C124 | `Hsrp.C124_version` | propext, Classical.choice, Quot.sound |
| C124 | `Hsrp.C124_preempt` | propext, Classical.choice, Quot.sound |
| C124 | `Hsrp.C124_ipv4` | propext, Classical.choice, Quot.sound |
| C124 | `Hsrp.C124_ipv6` | propext, Classical.choice, Quot.sound |
| C124 | `Hsrp.C124_name` | propext |
| C124 | `Hsrp.C124_hello` | propext, Classical.choice, Quot.sound |
| C124 | `Hsrp.C124_hold` | propext, Classical.choice, Quot.sound |
| C124 | `Hsrp.C124_use_bia` | propext, Classical.choice, Quot.sound |
| C125 | `Hsrp.C125_delay_fails` | propext, Classical.choice, Quot.sound |
| C125 | `Hsrp.C125_ipv4_fails` | propext, Classical.choice, Quot.sound |
| C125 | `Hsrp.C125_secondary_fails` | propext, Classical.choice, Quot.sound |
| C125 | `Hsrp.C125_md5_fails` | propext, Classical.choice, Quot.sound |
| C126 | `Hsrp.C126_tracking_partial` | propext, Classical.choice, Quot.sound |
| C126 | `Hsrp.C126_short_fails` | propext, Classical.choice, Quot.sound |
| C127 | `Edit.C127_eq` | propext, Classical.choice, Quot.sound |
| C127 | `Edit.C127_history` | propext, Classical.choice, Quot.sound |
| C128 | `Edit.C128_lt_partial` | propext, Classical.choice, Quot.sound |
| C128 | `Edit.C128_gt_partial` | propext, Classical.choice, Quot.sound |
| C128 | `Edit.C128_ge_partial` | propext, Quot.sound |
| C128 | `Edit.C128_ge_fails` | propext, Quot.sound |
| C128 | `Edit.C128_le_fails` | propext, Classical.choice, Quot.sound |
| C129 | `Edit.C129_slice_fails` | propext, Classical.choice, Quot.sound |
| C129 | `Edit.C129_range_fails` | propext, Classical.choice, Quot.sound |
| C129 | `Edit.C129_sum_fails` | propext, Classical.choice, Quot.sound |
| C129 | `Edit.C129_item_partial` | propext, Quot.sound |
| C129 | `Edit.C129_copy_partial` | propext, Quot.sound |
| C130 | `Edit.C130_find_partial` | propext, Classical.choice, Quot.sound |
| C130 | `Edit.C130_text` | propext, Classical.choice, Quot.sound |
| C130 | `Edit.C130_fails` | propext, Classical.choice, Quot.sound |
| C131 | `Edit.C131_pop_partial` | propext, Quot.sound |
| C131 | `Edit.C131_last_partial` | propext, Classical.choice, Quot.sound |
| C131 | `Edit.C131_pop_fails` | propext, Classical.choice, Quot.sound |
| C131 | `Edit.C131_delete_fails` | propext, Classical.choice, Quot.sound |
| C131 | `Edit.C131_reverse_fails` | propext, Quot.sound |
| C131 | `Edit.C131_append_fails` | propext |
| C131 | `Edit.C131_search_partial` | propext, Quot.sound |
| C131 | `Edit.C131_sort_partial` | propext, Quot.sound |
| C132 | `Edit.C132_hierarchy` | propext, Classical.choice, Quot.sound |
| C132 | `Edit.C132_iterators` | propext, Classical.choice, Quot.sound |
| C133 | `Edit.C133_top_partial` | propext, Classical.choice, Quot.sound |
| C133 | `Edit.C133_complete_partial` | propext, Classical.choice, Quot.sound |
| C133 | `Edit.C133_banner_fails` | propext, Classical.choice, Quot.sound |
| C133 | `Edit.C133_indented_fails` | propext, Classical.choice, Quot.sound |
| C134 | `Nxos.C134_numbers` | propext, Classical.choice, Quot.sound |
| C134 | `Nxos.C134_vlans` | propext, Classical.choice, Quot.sound |
| C135 | `Nxos.C135_texts_partial` | propext, Classical.choice, Quot.sound |
| C135 | `Nxos.C135_short_fails` | propext, Classical.choice, Quot.sound |
| C135 | `Nxos.C135_vrf_partial` | propext, Classical.choice, Quot.sound |
| C135 | `Nxos.C135_vrf_fails` | propext, Classical.choice, Quot.sound |
| C136 | `Nxos.C136_switchport` | propext, Classical.choice, Quot.sound |
| C136 | `Nxos.C136_flags` | propext, Classical.choice, Quot.sound |
| C136 | `Nxos.C136_cdp` | propext, Classical.choice, Quot.sound |
| C137 | `Nxos.C137_modes_partial` | propext, Classical.choice, Quot.sound |
| C137 | `Nxos.C137_portsecurity_partial` | propext, Classical.choice, Quot.sound |
| C137 | `Nxos.C137_mac_partial` | propext, Classical.choice, Quot.sound |
| C137 | `Nxos.C137_modes_fails` | propext, Classical.choice, Quot.sound |
| C138 | `Nxos.C138_addr` | propext, Classical.choice, Quot.sound |
| C139 | `Nxos.C139_objects` | propext, Classical.choice, Quot.sound |
| C139 | `Nxos.C139_dhcp` | propext, Classical.choice, Quot.sound |
| C140 | `Nxos.C140_subnets_partial` | propext, Classical.choice, Quot.sound |
| C140 | `Nxos.C140_no_list` | propext, Classical.choice, Quot.sound |
| C140 | `Nxos.C140_empty_fails` | propext, Classical.choice, Quot.sound |
| C140 | `Nxos.C140_one_fails` | propext, Classical.choice, Quot.sound |
| C141 | `Nxos.C141_flags_partial` | propext, Classical.choice, Quot.sound |
| C141 | `Nxos.C141_arp` | propext, Classical.choice, Quot.sound |
| C141 | `Nxos.C141_pim_fails` | propext, Classical.choice, Quot.sound |
| C141 | `Nxos.C141_flags_fails` | propext, Classical.choice, Quot.sound |
| C142 | `Nxos.C142_helpers_partial` | propext, Classical.choice, Quot.sound |
| C142 | `Nxos.C142_none` | propext, Classical.choice, Quot.sound |
| C142 | `Nxos.C142_no_vrf_fails` | propext, Classical.choice, Quot.sound |
| C142 | `Nxos.C142_doc_fails` | propext, Classical.choice, Quot.sound |
| C143 | `Nxos.C143_trunk_partial` | propext, Classical.choice, Quot.sound |
| C143 | `Nxos.C143_none` | propext, Classical.choice, Quot.sound |
| C143 | `Nxos.C143_add_fails` | propext, Classical.choice, Quot.sound |
| C143 | `Nxos.C143_list_fails` | propext, Classical.choice, Quot.sound |
| C144 | `Nxos.C144_group` | propext, Classical.choice, Quot.sound |
| C144 | `Nxos.C144_addr` | propext, Classical.choice, Quot.sound |
| C144 | `Nxos.C144_usebia` | propext, Classical.choice, Quot.sound |
| C145 | `Nxos.C145_priority_partial` | propext, Classical.choice, Quot.sound |
| C145 | `Nxos.C145_priority_fails` | propext, Classical.choice, Quot.sound |
| C145 | `Nxos.C145_timers_partial` | propext, Classical.choice, Quot.sound |
| C145 | `Nxos.C145_timers_fails` | propext, Classical.choice, Quot.sound |
| C145 | `Nxos.C145_last_partial` | propext, Classical.choice, Quot.sound |
| C145 | `Nxos.C145_preempt_fails` | propext, Classical.choice, Quot.sound |
| C146 | `Nxos.C146_peerlink_partial` | propext, Classical.choice, Quot.sound |
| C146 | `Nxos.C146_peerlink_fails` | propext, Classical.choice, Quot.sound |
| C147 | `Nxos.C147_storm_partial` | propext, Classical.choice, Quot.sound |
| C147 | `Nxos.C147_storm_fails` | propext, Classical.choice, Quot.sound |
| C147 | `Nxos.C147_dtp_partial` | propext, Classical.choice, Quot.sound |
| C147 | `Nxos.C147_dtp_fails` | propext, Classical.choice, Quot.sound |
| C147 | `Nxos.C147_encap_fails` | propext, Classical.choice, Quot.sound |
| C148 | `Aaa.C148_authn_partial` | propext, Classical.choice, Quot.sound |
| C148 | `Aaa.C148_authz_partial` | propext, Classical.choice, Quot.sound |
| C148 | `Aaa.C148_methods_fails` | propext, Classical.choice, Quot.sound |
| C148 | `Aaa.C148_last_fails` | propext, Classical.choice, Quot.sound |
| C148 | `Aaa.C148_local_fails` | propext, Classical.choice, Quot.sound |
| C149 | `Aaa.C149_commands` | propext, Classical.choice, Quot.sound |
| C149 | `Aaa.C149_commands_other` | propext, Classical.choice, Quot.sound |
| C149 | `Aaa.C149_exec` | propext, Classical.choice, Quot.sound |
| C149 | `Aaa.C149_exec_other` | propext, Classical.choice, Quot.sound |
| C150 | `Aaa.C150_group` | propext, Classical.choice, Quot.sound |
| C150 | `Aaa.C150_group_other` | propext, Classical.choice, Quot.sound |
| C150 | `Aaa.C150_vrf_nxos` | propext, Classical.choice, Quot.sound |
| C150 | `Aaa.C150_vrf_ios` | propext, Classical.choice, Quot.sound |
| C150 | `Aaa.C150_source` | propext, Classical.choice, Quot.sound |
| C151 | `Aaa.C151_private_partial` | propext, Classical.choice, Quot.sound |
| C151 | `Aaa.C151_private_fails` | propext, Classical.choice, Quot.sound |
| C152 | `Nxos.Domain.C152_id` | propext, Classical.choice, Quot.sound |
| C152 | `Nxos.Domain.C152_numbers` | propext, Classical.choice, Quot.sound |
| C152 | `Nxos.Domain.C152_mac` | propext, Classical.choice, Quot.sound |
| C152 | `Nxos.Domain.C152_flags` | propext, Classical.choice, Quot.sound |
| C152 | `Nxos.Domain.C152_layer3` | propext, Classical.choice, Quot.sound |
| C153 | `Nxos.Domain.C153_arp_partial` | propext, Classical.choice, Quot.sound |
| C153 | `Nxos.Domain.C153_arp_fails` | propext, Classical.choice, Quot.sound |
| C154 | `Nxos.Domain.C154_text_partial` | propext, Classical.choice, Quot.sound |
| C154 | `Nxos.Domain.C154_numbers_partial` | propext, Classical.choice, Quot.sound |
| C154 | `Nxos.Domain.C154_total` | propext, Classical.choice, Quot.sound |
| C154 | `Nxos.Domain.C154_timeout_fails` | propext, Classical.choice, Quot.sound |
| C154 | `Nxos.Domain.C154_no_fails` | propext, Classical.choice, Quot.sound |
| C155 | `Nxos.Lines.C155_route` | propext, Classical.choice, Quot.sound |
| C155 | `Nxos.Lines.C155_network` | propext, Classical.choice, Quot.sound |
| C156 | `Nxos.Lines.C156_netmask_fails` | propext, Classical.choice, Quot.sound |
| C156 | `Nxos.Lines.C156_nexthop_partial` | propext, Classical.choice, Quot.sound |
| C156 | `Nxos.Lines.C156_nexthop_fails` | propext, Classical.choice, Quot.sound |
| C156 | `Nxos.Lines.C156_ipv6_fails` | propext, Classical.choice, Quot.sound |
| C156 | `Nxos.Lines.C156_text_fails` | propext, Classical.choice, Quot.sound |
| C157 | `Nxos.Lines.C157_class` | propext, Classical.choice, Quot.sound |
| C157 | `Nxos.Lines.C157_global` | propext, Classical.choice, Quot.sound |
| C157 | `Nxos.Lines.C157_other` | propext, Classical.choice, Quot.sound |
| C157 | `Nxos.Lines.C157_sound` | propext, Classical.choice, Quot.sound |
| C157 | `Nxos.Lines.C157_route` | propext, Classical.choice, Quot.sound |
| C158 | `Nxos.Lines.C158_total_partial` | propext, Classical.choice, Quot.sound |
| C158 | `Nxos.Lines.C158_word_fails` | propext, Classical.choice, Quot.sound |
| C158 | `Nxos.Lines.C158_refused_fails` | propext, Classical.choice, Quot.sound |
| C158 | `Nxos.Lines.C158_global_fails` | propext, Classical.choice, Quot.sound |
| C159 | `Nxos.Lines.C159_hostname` | propext, Classical.choice, Quot.sound |
| C159 | `Nxos.Lines.C159_name` | propext, Classical.choice, Quot.sound |
| C159 | `Nxos.Lines.C159_range` | propext, Classical.choice, Quot.sound |
| C159 | `Nxos.Lines.C159_global` | propext, Classical.choice, Quot.sound |
| C160 | `Nxos.Lines.C160_exectimeout_partial` | propext, Classical.choice, Quot.sound |
| C160 | `Nxos.Lines.C160_minutes_fails` | propext, Classical.choice, Quot.sound |
| C160 | `Nxos.Lines.C160_range_fails` | propext, Classical.choice, Quot.sound |
| C161 | `Intf.State.C161_number` | propext |
| C161 | `Intf.State.C161_text` | propext, Classical.choice, Quot.sound |
| C161 | `Intf.State.C161_none` | propext |
| C161 | `Intf.State.C161_words` | propext |
| C161 | `Intf.State.C161_error` | propext, Quot.sound |
| C162 | `Intf.State.C162_port` | propext, Classical.choice, Quot.sound |
| C162 | `Intf.State.C162_sub` | propext, Classical.choice, Quot.sound |
| C162 | `Intf.State.C162_slot` | propext, Classical.choice, Quot.sound |
| C162 | `Intf.State.C162_words` | propext, Classical.choice, Quot.sound |
| C163 | `Intf.State.C163_separator_fails` | propext, Quot.sound |
| C163 | `Intf.State.C163_slot_fails` | propext, Classical.choice, Quot.sound |
| C163 | `Intf.State.C163_card_fails` | propext, Classical.choice, Quot.sound |
| C163 | `Intf.State.C163_port_fails` | propext, Classical.choice, Quot.sound |
| C163 | `Intf.State.C163_negative_fails` | propext, Classical.choice, Quot.sound |
| C164 | `Intf.State.C164_dict` | propext, Classical.choice, Quot.sound |
| C164 | `Intf.State.C164_copy` | propext, Classical.choice, Quot.sound |
| C164 | `Intf.State.C164_keys` | propext, Classical.choice, Quot.sound |
| C164 | `Intf.State.C164_missing` | propext, Classical.choice, Quot.sound |
| C165 | `Intf.State.C165_copy_partial` | propext, Classical.choice, Quot.sound |
| C165 | `Intf.State.C165_card_fails` | propext, Classical.choice, Quot.sound |
| C165 | `Intf.State.C165_error_fails` | propext, Classical.choice, Quot.sound |
| C165 | `Intf.State.C165_xr_fails` | propext, Classical.choice, Quot.sound |
| C166 | `Intf.State.C166_numbers` | propext |
| C166 | `Intf.State.C166_tail_partial` | propext, Classical.choice, Quot.sound |
| C166 | `Intf.State.C166_tail_fails` | propext |
| C166 | `Intf.State.C166_xr_fails` | propext, Classical.choice, Quot.sound |
| C167 | `IP.C167_addresses` | propext, Classical.choice, Quot.sound |
| C167 | `IP.C167_largest` | propext, Classical.choice, Quot.sound |
| C167 | `IP.C167_fewest` | propext, Classical.choice, Quot.sound |
| C167 | `IP.C167_same` | propext, Classical.choice, Quot.sound |
| C167 | `IP.C167_again` | propext, Classical.choice, Quot.sound |
| C168 | `IP.C168_mixed` | propext, Classical.choice, Quot.sound |
| C168 | `IP.C168_sequence` | propext |
| C168 | `IP.C168_other` | propext, Classical.choice, Quot.sound |
| C168 | `IP.C168_empty` | propext, Classical.choice, Quot.sound |
| C169 | `Cisco.C169_subnet` | propext, Classical.choice, Quot.sound |
| C169 | `Cisco.C169_subnets_partial` | propext, Classical.choice, Quot.sound |
| C169 | `Cisco.C169_empty_fails` | propext, Classical.choice, Quot.sound |
| C170 | `Cisco.C170_network_fails` | propext, Classical.choice, Quot.sound |
| C171 | `Cisco.C171_sets` | propext, Classical.choice, Quot.sound |
| C171 | `Cisco.C171_invalid` | propext, Classical.choice, Quot.sound |
| C171 | `Cisco.C171_has` | propext, Classical.choice, Quot.sound |
| C172 | `Cisco.C172_auto_partial` | propext, Classical.choice, Quot.sound |
| C172 | `Cisco.C172_duplex_auto_fails` | propext, Classical.choice, Quot.sound |
| C173 | `Cisco.C173_object` | propext, Classical.choice, Quot.sound |
| C174 | `Cisco.C174_addr_partial` | propext, Classical.choice, Quot.sound |
| C174 | `Cisco.C174_addr_fails` | propext, Classical.choice, Quot.sound |
| C175 | `Asa.C175_text` | propext, Classical.choice, Quot.sound |
| C175 | `Asa.C175_object` | propext, Classical.choice, Quot.sound |
| C176 | `Asa.C176_subnet` | propext, Classical.choice, Quot.sound |
| C176 | `Asa.C176_no_list` | propext, Classical.choice, Quot.sound |
| C176 | `Asa.C176_none` | propext, Classical.choice, Quot.sound |
| C177 | `Asa.C177_standby_partial` | propext, Classical.choice, Quot.sound |
| C177 | `Asa.C177_blanks_fails` | propext, Classical.choice, Quot.sound |
| C178 | `Asa.C178_object` | propext, Classical.choice, Quot.sound |
| C178 | `Asa.C178_standby` | propext, Classical.choice, Quot.sound |
| C179 | `Asa.C179_numbers` | propext, Classical.choice, Quot.sound |
| C179 | `Asa.C179_flags` | propext, Classical.choice, Quot.sound |
| C180 | `Asa.C180_description_partial` | propext, Classical.choice, Quot.sound |
| C180 | `Asa.C180_auto_partial` | propext, Classical.choice, Quot.sound |
| C180 | `Asa.C180_access_partial` | propext, Classical.choice, Quot.sound |
| C180 | `Asa.C180_fails` | propext, Classical.choice, Quot.sound |
| C181 | `Asa.C181_name` | propext, Classical.choice, Quot.sound |
| C181 | `Asa.C181_ordinals` | propext, Classical.choice, Quot.sound |
| C181 | `Asa.C181_kinds` | propext, Classical.choice, Quot.sound |
| C181 | `Asa.C181_virtual` | propext, Classical.choice, Quot.sound |
| C182 | `Asa.C182_raises_fails` | propext, Classical.choice, Quot.sound |
| C182 | `Asa.C182_pim_fails` | propext, Classical.choice, Quot.sound |
| C182 | `Asa.C182_port_fails` | propext, Classical.choice, Quot.sound |
| C183 | `Range.C183_getitem` | propext, Classical.choice, Quot.sound |
| C183 | `Range.C183_search` | propext, Classical.choice, Quot.sound |
| C183 | `Range.C183_reversed` | propext, Classical.choice, Quot.sound |
| C183 | `Range.C183_delete` | propext, Classical.choice, Quot.sound |
| C183 | `Range.C183_equality` | propext, Quot.sound |
| C183 | `Range.C183_text` | propext, Classical.choice, Quot.sound |
| C184 | `Range.C184_as_set_partial` | propext, Classical.choice, Quot.sound |
| C184 | `Range.C184_as_set_fails` | propext |
| C184 | `Range.C184_setitem_fails` | propext |
| C184 | `Range.C184_setitem_silent_fails` | propext, Classical.choice, Quot.sound |
| C184 | `Range.C184_reverse_fails` | propext, Classical.choice, Quot.sound |
| C184 | `Range.C184_unsupported_fails` | propext |
| C185 | `Range.C185_extend_partial` | propext, Quot.sound |
| C185 | `Range.C185_extend_fails` | propext, Quot.sound |
| C186 | `Xr.C186_addr` | propext, Classical.choice, Quot.sound |
| C187 | `Xr.C187_objects` | propext, Classical.choice, Quot.sound |
| C187 | `Xr.C187_dhcp` | propext, Classical.choice, Quot.sound |
| C188 | `Xr.C188_subnets_partial` | propext, Classical.choice, Quot.sound |
| C188 | `Xr.C188_empty_fails` | propext, Classical.choice, Quot.sound |
| C188 | `Xr.C188_one_fails` | propext, Classical.choice, Quot.sound |
| C189 | `Xr.C189_name` | propext, Classical.choice, Quot.sound |
| C189 | `Xr.C189_parts` | propext, Classical.choice, Quot.sound |
| C189 | `Xr.C189_portchannel` | propext, Classical.choice, Quot.sound |
| C189 | `Xr.C189_none` | propext, Classical.choice, Quot.sound |
| C190 | `Xr.C190_bundle_partial` | propext, Classical.choice, Quot.sound |
| C190 | `Xr.C190_sub_fails` | propext, Classical.choice, Quot.sound |
| C190 | `Xr.C190_three_fails` | propext, Classical.choice, Quot.sound |
| C191 | `Xr.C191_ordinals_partial` | propext, Classical.choice, Quot.sound |
| C191 | `Xr.C191_management_fails` | propext, Classical.choice, Quot.sound |
| C192 | `Xr.C192_numbers` | propext, Classical.choice, Quot.sound |
| C192 | `Xr.C192_carrierdelay` | propext, Classical.choice, Quot.sound |
| C192 | `Xr.C192_words` | propext, Classical.choice, Quot.sound |
| C192 | `Xr.C192_flags` | propext, Classical.choice, Quot.sound |
| C192 | `Xr.C192_vlans` | propext, Classical.choice, Quot.sound |
| C193 | `Xr.C193_description_partial` | propext, Classical.choice, Quot.sound |
| C193 | `Xr.C193_auto_partial` | propext, Classical.choice, Quot.sound |
| C193 | `Xr.C193_switch_partial` | propext, Classical.choice, Quot.sound |
| C193 | `Xr.C193_switch_fails` | propext, Classical.choice, Quot.sound |
| C193 | `Xr.C193_fails` | propext, Classical.choice, Quot.sound |
| C194 | `Xr.C194_vrf_partial` | propext, Classical.choice, Quot.sound |
| C194 | `Xr.C194_vrf_fails` | propext, Classical.choice, Quot.sound |
| C195 | `Xr.C195_address` | propext, Classical.choice, Quot.sound |
| C195 | `Xr.C195_lines` | propext, Classical.choice, Quot.sound |
| C196 | `Xr.C196_preempt_fails` | propext, Classical.choice, Quot.sound |
| C197 | `Xr.C197_flags_partial` | propext, Classical.choice, Quot.sound |
| C197 | `Xr.C197_arp_partial` | propext, Classical.choice, Quot.sound |
| C197 | `Xr.C197_dhcp_fails` | propext, Classical.choice, Quot.sound |
| C197 | `Xr.C197_access_partial` | propext, Classical.choice, Quot.sound |
| C197 | `Xr.C197_lines_fails` | propext, Classical.choice, Quot.sound |
| C198 | `Xr.C198_trunk_partial` | propext, Classical.choice, Quot.sound |
| C198 | `Xr.C198_none` | propext, Classical.choice, Quot.sound |
| C198 | `Xr.C198_add_fails` | propext, Classical.choice, Quot.sound |
| C198 | `Xr.C198_list_fails` | propext, Classical.choice, Quot.sound |
| C199 | `Query.C199_child_partial` | propext, Classical.choice, Quot.sound |
| C199 | `Query.C199_find` | propext, Quot.sound |
| C199 | `Query.C199_literal_fails` | propext, Classical.choice, Quot.sound |
| C200 | `Query.C200_parent` | propext |
| C200 | `Query.C200_child_partial` | propext, Classical.choice, Quot.sound |
| C200 | `Query.C200_listed_partial` | propext, Classical.choice, Quot.sound |
| C200 | `Query.C200_geneology_partial` | propext, Classical.choice, Quot.sound |
| C200 | `Query.C200_digit_fails` | propext, Classical.choice, Quot.sound |
| C201 | `Query.C201_add_child` | propext, Classical.choice, Quot.sound |
| C201 | `Query.C201_twice` | propext, Quot.sound |
| C201 | `Query.C201_descendants` | propext |
| C202 | `Query.C202_both_partial` | propext |
| C202 | `Query.C202_child_fails` | propext |
| C202 | `Query.C202_parent_fails` | propext |
| C203 | `Nxos.C203_name` | propext, Classical.choice, Quot.sound |
| C203 | `Nxos.C203_parts` | propext, Classical.choice, Quot.sound |
| C203 | `Nxos.C203_ordinals` | propext, Classical.choice, Quot.sound |
| C203 | `Nxos.C203_none` | propext, Classical.choice, Quot.sound |
| C204 | `Nxos.C204_ethernet` | propext, Classical.choice, Quot.sound |
| C204 | `Nxos.C204_kinds` | propext, Classical.choice, Quot.sound |
| C204 | `Nxos.C204_portchannel` | propext, Classical.choice, Quot.sound |
| C204 | `Nxos.C204_channel_group` | propext, Classical.choice, Quot.sound |
| C205 | `Nxos.C205_auto_partial` | propext, Classical.choice, Quot.sound |
| C205 | `Nxos.C205_duplex_auto_fails` | propext, Classical.choice, Quot.sound |
| C206 | `Cisco.C206_eq` | propext, Quot.sound |
| C206 | `Cisco.C206_equivalence` | propext, Quot.sound |
| C206 | `Cisco.C206_hash` | propext, Quot.sound |
| C207 | `Cisco.C207_different_partial` | propext |
| C207 | `Cisco.C207_number` | propext, Classical.choice, Quot.sound |
| C207 | `Cisco.C207_same_fails` | propext |
| C208 | `Misc.C208_v4_partial` | propext, Classical.choice, Quot.sound |
| C208 | `Misc.C208_v6_fails` | propext, Classical.choice, Quot.sound |
| C209 | `Misc.C209_eq` | propext, Classical.choice, Quot.sound |
| C210 | `Misc.C210_search` | propext, Quot.sound |
| C210 | `Misc.C210_current` | propext, Quot.sound |
| C211 | `Misc.C211_captured_partial` | propext, Classical.choice, Quot.sound |
| C211 | `Misc.C211_target_fails` | propext, Classical.choice, Quot.sound |
| C211 | `Misc.C211_flags_fails` | propext, Classical.choice, Quot.sound |
| C211 | `Misc.C211_flags_dropped_fails` | propext |
| C212 | `Diff.C212_lines_partial` | propext, Classical.choice, Quot.sound |
| C212 | `Diff.C212_object_fails` | propext, Classical.choice, Quot.sound |
| C213 | `Intf.XRState.C213_number` | propext |
| C213 | `Intf.XRState.C213_text` | propext |
| C213 | `Intf.XRState.C213_words` | propext |
| C213 | `Intf.XRState.C213_error` | propext, Quot.sound |
| C214 | `Intf.XRState.C214_same_partial` | propext |
| C214 | `Intf.XRState.C214_integer_fails` | propext |
| C215 | `Intf.XRState.C215_name_partial` | propext, Classical.choice, Quot.sound |
| C215 | `Intf.XRState.C215_assign_partial` | propext, Classical.choice, Quot.sound |
| C215 | `Intf.XRState.C215_none_fails` | propext, Classical.choice, Quot.sound |
| C216 | `Intf.XRState.C216_dict` | propext, Classical.choice, Quot.sound |
| C217 | `Query.C217_block` | propext, Classical.choice, Quot.sound |
| C217 | `Query.C217_family` | propext, Classical.choice, Quot.sound |
| C218 | `Cisco.C218_settings` | propext, Classical.choice, Quot.sound |
| C218 | `Cisco.C218_addresses` | propext, Classical.choice, Quot.sound |
| C218 | `Cisco.C218_subnets` | propext, Classical.choice, Quot.sound |
| C218 | `Cisco.C218_switch` | propext, Classical.choice, Quot.sound |
| C218 | `Cisco.C218_hsrp` | propext, Classical.choice, Quot.sound |
| C218 | `Cisco.C218_groups` | propext, Classical.choice, Quot.sound |
| C219 | `Asa.C219_asa_settings` | propext, Classical.choice, Quot.sound |
| C219 | `Asa.C219_asa_standby6` | propext, Classical.choice, Quot.sound |
| C219 | `Asa.C219_asa_subnets` | propext, Classical.choice, Quot.sound |
| C219 | `Nxos.C219_nxos_settings` | propext, Classical.choice, Quot.sound |
| C219 | `Nxos.C219_nxos_others` | propext, Classical.choice, Quot.sound |
| C219 | `Nxos.C219_nxos_domain` | propext, Classical.choice, Quot.sound |
| C219 | `Nxos.C219_nxos_subnets` | propext, Classical.choice, Quot.sound |
| C219 | `Nxos.C219_nxos_hsrp` | propext, Classical.choice, Quot.sound |
| C219 | `Xr.C219_xr_settings` | propext, Classical.choice, Quot.sound |
| C219 | `Xr.C219_xr_others` | propext, Classical.choice, Quot.sound |
| C219 | `Xr.C219_xr_hsrp` | propext, Classical.choice, Quot.sound |
| C219 | `Xr.C219_xr_subnets` | propext, Classical.choice, Quot.sound |
| C220 | `Query.C220_parents` | propext, Classical.choice, Quot.sound |
| C220 | `Query.C220_children` | propext, Classical.choice, Quot.sound |
| C221 | `Edit.C221_commit` | propext, Classical.choice, Quot.sound |
| C221 | `Edit.C221_delete_partial` | propext, Classical.choice, Quot.sound |
| C221 | `Edit.C221_insert` | propext, Classical.choice, Quot.sound |
| C221 | `Edit.C221_comment_fails` | propext, Classical.choice, Quot.sound |
| C222 | `Edit.C222_insert_partial` | propext, Classical.choice, Quot.sound |
| C222 | `Edit.C222_delete_partial` | propext, Classical.choice, Quot.sound |
| C222 | `Edit.C222_adopt_fails` | propext, Classical.choice, Quot.sound |
| C223 | `IP.C223_eq_partial` | propext, Classical.choice, Quot.sound |
| C223 | `IP.C223_eq_fails` | propext, Classical.choice, Quot.sound |
| C223 | `IP.C223_in_partial` | propext, Classical.choice, Quot.sound |
| C223 | `IP.C223_in_fails` | propext, Classical.choice, Quot.sound |
| C223 | `IP.C223_raise_fails` | propext, Classical.choice, Quot.sound |
| C224 | `IP.C224_order` | propext, Classical.choice, Quot.sound |
| C224 | `IP.C224_total` | propext, Classical.choice, Quot.sound |
| C224 | `IP.C224_eq_partial` | propext, Classical.choice, Quot.sound |
| C224 | `IP.C224_eq_fails` | propext, Classical.choice, Quot.sound |
| C224 | `IP.C224_sorted` | propext, Classical.choice, Quot.sound |
| C225 | `IP.C225_eq_partial` | propext |
| C225 | `IP.C225_fails` | propext |
| C226 | `Intf.Typed.C226_all` | propext, Classical.choice, Quot.sound |
| C226 | `Intf.Typed.C226_types_partial` | propext, Classical.choice, Quot.sound |
| C226 | `Intf.Typed.C226_float_fails` | propext, Classical.choice, Quot.sound |
| C226 | `Intf.Typed.C226_xr_fails` | propext, Classical.choice, Quot.sound |
| C227 | `Query.C227_exact_partial` | propext, Classical.choice, Quot.sound |
| C227 | `Query.C227_fails` | propext, Classical.choice, Quot.sound |
| C228 | `Diff.Word.C228_word` | propext, Classical.choice, Quot.sound |
| C228 | `Diff.Word.C228_fits_partial` | propext, Classical.choice, Quot.sound |
| C228 | `Diff.Word.C228_side` | propext, Classical.choice, Quot.sound |
| C228 | `Diff.Word.C228_stale_fails` | propext, Classical.choice, Quot.sound |
| C229 | `Query.C229_blocks` | propext, Classical.choice, Quot.sound |
| C229 | `Query.C229_order` | propext, Classical.choice, Quot.sound |
| C230 | `Diff.C230_plus_partial` | propext, Classical.choice, Quot.sound |
| C230 | `Diff.C230_minus_partial` | propext, Classical.choice, Quot.sound |
| C230 | `Diff.C230_order_partial` | propext, Classical.choice, Quot.sound |
| C230 | `Diff.C230_digits_fails` | propext, Classical.choice, Quot.sound |
| C231 | `Diff.C231_present_partial` | propext, Classical.choice, Quot.sound |
| C231 | `Diff.C231_order_partial` | propext, Classical.choice, Quot.sound |
| C231 | `Diff.C231_digits_fails` | propext, Classical.choice, Quot.sound |
| C232 | `Diff.C232_mirror_partial` | propext, Classical.choice, Quot.sound |
| C232 | `Diff.C232_count_partial` | propext, Classical.choice, Quot.sound |
| C233 | `Diff.C233_compose_partial` | propext, Classical.choice, Quot.sound |
| C234 | `Edit.C234_delete_partial` | propext, Classical.choice, Quot.sound |
| C234 | `Edit.C234_again_partial` | propext, Classical.choice, Quot.sound |
| C234 | `Edit.C234_nested_fails` | propext, Classical.choice, Quot.sound |
| C235 | `Edit.C235_fresh_partial` | propext, Classical.choice, Quot.sound |
| C235 | `Edit.C235_branches_partial` | propext, Classical.choice, Quot.sound |
| C235 | `Edit.C235_lineage_partial` | propext, Classical.choice, Quot.sound |
| C235 | `Edit.C235_macro_fails` | propext, Classical.choice, Quot.sound |
| C236 | `Diff.C236_before_partial` | propext, Classical.choice, Quot.sound |
| C236 | `Diff.C236_after_partial` | propext, Classical.choice, Quot.sound |
| C236 | `Diff.C236_repeat_fails` | propext, Classical.choice, Quot.sound |
| C236 | `Diff.C236_order_fails` | propext, Classical.choice, Quot.sound |
| C237 | `Query.C237_links_partial` | propext, Classical.choice, Quot.sound |
| C237 | `Query.C237_without_partial` | propext, Classical.choice, Quot.sound |
| C237 | `Query.C237_star_fails` | propext, Classical.choice, Quot.sound |
| C238 | `IP.C238_v4` | propext, Classical.choice, Quot.sound |
| C238 | `IP.C238_v6` | propext, Classical.choice, Quot.sound |
| C238 | `IP.C238_order4` | propext, Classical.choice, Quot.sound |
| C238 | `IP.C238_order6` | propext, Classical.choice, Quot.sound |
| C239 | `Diff.C239_lines_partial` | propext, Classical.choice, Quot.sound |
| C239 | `Diff.C239_nothing_else_partial` | propext, Classical.choice, Quot.sound |
| C239 | `Diff.C239_banner_fails` | propext, Classical.choice, Quot.sound |
| C240 | `Diff.C240_lines_partial` | propext, Classical.choice, Quot.sound |
| C240 | `Diff.C240_again_partial` | propext, Classical.choice, Quot.sound |
| C240 | `Diff.C240_indent_fails` | propext, Classical.choice, Quot.sound |
| C240 | `Diff.C240_remove_fails` | propext, Classical.choice, Quot.sound |
| C241 | `Diff.C241_linespec` | propext, Classical.choice, Quot.sound |
| C241 | `Diff.C241_remove` | propext, Classical.choice, Quot.sound |
| C241 | `Diff.C241_none` | propext, Classical.choice, Quot.sound |
| C242 | `Diff.C242_add_partial` | propext, Classical.choice, Quot.sound |
| C242 | `Diff.C242_remove_partial` | propext, Classical.choice, Quot.sound |
| C242 | `Diff.C242_parents_partial` | propext, Classical.choice, Quot.sound |
| C243 | `Query.C243_same_partial` | propext, Classical.choice, Quot.sound |
| C243 | `Query.C243_blank_fails` | propext, Classical.choice, Quot.sound |
| C243 | `Query.C243_macro_fails` | propext, Classical.choice, Quot.sound |
| C244 | `Query.C244_tree_partial` | propext, Classical.choice, Quot.sound |
| C244 | `Query.C244_macro_fails` | propext, Classical.choice, Quot.sound |
| C245 | `Query.C245_parent_partial` | propext, Classical.choice, Quot.sound |
| C245 | `Query.C245_children_partial` | propext, Classical.choice, Quot.sound |
| C245 | `Query.C245_banner_fails` | propext, Classical.choice, Quot.sound |
| C245 | `Query.C245_comment_fails` | propext, Classical.choice, Quot.sound |
| C246 | `Init.C246_lines` | propext, Classical.choice, Quot.sound |
| C246 | `Init.C246_file` | propext, Classical.choice, Quot.sound |
| C246 | `Init.C246_only` | propext, Classical.choice, Quot.sound |
| C246 | `Init.C246_path_fails` | propext, Classical.choice, Quot.sound |
| C246 | `Init.C246_tuple_fails` | propext, Classical.choice, Quot.sound |
| C246 | `Init.C246_other` | propext, Classical.choice, Quot.sound |
| C246 | `Init.C246_line` | propext, Classical.choice, Quot.sound |
| C247 | `Edit.C247_agree` | propext, Classical.choice, Quot.sound |
| C247 | `Edit.C247_lines` | propext, Classical.choice, Quot.sound |
| C247 | `Edit.C247_brace` | propext, Classical.choice, Quot.sound |
| C247 | `Edit.C247_again` | propext, Classical.choice, Quot.sound |
| C247 | `Edit.C247_tree_fails` | propext, Classical.choice, Quot.sound |
| C248 | `Edit.C248_agree` | propext, Classical.choice, Quot.sound |
| C248 | `Edit.C248_same_partial` | propext, Classical.choice, Quot.sound |
| C248 | `Edit.C248_atomic_partial` | propext, Classical.choice, Quot.sound |
| C248 | `Edit.C248_atomic_fails` | propext, Classical.choice, Quot.sound |
| C249 | `Conf.C249_syntax` | propext, Classical.choice, Quot.sound |
| C249 | `Conf.C249_delimiters` | propext, Classical.choice, Quot.sound |
| C249 | `Conf.C249_blank` | propext, Classical.choice, Quot.sound |
| C250 | `Edit.C250_put` | propext, Classical.choice, Quot.sound |
| C250 | `Edit.C250_append_partial` | propext, Classical.choice, Quot.sound |
| C250 | `Edit.C250_width_fails` | propext, Classical.choice, Quot.sound |
| C251 | `Edit.C251_put_partial` | propext, Classical.choice, Quot.sound |
| C251 | `Edit.C251_comment_partial` | propext, Classical.choice, Quot.sound |
| C251 | `Edit.C251_before_partial` | propext, Classical.choice, Quot.sound |
| C251 | `Edit.C251_macro_fails` | propext, Classical.choice, Quot.sound |
| C252 | `Edit.C252_removed` | propext, Classical.choice, Quot.sound |
| C252 | `Edit.C252_delete_partial` | propext, Classical.choice, Quot.sound |
| C252 | `Edit.C252_delete_lines_partial` | propext, Classical.choice, Quot.sound |
| C252 | `Edit.C252_delete_children_partial` | propext, Classical.choice, Quot.sound |
| C252 | `Edit.C252_comment_fails` | propext, Classical.choice, Quot.sound |
| C252 | `Edit.C252_recurse_fails` | propext, Classical.choice, Quot.sound |
| C253 | `Edit.C253_parse_partial` | propext, Classical.choice, Quot.sound |
| C253 | `Edit.C253_replaced_partial` | propext, Classical.choice, Quot.sound |
| C253 | `Edit.C253_replace_lines_partial` | propext, Classical.choice, Quot.sound |
| C253 | `Edit.C253_comment_fails` | propext, Classical.choice, Quot.sound |
| C254 | `Edit.C254_prefix_partial` | propext, Classical.choice, Quot.sound |
| C254 | `Edit.C254_macro_fails` | propext, Classical.choice, Quot.sound |
| C255 | `Edit.C255_last_partial` | propext, Classical.choice, Quot.sound |
| C255 | `Edit.C255_history_partial` | propext, Classical.choice, Quot.sound |
| C255 | `Edit.C255_depth_fails` | propext, Classical.choice, Quot.sound |
| C256 | `Edit.C256_read_partial` | propext, Classical.choice, Quot.sound |
| C256 | `Edit.C256_unique_partial` | propext, Classical.choice, Quot.sound |
| C256 | `Edit.C256_comment_fails` | propext, Classical.choice, Quot.sound |
| C256 | `Edit.C256_space_fails` | propext, Classical.choice, Quot.sound |
| C257 | `Query.C257_below_partial` | propext, Classical.choice, Quot.sound |
| C257 | `Query.C257_walk_partial` | propext, Classical.choice, Quot.sound |
| C257 | `Query.C257_comment_fails` | propext, Classical.choice, Quot.sound |
| C257 | `Query.C257_below_fails` | propext, Classical.choice, Quot.sound |
| C258 | `Edit.C258_delete_partial` | propext, Classical.choice, Quot.sound |
| C258 | `Edit.C258_recurse_fails` | propext, Classical.choice, Quot.sound |
| C259 | `Edit.C259_append_partial` | propext, Classical.choice, Quot.sound |
| C259 | `Edit.C259_twice_fails` | propext, Classical.choice, Quot.sound |
| C260 | `Edit.C260_before_partial` | propext, Classical.choice, Quot.sound |
| C260 | `Edit.C260_after_fails` | propext, Classical.choice, Quot.sound |
| C261 | `IP.C261_v4` | propext, Classical.choice, Quot.sound |
| C261 | `IP.C261_v6` | propext, Classical.choice, Quot.sound |
| C261 | `IP.C261_inj4` | propext, Classical.choice, Quot.sound |
| C261 | `IP.C261_inj6` | propext, Classical.choice, Quot.sound |
| C262 | `Edit.C262_extend` | propext, Quot.sound |
| C262 | `Edit.C262_append` | propext, Classical.choice, Quot.sound |
| C262 | `Edit.C262_repeat` | propext, Quot.sound |
| C262 | `Edit.C262_set` | propext, Classical.choice, Quot.sound |
| C262 | `Edit.C262_pop` | propext, Classical.choice, Quot.sound |
| C262 | `Edit.C262_reverse` | propext, Quot.sound |
| C262 | `Edit.C262_sum_partial` | propext, Classical.choice, Quot.sound |
| C262 | `Edit.C262_times_partial` | propext, Classical.choice, Quot.sound |
| C263 | `IP.C263_offset_partial` | propext, Classical.choice, Quot.sound |
| C263 | `IP.C263_offset_fails` | propext |
| C264 | `Edit.C264_subtree_partial` | propext, Classical.choice, Quot.sound |
| C264 | `Edit.C264_again_partial` | propext, Classical.choice, Quot.sound |
| C264 | `Edit.C264_comment_fails` | propext, Classical.choice, Quot.sound |
| C265 | `Edit.C265_texts_partial` | propext, Quot.sound |
| C265 | `Edit.C265_lines_partial` | propext, Quot.sound |
| C265 | `Edit.C265_le_fails` | propext, Quot.sound |
| C265 | `Edit.C265_mixed_fails` | propext |
| C266 | `Intf.State.C266_repr` | propext, Classical.choice, Quot.sound |
| C266 | `Intf.State.C266_identifies` | propext, Classical.choice, Quot.sound |
| C267 | `Asa.C267_hostname` | propext, Classical.choice, Quot.sound |
| C268 | `Cisco.C268_channel` | propext, Classical.choice, Quot.sound |
| C268 | `Cisco.C268_reset` | propext, Classical.choice, Quot.sound |
| C269 | `Cisco.C269_route` | propext, Classical.choice, Quot.sound |
| C269 | `Cisco.C269_network_partial` | propext, Classical.choice, Quot.sound |
| C269 | `Cisco.C269_class` | propext, Classical.choice, Quot.sound |
| C269 | `Cisco.C269_vrf_fails` | propext, Classical.choice, Quot.sound |
| C269 | `Cisco.C269_interface_fails` | propext, Classical.choice, Quot.sound |
| C269 | `Cisco.C269_vrf_every_fails` | propext, Classical.choice, Quot.sound |
| C270 | `Nxos.Lines.C270_route` | propext, Classical.choice, Quot.sound |
| C270 | `Nxos.Lines.C270_network_partial` | propext, Classical.choice, Quot.sound |
| C270 | `Nxos.Lines.C270_vrf_fails` | propext, Classical.choice, Quot.sound |
| C270 | `Nxos.Lines.C270_vrf_every_fails` | propext, Classical.choice, Quot.sound |
| C271 | `Edit.C271_reset_fails` | propext, Classical.choice, Quot.sound |
| C271 | `Edit.C271_insert_partial` | propext, Classical.choice, Quot.sound |
| C271 | `Edit.C271_one_partial` | propext, Classical.choice, Quot.sound |
| C271 | `Edit.C271_other_fails` | propext, Classical.choice, Quot.sound |
| C272 | `Misc.C272_format_partial` | propext, Quot.sound |
| C272 | `Misc.C272_same` | propext, Quot.sound |
| C272 | `Misc.C272_twice` | propext, Classical.choice, Quot.sound |
| C272 | `Misc.C272_mixed_fails` | propext, Classical.choice, Quot.sound |
| C273 | `Misc.C273_refused` | propext, Classical.choice, Quot.sound |
| C273 | `Misc.C273_lines_partial` | propext, Classical.choice, Quot.sound |
| C273 | `Misc.C273_file_fails` | propext, Classical.choice, Quot.sound |
| C273 | `Misc.C273_last_fails` | propext, Classical.choice, Quot.sound |
| C274 | `Range.C274_list_partial` | propext, Classical.choice, Quot.sound |
| C274 | `Range.C274_raises` | propext, Quot.sound |
| C274 | `Range.C274_self_fails` | propext, Quot.sound |
| C275 | `IP.C275_address_partial` | propext, Quot.sound |
| C275 | `IP.C275_object_fails` | propext, Quot.sound |
