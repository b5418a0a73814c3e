{
 "claims": [
  {
   "property": "C01",
   "status": "proved",
   "theorems": [
    "IP.C01_contains_iff_subset"
   ],
   "note": "For every pair of objects reachable through the public API."
  },
  {
   "property": "C02",
   "status": "partial",
   "theorems": [
    "IP.C02_lt_order",
    "IP.C02_trichotomy_partial",
    "IP.C02_trichotomy_fails",
    "IP.C02_eq_hash",
    "IP.C02_longest_match"
   ],
   "note": "Order laws for every reachable object; trichotomy with == for objects that never had a negative network_offset assigned (C02_trichotomy_fails shows why the condition is needed); longest match for every route table."
  },
  {
   "property": "C03",
   "status": "partial",
   "theorems": [
    "IP.C03_add_exact",
    "IP.C03_sub_exact_partial",
    "IP.C03_sub_fails",
    "IP.C03_add_sub_partial"
   ],
   "note": "Addition is exact. Subtraction rejects the result 255.255.255.255 (C03_sub_fails), so it and the round trip carry that exception."
  },
  {
   "property": "C04",
   "status": "proved",
   "theorems": [
    "IP.C04_network_bounds",
    "IP.C04_numhosts"
   ],
   "note": ""
  },
  {
   "property": "C05",
   "status": "partial",
   "theorems": [
    "IP.C05_offset_partial",
    "IP.C05_offset_fails"
   ],
   "note": "Holds for k >= 0 up to the broadcast offset, which can be set but not read back on /0../30; negative offsets are accepted (C05_offset_fails)."
  },
  {
   "property": "C06",
   "status": "proved",
   "theorems": [
    "IP.C06_fixed_width",
    "IP.C06_cidr_roundtrip",
    "IP.C06_mask_notations"
   ],
   "note": "Also the three mask notations build the same object."
  },
  {
   "property": "C07",
   "status": "partial",
   "theorems": [
    "IP.C07_contains_sound_partial",
    "IP.C07_contains_complete_partial",
    "IP.C07_contains_fails"
   ],
   "note": "True answers are always right; False is wrong for /127 and /128 members near the top of a /126 or shorter network (C07_contains_fails)."
  },
  {
   "property": "C08",
   "status": "partial",
   "theorems": [
    "IP.C08_order",
    "IP.C08_add_exact",
    "IP.C08_sub_exact_partial",
    "IP.C08_sub_fails",
    "IP.C08_network_bounds"
   ],
   "note": "Subtraction has the same all-ones exception as IPv4 (C08_sub_fails)."
  },
  {
   "property": "C09",
   "status": "proved",
   "theorems": [
    "Range.C09_expand"
   ],
   "note": "For integer ranges written with any blanks around commas and dashes."
  },
  {
   "property": "C10",
   "status": "proved",
   "theorems": [
    "Range.C10_compress_expand",
    "Range.C10_text_compress_expand",
    "Range.C10_compress_canonical"
   ],
   "note": "Both directions: expanding the compressed text gives the set back, and the compressed text is the canonical one."
  },
  {
   "property": "C11",
   "status": "partial",
   "theorems": [
    "Range.C11_as_list_pure_partial",
    "Range.C11_as_list_doubles_fails"
   ],
   "note": "Repeated reads agree; as_list on an object whose text lists duplicates is the exception shown by C11_as_list_doubles_fails."
  },
  {
   "property": "C12",
   "status": "proved",
   "theorems": [
    "Range.C12_append",
    "Range.C12_remove",
    "Range.C12_remove_append",
    "Range.C12_history"
   ],
   "note": "Single operations and every history of append/remove calls."
  },
  {
   "property": "C13",
   "status": "partial",
   "theorems": [
    "Range.C13_add_union",
    "Range.C13_sub_difference_partial",
    "Range.C13_sub_self_fails"
   ],
   "note": "Union and difference are exact; r - r with the same object skips members while iterating (C13_sub_self_fails)."
  },
  {
   "property": "C14",
   "status": "proved",
   "theorems": [
    "Intf.C14_name",
    "Intf.C14_parse",
    "Intf.C14_valid",
    "Intf.C14_normal",
    "Intf.C14_injective",
    "Intf.C14_copy"
   ],
   "note": "All prefixes of letters, hyphens and inner blanks, all natural numbers, all 2^4 and more shapes; white text around the parts. Also: the parser returns only such interfaces, so rendering is a normal form for every accepted name."
  },
  {
   "property": "C15",
   "status": "partial",
   "theorems": [
    "Intf.C15_eq",
    "Intf.C15_eq_equivalence",
    "Intf.C15_eq_text",
    "Intf.C15_hash",
    "Intf.C15_lt",
    "Intf.C15_gt",
    "Intf.C15_strict",
    "Intf.C15_incomparable",
    "Intf.C15_total_partial",
    "Intf.C15_typeError",
    "Intf.C15_lt_fails",
    "Intf.C15_prefix_fails"
   ],
   "note": "== , hash and < for all interfaces (C15_lt gives the order itself, C15_typeError exactly when comparing fails). Comparing fails when the first different part is missing on one side (C15_lt_fails); the prefix is not looked at (C15_prefix_fails)."
  },
  {
   "property": "C16",
   "status": "partial",
   "theorems": [
    "Intf.C16_members_partial",
    "Intf.C16_nothing",
    "Intf.C16_hyphen_fails",
    "Intf.C16_channel_fails",
    "Intf.C16_slot_fails"
   ],
   "note": "Range texts of any length over one slot/card, white text behind commas, class word of letters. A hyphen in prefix or class is not accepted (C16_hyphen_fails); channels and subinterfaces behind a comma fail; `1/1,2/5` keeps slot 1 (C16_slot_fails)."
  },
  {
   "property": "C17",
   "status": "proved",
   "theorems": [
    "Misc.C17_decrypt_type7",
    "Misc.C17_empty_raises",
    "Misc.C17_odd"
   ],
   "note": "Every non-empty password of 8-bit characters and every two-digit salt. The bare salt raises (C17_empty_raises)."
  },
  {
   "property": "C18",
   "status": "partial",
   "theorems": [
    "Misc.C18_eq",
    "Misc.C18_lt",
    "Misc.C18_gt",
    "Misc.C18_range_partial",
    "Misc.C18_range_bounds_fails",
    "Misc.C18_neq_fails",
    "Misc.C18_unsupported",
    "Misc.C18_names",
    "Misc.C18_table",
    "Misc.C18_ftp_fails"
   ],
   "note": "eq, bare, lt, gt are exact; names have the IANA numbers; 'range' does not check the bounds, 'neq N' denotes [N], and the table exchanges ftp and ftp-data (three _fails theorems)."
  },
  {
   "property": "C19",
   "status": "partial",
   "theorems": [
    "Vlan.C19_order_partial",
    "Vlan.C19_except_partial",
    "Vlan.C19_kinds",
    "Vlan.C19_default",
    "Vlan.C19_not_trunk",
    "Vlan.C19_return_fails",
    "Vlan.C19_twice_fails",
    "Vlan.C19_reset_fails",
    "Vlan.C19_except_fails"
   ],
   "note": "Statement lines with any spacing and any valid VLAN lists, among other lines. The result is the device's for plain statements followed by add/remove without return, and for one except with changes. Re-adding, a second plain list, statements behind a remove, and except behind a list give other sets than the device (the _fails theorems): the code sorts statements by kind."
  },
  {
   "property": "C20",
   "status": "partial",
   "theorems": [
    "Conf.C20_texts_partial",
    "Conf.C20_keep_all",
    "Conf.C20_no_loss",
    "Conf.C20_fails"
   ],
   "note": "Exact set of kept lines for every option and input; the claim fails only because empty strings are removed before parsing even inside a banner (C20_fails). C20_no_loss: no non-blank line is ever lost, duplicated or reordered."
  },
  {
   "property": "C21",
   "status": "proved",
   "theorems": [
    "Conf.C21_parent",
    "Conf.C21_indent",
    "Conf.C21_root"
   ],
   "note": "Holds. C21_parent is stronger than the property: it fixes the parent of every line of every configuration, including banners, macros and braces."
  },
  {
   "property": "C22",
   "status": "partial",
   "theorems": [
    "Conf.C22_parent_before",
    "Conf.C22_root_reached",
    "Conf.C22_children_after",
    "Conf.C22_children",
    "Conf.C22_agree_partial",
    "Conf.C22_braces_fails",
    "Conf.C22_banner_fails",
    "Conf.C22_stale_fails"
   ],
   "note": "Order, acyclicity and root proved for all configurations; exact agreement proved without banners, macros and closing braces; three witnesses show where it fails otherwise. C22_children says exactly what the children are in all cases."
  },
  {
   "property": "C23",
   "status": "partial",
   "theorems": [
    "Conf.C23_linenum_partial",
    "Conf.C23_increasing",
    "Conf.C23_fails"
   ],
   "note": "Line numbers are the input positions; they are positions in objs unless a blank line was dropped (C23_fails)."
  },
  {
   "property": "C24",
   "status": "partial",
   "theorems": [
    "Conf.C24_no_children",
    "Conf.C24_never_parent_partial",
    "Conf.C24_fails"
   ],
   "note": "No children: proved for all (delimiters other than b, s, m). Never a parent: proved unless the comment ends with an opening brace (C24_fails)."
  },
  {
   "property": "C25",
   "status": "partial",
   "theorems": [
    "Conf.C25_parent",
    "Conf.C25_children_partial",
    "Conf.C25_kept",
    "Conf.C25_outside",
    "Conf.C25_twice_fails"
   ],
   "note": "Parent, keeping, order and completeness of the body proved for all; 'exactly' fails because an indented body line is appended twice (C25_twice_fails)."
  },
  {
   "property": "C26",
   "status": "proved",
   "theorems": [
    "Conf.C26_parent",
    "Conf.C26_children"
   ],
   "note": "Holds for all macros of a configuration that parses (an unterminated macro makes parsing fail, see C28)."
  },
  {
   "property": "C27",
   "status": "partial",
   "theorems": [
    "Conf.C27_succeeds",
    "Conf.C27_texts_partial",
    "Conf.C27_stable_partial",
    "Conf.C27_tree_partial",
    "Conf.C27_commit_partial",
    "Conf.C27_fails",
    "Conf.C27_macro_fails"
   ],
   "note": "Commit always succeeds; texts are unchanged and a second commit is the identity unless a macro has no name; the tree is the same unless a comment stands directly below a dropped blank line (witnesses for both exceptions)."
  },
  {
   "property": "C28",
   "status": "partial",
   "theorems": [
    "Conf.C28_succeeds_iff_partial",
    "Conf.C28_plain",
    "Conf.C28_errors",
    "Conf.C28_brace_fails",
    "Conf.C28_macro_fails"
   ],
   "note": "Exact condition for success proved; two witnesses of failing text."
  },
  {
   "property": "C29",
   "status": "proved",
   "theorems": [
    "Query.C29_find_objects",
    "Query.C29_find_lines"
   ],
   "note": "For every regex (an arbitrary function on texts)."
  },
  {
   "property": "C30",
   "status": "partial",
   "theorems": [
    "Query.C30_children",
    "Query.C30_recurse",
    "Query.C30_parents_partial",
    "Query.C30_fails"
   ],
   "note": "C30_children and C30_recurse give the exact result for every spec; it is the claimed one for specs that match their own text and no empty string (C30_parents_partial); C30_fails: the literal-substring shortcut returns parents whose children do not match."
  },
  {
   "property": "C31",
   "status": "proved",
   "theorems": [
    "Query.C31_partition",
    "Query.C31_ordered"
   ],
   "note": "Holds for every configuration and spec, with and without recurse."
  },
  {
   "property": "C32",
   "status": "partial",
   "theorems": [
    "Query.C32_children",
    "Query.C32_parent_partial",
    "Query.C32_both_partial",
    "Query.C32_fails"
   ],
   "note": "Exact result for every spec; claimed one for normal specs; C32_fails: empty matches are dropped on the child side only."
  },
  {
   "property": "C33",
   "status": "partial",
   "theorems": [
    "Query.C33_all_children",
    "Query.C33_all_children_exact_partial",
    "Query.C33_kids",
    "Query.C33_all_parents_partial",
    "Query.C33_ancestor_descendant",
    "Query.C33_agree_partial",
    "Query.C33_digit_fails",
    "Query.C33_brace_fails"
   ],
   "note": "Soundness, order and completeness up to == for all configurations; exact when no text starts with a digit; agreement without banners, macros, closing braces; two witnesses otherwise."
  },
  {
   "property": "C34",
   "status": "proved",
   "theorems": [
    "Query.C34_contiguous",
    "Query.C34_endpoint",
    "Query.C34_family"
   ],
   "note": "Proved for the configurations the property names, all indentation patterns."
  },
  {
   "property": "C35",
   "status": "partial",
   "theorems": [
    "Query.C35_rows",
    "Query.C35_chains_partial",
    "Query.C35_single_fails",
    "Query.C35_short",
    "Query.C35_flags_fails"
   ],
   "note": "C35_rows gives all rows (with the None padding) for two or more levels; one level always raises (C35_single_fails) and flags are ignored for the first level (C35_flags_fails)."
  },
  {
   "property": "C36",
   "status": "partial",
   "theorems": [
    "Query.C36_parents",
    "Query.C36_children_w_parents",
    "Query.C36_agree_partial",
    "Query.C36_fails"
   ],
   "note": "Parent-side queries agree by definition; find_children_w_parents agrees with the recursive object query, not with find_objects_w_parents (C36_fails)."
  },
  {
   "property": "C37",
   "status": "partial",
   "theorems": [
    "Edit.C37_delete_partial",
    "Edit.C37_parse_partial",
    "Edit.C37_single",
    "Edit.C37_gap_fails",
    "Edit.C37_stale_fails",
    "Edit.C37_new_fails"
   ],
   "note": "Exact effect of delete() for every reachable configuration in which line numbers are positions and the family is still listed and has no text with a leading digit; holds right after a parse that dropped no line of blanks. Witnesses: gaps left by dropped blank lines, stale children, inserted objects."
  },
  {
   "property": "C38",
   "status": "partial",
   "theorems": [
    "Edit.C38_delete_lines_partial",
    "Edit.C38_parse_partial",
    "Edit.C38_nested_fails"
   ],
   "note": "Exact effect when the families of the matching lines are disjoint; witness for nested matches (an unrelated line is deleted)."
  },
  {
   "property": "C39",
   "status": "partial",
   "theorems": [
    "Edit.C39_line_before",
    "Edit.C39_line_after_fails",
    "Edit.C39_before",
    "Edit.C39_after",
    "Edit.C39_insert_before_partial",
    "Edit.C39_insert_after_partial",
    "Edit.C39_insert_before_one_partial",
    "Edit.C39_insert_after_one_partial",
    "Edit.C39_new_indent",
    "Edit.C39_twice_fails",
    "Edit.C39_exact_fails"
   ],
   "note": "ConfigObjs.insert_before/after: exact for all reachable configurations. CiscoConfParse.insert_*: exact number of copies; it is the claimed one only with one match (witness C39_twice_fails). C39_line_before: insert_before of a line object with a line object; C39_line_after_fails: insert_after refuses every line object with TypeError."
  },
  {
   "property": "C40",
   "status": "partial",
   "theorems": [
    "Edit.C40_append_partial",
    "Edit.C40_fails"
   ],
   "note": "Exact when the text of the family's last line, as a regex, matches only that line; witness otherwise."
  },
  {
   "property": "C41",
   "status": "partial",
   "theorems": [
    "Edit.C41_history_partial",
    "Edit.C41_nodup_partial",
    "Edit.C41_alias_fails"
   ],
   "note": "By induction over all edit histories in which each edit inserts at one place at most; witness when one object is inserted at two places."
  },
  {
   "property": "C42",
   "status": "partial",
   "theorems": [
    "Edit.C42_replace_partial",
    "Edit.C42_blank_fails",
    "Edit.C42_indent_fails"
   ],
   "note": "Exact when no replacement is blank; witnesses for blank results (whole family deleted) and the stale indent."
  },
  {
   "property": "C43",
   "status": "partial",
   "theorems": [
    "Conf.C43_eq_partial",
    "Conf.C43_equivalence",
    "Conf.C43_fails"
   ],
   "note": "Proved for texts that do not start with a digit; witness otherwise. Python's string hash is taken to be injective."
  },
  {
   "property": "C44",
   "status": "partial",
   "theorems": [
    "Misc.C44_uncfg_command",
    "Misc.C44_uncfg_no",
    "Misc.C44_twice_command",
    "Misc.C44_twice_no_partial",
    "Misc.C44_twice_fails"
   ],
   "note": "Exact result for both directions at any indentation; twice is the identity up to spacing unless the command starts with two 'no'."
  },
  {
   "property": "C45",
   "status": "partial",
   "theorems": [
    "Junos.C45_convert",
    "Junos.C45_length",
    "Junos.C45_empty",
    "Junos.C45_oneline_fails",
    "Junos.C45_lost_fails",
    "Junos.C45_twice_fails"
   ],
   "note": "For documents written one item per line (statements, `t {`, `}`, `} t {`, `t { }`, # comments, blank lines; any spacing, any depth and width). Blocks written on one line, text behind `}` and `}}` are handled wrongly (the _fails theorems)."
  },
  {
   "property": "C46",
   "status": "partial",
   "theorems": [
    "Junos.C46_parses",
    "Junos.C46_parent",
    "Junos.C46_children",
    "Junos.C46_texts",
    "Junos.C46_comment_fails",
    "Junos.C46_oneline_fails"
   ],
   "note": "Same documents; block headers must not look like comments to the parser. Parents, children and the listed lines are exactly those of the brace tree."
  },
  {
   "property": "C47",
   "status": "partial",
   "theorems": [
    "Junos.C47_parent",
    "Junos.C47_unbalanced",
    "Junos.C47_balanced",
    "Junos.C47_else_fails"
   ],
   "note": "parent = matching opening line, for text of any nesting; an unmatched closing brace raises ValueError; balanced text parses. `} else {` pushes without popping, so one brace too many goes unnoticed (C47_else_fails)."
  },
  {
   "property": "C48",
   "status": "partial",
   "theorems": [
    "Diff.C48_succeeds_partial",
    "Diff.C48_plus_partial",
    "Diff.C48_minus_partial",
    "Diff.C48_same_partial",
    "Diff.C48_signs_partial",
    "Diff.C48_identical",
    "Diff.C48_identical_succeeds",
    "Diff.C48_identical_text",
    "Diff.C48_digits_fails"
   ],
   "note": "Equal configurations: fully proved for every configuration, hash and syntax (C48_identical*). The rest is proved for ios/nxos, texts without a leading digit and hashes without collisions among the texts; it fails when a line compares equal to its parent (C48_digits_fails)."
  },
  {
   "property": "C49",
   "status": "partial",
   "theorems": [
    "Conf.C49_no_loss",
    "Conf.C49_exact_partial",
    "Conf.C49_factory_partial",
    "Conf.C49_keep",
    "Conf.C49_tree_partial",
    "Conf.C49_terminators",
    "Conf.C49_grow_fails",
    "Conf.C49_banner_fails",
    "Conf.C49_open_fails",
    "Conf.C49_return_fails"
   ],
   "note": "Reading back succeeds and loses no non-blank line, for texts without line terminators inside; exact when no blank line is kept and no banner is left open; line terminators make no difference. Witnesses: an empty line is added with ignore_blank_lines=False or at an open banner, blank banner lines are lost, a carriage return inside a text splits it."
  },
  {
   "property": "C50",
   "status": "partial",
   "theorems": [
    "Misc.C50_parity_partial",
    "Misc.C50_idempotent",
    "Misc.C50_short_command_fails"
   ],
   "note": "Parity for any number of words, any blanks; a pair in front of a one-character command is kept (C50_short_command_fails). Termination and idempotence for all inputs."
  },
  {
   "property": "C51",
   "status": "partial",
   "theorems": [
    "Query.C51_families_partial",
    "Query.C51_digit_fails"
   ],
   "note": "Proved for configurations in which no text starts with a digit (then == identifies lines, C43); with digits a line can be lost (C51_digit_fails)."
  },
  {
   "property": "C52",
   "status": "partial",
   "theorems": [
    "Query.C52_all_missing_partial",
    "Query.C52_partition",
    "Query.C52_literal_fails"
   ],
   "note": "Partition for all specs. The meaning of the two results for specs that match their own text and no empty string; else a literal occurrence also counts (C52_literal_fails)."
  },
  {
   "property": "C53",
   "status": "partial",
   "theorems": [
    "Query.C53_list_partial",
    "Query.C53_list_fails",
    "Query.C53_child_list_partial",
    "Query.C53_child_list_fails"
   ],
   "note": "The code returns the union of the parents, not the intersection, and only the last spec's children; exact behaviour proved, witnesses for both."
  },
  {
   "property": "C54",
   "status": "partial",
   "theorems": [
    "Query.C54_lineage_partial",
    "Query.C54_find_lineage",
    "Query.C54_digit_fails"
   ],
   "note": "For configurations in which no text starts with a digit; with digits ancestors can be lost (C54_digit_fails). find_lineage for all."
  },
  {
   "property": "C55",
   "status": "partial",
   "theorems": [
    "Query.C55_blocks_partial",
    "Query.C55_digit_fails"
   ],
   "note": "For configurations in which no text starts with a digit; with digits lines can be lost (C55_digit_fails)."
  },
  {
   "property": "C56",
   "status": "partial",
   "theorems": [
    "Query.C56_siblings_partial",
    "Query.C56_brace_fails"
   ],
   "note": "Without banners, macros and closing braces; a closing brace is not its own sibling (C56_brace_fails)."
  },
  {
   "property": "C57",
   "status": "partial",
   "theorems": [
    "Edit.C57_append_effect",
    "Edit.C57_prepend",
    "Edit.C57_factory_fails",
    "Edit.C57_append_fails",
    "Edit.C57_append_any"
   ],
   "note": "prepend_line: exact without factory, always TypeError with it; append_line ignores its argument (C57_append_any, C57_append_fails)."
  },
  {
   "property": "C58",
   "status": "partial",
   "theorems": [
    "Edit.C58_child_partial",
    "Edit.C58_before_partial",
    "Edit.C58_after_partial",
    "Edit.C58_other_fails",
    "Edit.C58_child_fails"
   ],
   "note": "Exact when the text of the object (or of the one matching child), as a regex, matches only that line; witnesses otherwise."
  },
  {
   "property": "C59",
   "status": "partial",
   "theorems": [
    "Edit.C59_commit_partial",
    "Edit.C59_ok",
    "Edit.C59_blank_fails"
   ],
   "note": "For every state, reachable or not, with no line of blanks that the parser drops (C59_blank_fails shows one dropped)."
  },
  {
   "property": "C60",
   "status": "partial",
   "theorems": [
    "Edit.C60_children_sound",
    "Edit.C60_all_children_sound",
    "Edit.C60_exclude_partial",
    "Edit.C60_replace_children_partial",
    "Edit.C60_depth_fails"
   ],
   "note": "Exact for replacements that are never blank and parents without common children (with excludespec: no matching parent below another); soundness (C60_*_sound) without those restrictions; replace_all_children stops after two levels (C60_depth_fails)."
  },
  {
   "property": "C61",
   "status": "partial",
   "theorems": [
    "Edit.C61_parse_partial",
    "Edit.C61_gap_fails",
    "Edit.C61_delete_children_partial"
   ],
   "note": "For disjoint, listed families without leading digits and regexes that match their own text; C61_parse_partial derives all of that for a fresh parse without banners, macros and closing braces. C61_gap_fails: after a blank line was dropped by the parse the object's number and place differ, and the wrong child is deleted."
  },
  {
   "property": "C62",
   "status": "partial",
   "theorems": [
    "Edit.C62_delitem_partial",
    "Edit.C62_delitem_index",
    "Edit.C62_insert_partial",
    "Edit.C62_factory_fails",
    "Edit.C62_blank_fails"
   ],
   "note": "Any reachable configuration and index. insert without factory (with it: TypeError, C62_factory_fails). del for configurations without blank lines that the parser drops (C62_blank_fails)."
  },
  {
   "property": "C63",
   "status": "partial",
   "theorems": [
    "Intf.C63_dropped_fails"
   ],
   "note": "Fails: a fourth number, double separators and repeated signs are dropped, a name without port takes its subinterface number as port, and channel/subinterface change places. For well-formed names C14_parse and C14_name give the positive result."
  },
  {
   "property": "C64",
   "status": "partial",
   "theorems": [
    "Diff.C64_complete_partial",
    "Diff.C64_once_partial",
    "Diff.C64_syntax_fails"
   ],
   "note": "Proved for ios/nxos, texts without a leading digit and hashes without collisions. For asa and iosxr nothing is ever reported (C64_syntax_fails)."
  },
  {
   "property": "C65",
   "status": "partial",
   "theorems": [
    "Diff.C65_order_partial",
    "Diff.C65_reverse_fails",
    "Diff.C65_parent_fails"
   ],
   "note": "Proved: kept and removed lines come in the order of before. Fails: added siblings come out reversed; with a repeated parent a removed child is shown below another line."
  },
  {
   "property": "C66",
   "status": "proved",
   "theorems": [
    "Diff.C66_compliant"
   ],
   "note": "Proved for every configuration, expression, hash and syntax."
  },
  {
   "property": "C67",
   "status": "partial",
   "theorems": [
    "Diff.C67_commands_partial",
    "Diff.C67_succeeds_partial",
    "Diff.C67_raise_fails",
    "Diff.C67_syntax_fails"
   ],
   "note": "Exact description for ios/nxos without leading digits and hash collisions. Fails: AttributeError when uncfgspec does not match; no commands at all for asa."
  },
  {
   "property": "C68",
   "status": "partial",
   "theorems": [
    "Diff.C68_parents_partial",
    "Diff.C68_remove_fails"
   ],
   "note": "Proved for added lines; removal commands come without their parents (C68_remove_fails)."
  },
  {
   "property": "C69",
   "status": "partial",
   "theorems": [
    "Diff.C69_header_partial",
    "Diff.C69_duplicate_fails",
    "Diff.C69_swapped_fails"
   ],
   "note": "Proved for configurations without repeated paths (counts and positions); fails with repeated lines, and the two numbers are in the wrong order."
  },
  {
   "property": "C70",
   "status": "proved",
   "theorems": [
    "Cisco.C70_typed",
    "Cisco.C70_match",
    "Cisco.C70_invalid",
    "Cisco.C70_dict_keys",
    "Cisco.C70_dict_default"
   ],
   "note": "Proved for every expression of the modelled regex language (Re), every tree and every conversion."
  },
  {
   "property": "C71",
   "status": "proved",
   "theorems": [
    "Cisco.C71_arp",
    "Cisco.C71_carrierdelay",
    "Cisco.C71_xconnect",
    "Cisco.C71_numbers",
    "Cisco.C71_has"
   ],
   "note": "Proved for every configuration whose lines contain no newline, including carrier-delay in seconds or milliseconds and xconnect_vc."
  },
  {
   "property": "C72",
   "status": "partial",
   "theorems": [
    "Cisco.C72_mac_partial",
    "Cisco.C72_has_accessgroup_partial",
    "Cisco.C72_description",
    "Cisco.C72_encapsulation",
    "Cisco.C72_duplex",
    "Cisco.C72_accessgroup_partial",
    "Cisco.C72_vrf_partial",
    "Cisco.C72_blanks_fails"
   ],
   "note": "description, encapsulation and duplex for every configuration; access groups and vrf for lines without double blanks (C72_blanks_fails is the witness that the restriction is needed)."
  },
  {
   "property": "C73",
   "status": "partial",
   "theorems": [
    "Cisco.C73_ip_flags_partial",
    "Cisco.C73_ip_flags_fails",
    "Cisco.C73_shutdown",
    "Cisco.C73_mpls",
    "Cisco.C73_speed"
   ],
   "note": "shutdown, mpls and speed for every configuration; the flags that need an address for lines without double blanks. Fails with double blanks and without an address."
  },
  {
   "property": "C74",
   "status": "partial",
   "theorems": [
    "Cisco.C74_addr",
    "Cisco.C74_object",
    "Cisco.C74_consistent_partial",
    "Cisco.C74_secondary_fails"
   ],
   "note": "ipv4_addr, ipv4_netmask and the object are characterised for every configuration; they agree if no address line has words behind the mask, and disagree with a secondary line first (C74_secondary_fails)."
  },
  {
   "property": "C75",
   "status": "partial",
   "theorems": [
    "Cisco.C75_switchport",
    "Cisco.C75_modes",
    "Cisco.C75_access_vlan_partial",
    "Cisco.C75_native_vlan_partial",
    "Cisco.C75_portsecurity",
    "Cisco.C75_errors_fails",
    "Cisco.C75_encap_fails",
    "Cisco.C75_dtp_fails"
   ],
   "note": "is_switchport, modes, CDP and port security for every interface line; VLANs if they are numbers. Fails: 'switchport access vlan dynamic' raises, trunk encapsulation as routers print it is missed, has_dtp is false on every interface."
  },
  {
   "property": "C76",
   "status": "partial",
   "theorems": [
    "Cisco.C76_addr",
    "Cisco.C76_timers",
    "Cisco.C76_keychain",
    "Cisco.C76_usebia",
    "Cisco.C76_preempt_fails",
    "Cisco.C76_group",
    "Cisco.C76_mask",
    "Cisco.C76_priority_partial",
    "Cisco.C76_priority_fails"
   ],
   "note": "Address, mask, group, timers, key chain and use-bia for every configuration whose lines contain no newline; the priority for standby lines with a group number. Fails: has_hsrp_preempt looks for use-bia; hsrp_priority raises TypeError without a group number."
  },
  {
   "property": "C77",
   "status": "proved",
   "theorems": [
    "Cisco.C77_class",
    "Cisco.C77_global",
    "Cisco.C77_other",
    "Cisco.C77_sound",
    "Cisco.C77_cfg",
    "Cisco.C77_server_group"
   ],
   "note": "Proved for every text; the classes are described in the specification Spec.Kind by the words with which the line begins."
  },
  {
   "property": "C78",
   "status": "proved",
   "theorems": [
    "Cisco.C78_tree"
   ],
   "note": "Proved for every list of lines (with ignore_blank_lines, for lists without empty strings, which factory=True does not drop)."
  },
  {
   "property": "C79",
   "status": "proved",
   "theorems": [
    "Cisco.C79_route",
    "Cisco.C79_network",
    "Cisco.C79_class"
   ],
   "note": "Proved for every combination of the optional parameters and all values, for the order of parameters in the IOS syntax and single blanks between the words (which is what IOS writes); other spellings are C81."
  },
  {
   "property": "C80",
   "status": "partial",
   "theorems": [
    "Cisco.C80_global_fails",
    "Cisco.C80_refused_fails",
    "Cisco.C80_total_partial",
    "Cisco.C80_raises_fails"
   ],
   "note": "Partial: holds for configurations without routes and AAA server groups. False otherwise: 'ip route static bfd ...' and 'aaa group server radius' raise ValueError; a description mentioning 'spanning-tree portfast default' makes the line an interface global."
  },
  {
   "property": "C81",
   "status": "partial",
   "theorems": [
    "Cisco.C81_nexthop_partial",
    "Cisco.C81_nexthop_fails",
    "Cisco.C81_interface_fails",
    "Cisco.C81_order_fails",
    "Cisco.C81_ipv6_fails"
   ],
   "note": "Partial: nexthop_str holds with an address. False: nexthop_str of an interface route ends with a blank; 'dhcp' is read as an interface; two blanks before the next hop make it an interface; 'tag 5 name x' loses the name; IPv6 routes in a VRF have no network."
  },
  {
   "property": "C82",
   "status": "proved",
   "theorems": [
    "Cisco.C82_hostname",
    "Cisco.C82_name",
    "Cisco.C82_range",
    "Cisco.C82_range_str",
    "Cisco.C82_exectimeout"
   ],
   "note": "Full. line_range is for numbers without slashes (those are C83). Words are split as by str.split()."
  },
  {
   "property": "C83",
   "status": "partial",
   "theorems": [
    "Cisco.C83_minutes_fails",
    "Cisco.C83_range_fails"
   ],
   "note": "False of the code: the minutes and seconds properties raise on every input; three-part numbers lose all but the last part."
  },
  {
   "property": "C84",
   "status": "proved",
   "theorems": [
    "Cisco.C84_is_intf",
    "Cisco.C84_loopback",
    "Cisco.C84_subintf",
    "Cisco.C84_ethernet",
    "Cisco.C84_virtual",
    "Cisco.C84_channel_group",
    "Cisco.C84_global"
   ],
   "note": "Full. is_ethernet_intf looks at all words behind 'interface', the theorem says so. Letters other than ASCII have no upper and lower case in the model."
  },
  {
   "property": "C85",
   "status": "proved",
   "theorems": [
    "Cisco.C85_interface_number",
    "Cisco.C85_subinterface_number",
    "Cisco.C85_port_type",
    "Cisco.C85_type",
    "Cisco.C85_abbreviated",
    "Cisco.C85_name",
    "Cisco.C85_object",
    "Cisco.C85_no_object"
   ],
   "note": "Full, for single blanks in front of the words behind the number; interface_object without a class. Other spellings are C86."
  },
  {
   "property": "C86",
   "status": "partial",
   "theorems": [
    "Cisco.C86_class_fails",
    "Cisco.C86_blank_fails",
    "Cisco.C86_channel_fails"
   ],
   "note": "False of the code: the class is glued to the number and lost; a second blank stays in the number; 1/0.25:3 keeps its subinterface in interface_number."
  },
  {
   "property": "C87",
   "status": "proved",
   "theorems": [
    "IP.C87_reads",
    "IP.C87_regular",
    "IP.C87_writes",
    "IP.C87_exploded",
    "IP.C87_roundtrip",
    "IP.C87_hash"
   ],
   "note": "Full. Addresses whose last two groups are a dotted IPv4 address are the subject of C89."
  },
  {
   "property": "C88",
   "status": "partial",
   "theorems": [
    "IP.C88_sound_partial",
    "IP.C88_sound_fails",
    "IP.C88_mask_fails"
   ],
   "note": "Proved: some part of an accepted text is a text of the address. False of the code: the expression is searched for anywhere in the text and not anchored, so '12345::1', '1:2:3:4:5:6:7:8:9' and '1::2::3' are accepted with other addresses, and of several mask lengths the last one counts."
  },
  {
   "property": "C89",
   "status": "partial",
   "theorems": [
    "IP.C89_quad_partial",
    "IP.C89_quad_fails"
   ],
   "note": "Proved for texts of up to 43 characters. False of the code for longer ones: six full groups and a dotted quad take 45 characters, and the constructor rejects texts over 43."
  },
  {
   "property": "C90",
   "status": "proved",
   "theorems": [
    "IP.C90_masks4",
    "IP.C90_masks6",
    "IP.C90_range4",
    "IP.C90_range6",
    "IP.C90_numbers4",
    "IP.C90_numbers6",
    "IP.C90_classes4",
    "IP.C90_classes6"
   ],
   "note": "Proved for all objects. Class tests as in Python before 3.13 (mapped addresses not special)."
  },
  {
   "property": "C91",
   "status": "proved",
   "theorems": [
    "IP.C91_accepts",
    "IP.C91_stdlib",
    "IP.C91_modes"
   ],
   "note": "Proved for all texts."
  },
  {
   "property": "C92",
   "status": "partial",
   "theorems": [
    "IP.C92_accepts_partial",
    "IP.C92_long_fails",
    "IP.C92_zone_fails"
   ],
   "note": "Proved for the texts without '%'. False otherwise: texts of more than 43 characters are refused (C92_long_fails) and the mask length after a zone is lost (C92_zone_fails)."
  },
  {
   "property": "C93",
   "status": "proved",
   "theorems": [
    "IP.C93_exact"
   ],
   "note": "Proved for all texts: exact characterization."
  },
  {
   "property": "C94",
   "status": "proved",
   "theorems": [
    "Query.C94_pattern",
    "Query.C94_literal",
    "Query.C94_lines"
   ],
   "note": "Proved for all configurations, texts and patterns of the form in Query/TextSpec.lean."
  },
  {
   "property": "C95",
   "status": "partial",
   "theorems": [
    "Query.C95_pattern_partial",
    "Query.C95_words",
    "Query.C95_repeat_fails",
    "Query.C95_set_fails"
   ],
   "note": "Proved for patterns whose blanks are not escaped and not followed by +, * or ?, and for plain texts with exactmatch (same words). False otherwise: a blank followed by + raises re.error (C95_repeat_fails) and a set of characters with a blank gains a + (C95_set_fails)."
  },
  {
   "property": "C96",
   "status": "partial",
   "theorems": [
    "Query.C96_exact_partial",
    "Query.C96_alternative_fails"
   ],
   "note": "Proved for the simple patterns. False with an alternative on top level: a|b becomes ^a|b$ (C96_alternative_fails)."
  },
  {
   "property": "C97",
   "status": "proved",
   "theorems": [
    "Query.C97_parents",
    "Query.C97_without",
    "Query.C97_children"
   ],
   "note": "Proved. recurse and find_child_objects under the hypothesis that children differ in more than digits (see C30, C32)."
  },
  {
   "property": "C98",
   "status": "partial",
   "theorems": [
    "Query.C98_parents_partial",
    "Query.C98_children",
    "Query.C98_backslash_fails",
    "Query.C98_ws_fails"
   ],
   "note": "Proved for find_child_objects, and for find_parent_objects if no line has a backslash. False otherwise: the test for a substring uses the escaped text (C98_backslash_fails), and with ignore_ws the \\s+ is escaped too (C98_ws_fails)."
  },
  {
   "property": "C99",
   "status": "partial",
   "theorems": [
    "Query.C99_missing_partial",
    "Query.C99_letters_fails"
   ],
   "note": "Proved for required lines that have a letter. A line without letters is always returned (C99_letters_fails)."
  },
  {
   "property": "C100",
   "status": "partial",
   "theorems": [
    "Query.C100_words_partial",
    "Query.C100_indent_fails",
    "Query.C100_special_fails"
   ],
   "note": "Proved for required lines that are plain texts with a letter and without blanks at the ends. False otherwise: an indented required line is never found (C100_indent_fails), special characters are not escaped (C100_special_fails)."
  },
  {
   "property": "C101",
   "status": "partial",
   "theorems": [
    "Query.C101_exclusive_partial",
    "Query.C101_refused",
    "Query.C101_no_fails",
    "Query.C101_top_fails"
   ],
   "note": "Proved for violators that have a parent whose children are indented equally and for which the second expression does not find a text that begins with 'no'. False otherwise: C101_no_fails, C101_top_fails."
  },
  {
   "property": "C102",
   "status": "partial",
   "theorems": [
    "Query.C102_child_indent_partial",
    "Query.C102_banner_fails"
   ],
   "note": "Proved without banners, macros and closing braces. False for banners (C102_banner_fails)."
  },
  {
   "property": "C103",
   "status": "proved",
   "theorems": [
    "Query.C103_search",
    "Query.C103_match"
   ],
   "note": "Proved."
  },
  {
   "property": "C104",
   "status": "partial",
   "theorems": [
    "Cisco.C104_first_partial",
    "Cisco.C104_refused",
    "Cisco.C104_other_fails"
   ],
   "note": "Proved if every line that begins with 'interface' is an interface line with a type and a number. False otherwise: a line such as 'interfaces all' before the interface raises AttributeError (C104_other_fails)."
  },
  {
   "property": "C105",
   "status": "proved",
   "theorems": [
    "Cisco.C105_dna",
    "Cisco.C105_refused"
   ],
   "note": "Proved."
  },
  {
   "property": "C106",
   "status": "proved",
   "theorems": [
    "Intf.XR.C106_four",
    "Intf.XR.C106_two",
    "Intf.XR.C106_one"
   ],
   "note": "All prefixes, numbers, words of letters and digits and white texts."
  },
  {
   "property": "C107",
   "status": "partial",
   "theorems": [
    "Intf.XR.C107_dropped_fails",
    "Intf.XR.C107_subinterface_fails",
    "Intf.XR.C107_three_fails"
   ],
   "note": "Fails: text behind slot/card/processor/port is dropped (for all names and all texts that do not go on with a letter or digit), so two subinterfaces are the same interface; slot/card/port is read with the card as port and the port as processor, and str() raises ValueError."
  },
  {
   "property": "C108",
   "status": "partial",
   "theorems": [
    "Intf.XR.C108_eq",
    "Intf.XR.C108_hash",
    "Intf.XR.C108_lt",
    "Intf.XR.C108_typeError",
    "Intf.XR.C108_gt",
    "Intf.XR.C108_strict",
    "Intf.XR.C108_total_partial",
    "Intf.XR.C108_number_fails",
    "Intf.XR.C108_lt_fails"
   ],
   "note": "Equality, hashes, the strict order by texts and exactly when comparing raises TypeError are proved for all interfaces; totality for slot/card/processor/port. Fails: numbers are compared as texts (10 before 9); interfaces with different parts raise TypeError."
  },
  {
   "property": "C109",
   "status": "partial",
   "theorems": [
    "Intf.XR.C109_dict",
    "Intf.XR.C109_constructor_fails",
    "Intf.XR.C109_copy_fails",
    "Intf.XR.C109_only"
   ],
   "note": "The dictionary round trip is proved for everything that the parser returns, and C109_only says which dictionaries from_dict accepts. Fails: the constructor refuses every dictionary, because the check knows 8 keys without the processor and the update needs the processor; so it also refuses other interfaces. The value types of dictionaries are None, integers and texts."
  },
  {
   "property": "C110",
   "status": "proved",
   "theorems": [
    "Asa.C110_names",
    "Asa.C110_groups",
    "Asa.C110_access_list",
    "Asa.C110_refused"
   ],
   "note": "Asa/Model.lean models the three dictionary attributes of ConfigList with their regular expressions; 'the last line' is specified by line numbers."
  },
  {
   "property": "C111",
   "status": "proved",
   "theorems": [
    "Asa.C111_class",
    "Asa.C111_one",
    "Asa.C111_refused",
    "Asa.C111_tree",
    "Asa.C111_parse"
   ],
   "note": "All ten classes of ALL_ASA_FACTORY_CLASSES, in their order, with the real tests. lower() is modelled for ASCII letters only. Which access-list lines ASAAclLine refuses is not characterised."
  },
  {
   "property": "C112",
   "status": "partial",
   "theorems": [
    "Asa.C112_factory_partial",
    "Asa.C112_fails"
   ],
   "note": "C112_fails: a name line with two blanks in front of the name, which names (C110) accepts, makes the whole parse raise ValueError with factory=True. Proved for configurations without access lists whose name lines have a single blank there."
  },
  {
   "property": "C113",
   "status": "proved",
   "theorems": [
    "Asa.C113_strings",
    "Asa.C113_stable",
    "Asa.C113_count",
    "Asa.C113_cycle"
   ],
   "note": "network_strings is modelled by recursion over the number of nested calls that Python's stack has room for, so that the theorems speak about every stack size; Spec.Expands is an inductive specification. The name of a group that is expanded must be on a line with single blanks (C114)."
  },
  {
   "property": "C114",
   "status": "partial",
   "theorems": [
    "Asa.C114_object_fails",
    "Asa.C114_blank_fails"
   ],
   "note": "C114_object_fails: 'network-object object x', the usual form on an ASA, raises NotImplementedError. C114_blank_fails: object_group_network finds a group whose line is indented or has two blanks, but the object made for such a line is not an ASAObjGroupNetwork, so the expansion raises AttributeError."
  },
  {
   "property": "C115",
   "status": "proved",
   "theorems": [
    "Asa.C115_networks",
    "Asa.C115_cache"
   ],
   "note": "The cache is explicit state, shared by all groups; Spec.Cache are its reachable contents. IPv4Obj values are immutable in the model: a caller who changes a returned object would change the cached one."
  },
  {
   "property": "C116",
   "status": "proved",
   "theorems": [
    "Asa.C116_line",
    "Asa.C116_ports"
   ],
   "note": "Lines without a newline character (the lines of a parse)."
  },
  {
   "property": "C117",
   "status": "partial",
   "theorems": [
    "Asa.C117_numbers_partial",
    "Asa.C117_operator_fails",
    "Asa.C117_digit_fails",
    "Asa.C117_group_fails"
   ],
   "note": "Proved for port-object lines with numbers; it fails for service-object lines with an operator before the port, for ports of one character, and for group-object lines."
  },
  {
   "property": "C118",
   "status": "proved",
   "theorems": [
    "Asa.C118_reads",
    "Asa.C118_total",
    "Asa.C118_name"
   ],
   "note": "The specification (Asa/AclSpec.lean) is a grammar over the words of the line. Where a line has two readings (a name that looks like a mask, or two object groups of which the first may be for ports), the attributes are those of one of them."
  },
  {
   "property": "C119",
   "status": "proved",
   "theorems": [
    "Asa.C119_accepts",
    "Asa.C119_refuses",
    "Asa.C119_names"
   ],
   "note": "Words behind the destination of a standard list, and words behind the destination of a list for ICMP, are not looked at by the code, so any may follow; the specification says so (Target, IcmpTarget)."
  },
  {
   "property": "C120",
   "status": "partial",
   "theorems": [
    "Asa.C120_icmp_partial",
    "Asa.C120_any4_fails"
   ],
   "note": "Proved for every line whose destination is not any4. For every line for ICMP with destination any4 the words behind it are lost (C120_any4_fails): the expression tries any first and is not anchored at the end."
  },
  {
   "property": "C121",
   "status": "proved",
   "theorems": [
    "Junos.C121_is_intf",
    "Junos.C121_name_outer",
    "Junos.C121_name_inner",
    "Junos.C121_no_name",
    "Junos.C121_switchport"
   ],
   "note": "Over the brace documents of Junos/Spec: is_intf, name, is_switchport for every line of every document. Hypothesis: no top level statement begins with a digit (objects are compared by line number and text)."
  },
  {
   "property": "C122",
   "status": "partial",
   "theorems": [
    "Junos.C122_unit_partial",
    "Junos.C122_any_fails",
    "Junos.C122_kinds_fails"
   ],
   "note": "Proved: units are subinterfaces, interfaces without 'unit' in the name are not. Missing: 'no other line' is false, every statement with 'unit' in it or in the name is one (C122_any_fails), and the other kinds are never True for a line inside a block (C122_kinds_fails)."
  },
  {
   "property": "C123",
   "status": "partial",
   "theorems": [
    "Hsrp.C123_groups_partial",
    "Hsrp.C123_raises_fails"
   ],
   "note": "Proved for interfaces where every line with 'standby <number> ip' in it has a number as its second word; otherwise (a description, 'no standby 1 ip') ValueError is raised (C123_raises_fails, for all such lines)."
  },
  {
   "property": "C124",
   "status": "proved",
   "theorems": [
    "Hsrp.C124_priority",
    "Hsrp.C124_version",
    "Hsrp.C124_preempt",
    "Hsrp.C124_ipv4",
    "Hsrp.C124_ipv6",
    "Hsrp.C124_name",
    "Hsrp.C124_hello",
    "Hsrp.C124_hold",
    "Hsrp.C124_use_bia"
   ],
   "note": "Each attribute in terms of the first line whose words, in small letters, begin with those of the attribute; hold_timer for interfaces where no other line of the group has msec as its last word but one."
  },
  {
   "property": "C125",
   "status": "partial",
   "theorems": [
    "Hsrp.C125_delay_fails",
    "Hsrp.C125_ipv4_fails",
    "Hsrp.C125_secondary_fails",
    "Hsrp.C125_md5_fails"
   ],
   "note": "None of it holds: preempt_delay is always 0, ip is 'secondary', without a line ip never gets to raise ValueError (RecursionError at every depth), no group has a key chain."
  },
  {
   "property": "C126",
   "status": "partial",
   "theorems": [
    "Hsrp.C126_tracking_partial",
    "Hsrp.C126_short_fails"
   ],
   "note": "Proved for names of two characters or more and one blank behind 'standby'. A name of one character without decrement (standby 1 track 5) raises ValueError (C126_short_fails)."
  },
  {
   "property": "C127",
   "status": "proved",
   "theorems": [
    "Edit.C127_eq",
    "Edit.C127_history"
   ],
   "note": "all pairs of configurations whose line numbers are positions; Python's string hash is taken to be injective (as for C43)"
  },
  {
   "property": "C128",
   "status": "partial",
   "theorems": [
    "Edit.C128_lt_partial",
    "Edit.C128_gt_partial",
    "Edit.C128_ge_partial",
    "Edit.C128_ge_fails",
    "Edit.C128_le_fails"
   ],
   "note": "< and > proved for all such pairs, >= when one configuration begins with the other; refuted: objs <= objs is False for every configuration, and >= raises TypeError for every pair that differs at a common place"
  },
  {
   "property": "C129",
   "status": "partial",
   "theorems": [
    "Edit.C129_slice_fails",
    "Edit.C129_range_fails",
    "Edit.C129_sum_fails",
    "Edit.C129_item_partial",
    "Edit.C129_copy_partial"
   ],
   "note": "single elements and copy.copy proved; refuted for all: no slice is ever a list with lines, slices that select a line, sums, multiples and copy() raise ValueError for every non-empty configuration"
  },
  {
   "property": "C130",
   "status": "partial",
   "theorems": [
    "Edit.C130_find_partial",
    "Edit.C130_text",
    "Edit.C130_fails"
   ],
   "note": "proved when no line starts with a digit; strings proved for all; refuted by a configuration in which remove takes out another line"
  },
  {
   "property": "C131",
   "status": "partial",
   "theorems": [
    "Edit.C131_pop_partial",
    "Edit.C131_last_partial",
    "Edit.C131_pop_fails",
    "Edit.C131_delete_fails",
    "Edit.C131_reverse_fails",
    "Edit.C131_append_fails",
    "Edit.C131_search_partial",
    "Edit.C131_sort_partial"
   ],
   "note": "the lists are proved; refuted for all configurations: after pop of any line but the last the numbers behind it are off by one and deleting a leaf deletes the next line or raises, after reverse the numbers are wrong, after append(text) searches raise"
  },
  {
   "property": "C132",
   "status": "proved",
   "theorems": [
    "Edit.C132_hierarchy",
    "Edit.C132_iterators"
   ],
   "note": ""
  },
  {
   "property": "C133",
   "status": "partial",
   "theorems": [
    "Edit.C133_top_partial",
    "Edit.C133_complete_partial",
    "Edit.C133_banner_fails",
    "Edit.C133_indented_fails"
   ],
   "note": "proved for lines outside banners, macros and closing braces; refuted for all flush lines in banners, and for indented lines without a parent"
  },
  {
   "property": "C134",
   "status": "proved",
   "theorems": [
    "Nxos.C134_numbers",
    "Nxos.C134_vlans"
   ],
   "note": ""
  },
  {
   "property": "C135",
   "status": "partial",
   "theorems": [
    "Nxos.C135_texts_partial",
    "Nxos.C135_short_fails",
    "Nxos.C135_vrf_partial",
    "Nxos.C135_vrf_fails"
   ],
   "note": "proved for texts of at least two characters and tidy lines (vrf); refuted for all one-character texts"
  },
  {
   "property": "C136",
   "status": "proved",
   "theorems": [
    "Nxos.C136_switchport",
    "Nxos.C136_flags",
    "Nxos.C136_cdp"
   ],
   "note": ""
  },
  {
   "property": "C137",
   "status": "partial",
   "theorems": [
    "Nxos.C137_modes_partial",
    "Nxos.C137_portsecurity_partial",
    "Nxos.C137_mac_partial",
    "Nxos.C137_modes_fails"
   ],
   "note": "proved for lines without two blanks in a row; refuted with two blanks behind switchport"
  },
  {
   "property": "C138",
   "status": "proved",
   "theorems": [
    "Nxos.C138_addr"
   ],
   "note": ""
  },
  {
   "property": "C139",
   "status": "proved",
   "theorems": [
    "Nxos.C139_objects",
    "Nxos.C139_dhcp"
   ],
   "note": "the address 0.0.0.1/32, which the code uses for a missing one, counts as missing in has_no_ipv4 and ipv4_netmask"
  },
  {
   "property": "C140",
   "status": "partial",
   "theorems": [
    "Nxos.C140_subnets_partial",
    "Nxos.C140_no_list",
    "Nxos.C140_empty_fails",
    "Nxos.C140_one_fails"
   ],
   "note": "proved for at least one subnet and every address but 0.0.0.1; refuted for the empty set in every configuration (unbound local) and for 0.0.0.1/24"
  },
  {
   "property": "C141",
   "status": "partial",
   "theorems": [
    "Nxos.C141_flags_partial",
    "Nxos.C141_arp",
    "Nxos.C141_pim_fails",
    "Nxos.C141_flags_fails"
   ],
   "note": "proved for lines without two blanks in a row; refuted: in every interface with an address the PIM properties raise re.error"
  },
  {
   "property": "C142",
   "status": "partial",
   "theorems": [
    "Nxos.C142_helpers_partial",
    "Nxos.C142_none",
    "Nxos.C142_no_vrf_fails",
    "Nxos.C142_doc_fails"
   ],
   "note": "Partial: proved for interfaces in a VRF whose first line with the text vrf member is vrf member V. C142_no_vrf_fails: without such a line, any relay line makes both properties raise UnboundLocalError, for every interface; the documented example is one (C142_doc_fails)."
  },
  {
   "property": "C143",
   "status": "partial",
   "theorems": [
    "Nxos.C143_trunk_partial",
    "Nxos.C143_none",
    "Nxos.C143_add_fails",
    "Nxos.C143_list_fails"
   ],
   "note": "Partial: proved for histories of all, none, lists, except N, remove N and add N to the empty set. C143_add_fails: once the set is not empty, every add statement raises an exception; C143_list_fails: every except or remove statement with a comma or hyphen raises ValueError. Both hold for every interface and every history before the statement."
  },
  {
   "property": "C144",
   "status": "proved",
   "theorems": [
    "Nxos.C144_group",
    "Nxos.C144_addr",
    "Nxos.C144_usebia"
   ],
   "note": "Groups are the child lines hsrp N; addresses are looked up below each group in turn."
  },
  {
   "property": "C145",
   "status": "partial",
   "theorems": [
    "Nxos.C145_priority_partial",
    "Nxos.C145_priority_fails",
    "Nxos.C145_timers_partial",
    "Nxos.C145_timers_fails",
    "Nxos.C145_last_partial",
    "Nxos.C145_preempt_fails"
   ],
   "note": "Partial: the priority of the first group if it is set and not 100, the timers of the first group, track and preempt of the last group. C145_priority_fails: without a priority other than 100 the result is None; C145_timers_fails: without a group both timers raise UnboundLocalError; C145_preempt_fails: a preempt line of an earlier group is lost when a later group has none."
  },
  {
   "property": "C146",
   "status": "partial",
   "theorems": [
    "Nxos.C146_peerlink_partial",
    "Nxos.C146_peerlink_fails"
   ],
   "note": "Partial: without a vpc peer-link line the result is empty. C146_peerlink_fails: every interface with the line raises IndexError, because the expression has no group 1."
  },
  {
   "property": "C147",
   "status": "partial",
   "theorems": [
    "Nxos.C147_storm_partial",
    "Nxos.C147_storm_fails",
    "Nxos.C147_dtp_partial",
    "Nxos.C147_dtp_fails",
    "Nxos.C147_encap_fails"
   ],
   "note": "Partial: storm control is found only in lines that are the one word storm-control; has_dtp is decided by the first child. C147_storm_fails, C147_dtp_fails and C147_encap_fails."
  },
  {
   "property": "C148",
   "status": "partial",
   "theorems": [
    "Aaa.C148_authn_partial",
    "Aaa.C148_authz_partial",
    "Aaa.C148_methods_fails",
    "Aaa.C148_last_fails",
    "Aaa.C148_local_fails"
   ],
   "note": "Partial: lines with a group and one method. C148_methods_fails: several methods are always one text; C148_last_fails: without methods the group loses its last character, which becomes the method; C148_local_fails: without the word group everything is empty."
  },
  {
   "property": "C149",
   "status": "proved",
   "theorems": [
    "Aaa.C149_commands",
    "Aaa.C149_commands_other",
    "Aaa.C149_exec",
    "Aaa.C149_exec_other"
   ],
   "note": "The canonical lines and every other single-blank line."
  },
  {
   "property": "C150",
   "status": "proved",
   "theorems": [
    "Aaa.C150_group",
    "Aaa.C150_group_other",
    "Aaa.C150_vrf_nxos",
    "Aaa.C150_vrf_ios",
    "Aaa.C150_source"
   ],
   "note": "The group line for single-blank lines; vrf and source_interface for every parsed configuration."
  },
  {
   "property": "C151",
   "status": "partial",
   "theorems": [
    "Aaa.C151_private_partial",
    "Aaa.C151_private_fails"
   ],
   "note": "Partial: servers with something behind them. C151_private_fails: the expression wants a blank behind the server, so a configuration whose server-private lines have nothing behind the server has no servers."
  },
  {
   "property": "C152",
   "status": "proved",
   "theorems": [
    "Nxos.Domain.C152_id",
    "Nxos.Domain.C152_numbers",
    "Nxos.Domain.C152_mac",
    "Nxos.Domain.C152_flags",
    "Nxos.Domain.C152_layer3"
   ],
   "note": "The number for every line without blanks at its ends; the others for every parsed configuration."
  },
  {
   "property": "C153",
   "status": "partial",
   "theorems": [
    "Nxos.Domain.C153_arp_partial",
    "Nxos.Domain.C153_arp_fails"
   ],
   "note": "Partial: the text ip arp synchronize anywhere in a line counts. C153_arp_fails: no ip arp synchronize also gives true."
  },
  {
   "property": "C154",
   "status": "partial",
   "theorems": [
    "Nxos.Domain.C154_text_partial",
    "Nxos.Domain.C154_numbers_partial",
    "Nxos.Domain.C154_total",
    "Nxos.Domain.C154_timeout_fails",
    "Nxos.Domain.C154_no_fails"
   ],
   "note": "Partial: where no word other than the keyword ends with the keyword. C154_timeout_fails: hold-timeout N before timeout is read as the timeout; C154_no_fails: no peer-keepalive destination A gives the destination A. C154_total: no exception as long as the values behind tos-byte are numbers."
  },
  {
   "property": "C155",
   "status": "proved",
   "theorems": [
    "Nxos.Lines.C155_route",
    "Nxos.Lines.C155_network"
   ],
   "note": "The canonical IPv4 form with every combination of the optional parameters."
  },
  {
   "property": "C156",
   "status": "partial",
   "theorems": [
    "Nxos.Lines.C156_netmask_fails",
    "Nxos.Lines.C156_nexthop_partial",
    "Nxos.Lines.C156_nexthop_fails",
    "Nxos.Lines.C156_ipv6_fails",
    "Nxos.Lines.C156_text_fails"
   ],
   "note": "Partial: next hops with an address. C156_nexthop_fails: over an interface alone nexthop_str ends with a blank; C156_ipv6_fails: every IPv6 route raises KeyError for tracking_object_name and routeinfo and NotImplementedError for route_name; C156_text_fails: two blanks before the next hop, another order."
  },
  {
   "property": "C157",
   "status": "proved",
   "theorems": [
    "Nxos.Lines.C157_class",
    "Nxos.Lines.C157_global",
    "Nxos.Lines.C157_other",
    "Nxos.Lines.C157_sound",
    "Nxos.Lines.C157_route"
   ],
   "note": "All lines, for all classes."
  },
  {
   "property": "C158",
   "status": "partial",
   "theorems": [
    "Nxos.Lines.C158_total_partial",
    "Nxos.Lines.C158_word_fails",
    "Nxos.Lines.C158_refused_fails",
    "Nxos.Lines.C158_global_fails"
   ],
   "note": "Partial: lines that are no routes and no AAA server groups. C158_word_fails: every line that begins with ip route and goes on without a blank raises ValueError; C158_refused_fails; C158_global_fails: a description that contains the words of a global default becomes one."
  },
  {
   "property": "C159",
   "status": "proved",
   "theorems": [
    "Nxos.Lines.C159_hostname",
    "Nxos.Lines.C159_name",
    "Nxos.Lines.C159_range",
    "Nxos.Lines.C159_global"
   ],
   "note": "The expressions are those of IOS."
  },
  {
   "property": "C160",
   "status": "partial",
   "theorems": [
    "Nxos.Lines.C160_exectimeout_partial",
    "Nxos.Lines.C160_minutes_fails",
    "Nxos.Lines.C160_range_fails"
   ],
   "note": "Partial: parse_exectimeout as a list. C160_minutes_fails: minutes and seconds always raise an exception; C160_range_fails: ranges with slots."
  },
  {
   "property": "C161",
   "status": "proved",
   "theorems": [
    "Intf.State.C161_number",
    "Intf.State.C161_text",
    "Intf.State.C161_none",
    "Intf.State.C161_words",
    "Intf.State.C161_error"
   ],
   "note": "All attributes and all values (None, integers, texts)."
  },
  {
   "property": "C162",
   "status": "proved",
   "theorems": [
    "Intf.State.C162_port",
    "Intf.State.C162_sub",
    "Intf.State.C162_slot",
    "Intf.State.C162_words"
   ],
   "note": "All parts; slot and card for interfaces with a slot."
  },
  {
   "property": "C163",
   "status": "partial",
   "theorems": [
    "Intf.State.C163_separator_fails",
    "Intf.State.C163_slot_fails",
    "Intf.State.C163_card_fails",
    "Intf.State.C163_port_fails",
    "Intf.State.C163_negative_fails"
   ],
   "note": "The part that holds is C162. C163_slot_fails: a slot on an interface without one gives a name with None between the numbers; C163_card_fails: str() raises ValueError; C163_port_fails: str() raises ValueError or ends the interpreter; C163_negative_fails: the name is read as another interface; C163_separator_fails: None never removes the separator."
  },
  {
   "property": "C164",
   "status": "proved",
   "theorems": [
    "Intf.State.C164_dict",
    "Intf.State.C164_copy",
    "Intf.State.C164_keys",
    "Intf.State.C164_missing"
   ],
   "note": "Objects reached by any sequence of assignments."
  },
  {
   "property": "C165",
   "status": "partial",
   "theorems": [
    "Intf.State.C165_copy_partial",
    "Intf.State.C165_card_fails",
    "Intf.State.C165_error_fails",
    "Intf.State.C165_xr_fails"
   ],
   "note": "Partial: objects with a port, a card only with a slot, a separator with a slot. C165_card_fails: the card is lost; C165_error_fails: exceptions; C165_xr_fails: no IOS XR interface can be copied."
  },
  {
   "property": "C166",
   "status": "partial",
   "theorems": [
    "Intf.State.C166_numbers",
    "Intf.State.C166_tail_partial",
    "Intf.State.C166_tail_fails",
    "Intf.State.C166_xr_fails"
   ],
   "note": "Partial: no subinterface and no channel, or a card and a subinterface. C166_tail_fails: all other interfaces raise ValueError; C166_xr_fails: the processor is lost."
  },
  {
   "property": "C167",
   "status": "proved",
   "theorems": [
    "IP.C167_addresses",
    "IP.C167_largest",
    "IP.C167_fewest",
    "IP.C167_same",
    "IP.C167_again"
   ],
   "note": "Proved for all lists of networks of one version. The algorithm of the standard library (ranges, summaries, merging loop, final pass) is modelled step by step rather than assumed; the merging loop is proved with an invariant over its stack and dictionary, the maximality by induction over the prefix length."
  },
  {
   "property": "C168",
   "status": "proved",
   "theorems": [
    "IP.C168_mixed",
    "IP.C168_sequence",
    "IP.C168_other",
    "IP.C168_empty"
   ],
   "note": "Proved for all lists; the generator is consumed in the model, so an error raised during iteration is an error of the call."
  },
  {
   "property": "C169",
   "status": "partial",
   "theorems": [
    "Cisco.C169_subnet",
    "Cisco.C169_subnets_partial",
    "Cisco.C169_empty_fails"
   ],
   "note": "in_ipv4_subnet proved in full. in_ipv4_subnets proved for lists with at least one non-empty object; for the others it raises UnboundLocalError (C169_empty_fails, for every interface)."
  },
  {
   "property": "C170",
   "status": "partial",
   "theorems": [
    "Cisco.C170_network_fails"
   ],
   "note": "Fails for every interface (C170_network_fails): the property reads an attribute ipv4_mask which no class has and the exception is swallowed, so the result is always the empty object."
  },
  {
   "property": "C171",
   "status": "proved",
   "theorems": [
    "Cisco.C171_sets",
    "Cisco.C171_invalid",
    "Cisco.C171_has"
   ],
   "note": "Proved. KidsNoDigits says that no line that is a child of another begins with a digit; equality of line objects compares line number and text glued together, so `all_children` could otherwise drop a line."
  },
  {
   "property": "C172",
   "status": "partial",
   "theorems": [
    "Cisco.C172_auto_partial",
    "Cisco.C172_duplex_auto_fails"
   ],
   "note": "Proved with `a duplex line` in place of `a fixed duplex mode`; `duplex auto` counts as fixed (C172_duplex_auto_fails)."
  },
  {
   "property": "C173",
   "status": "proved",
   "theorems": [
    "Cisco.C173_object"
   ],
   "note": "Proved. The prefix length is written with at most three digits; longer ones run into the length limit of the address parser."
  },
  {
   "property": "C174",
   "status": "partial",
   "theorems": [
    "Cisco.C174_addr_partial",
    "Cisco.C174_addr_fails"
   ],
   "note": "Proved: the text up to the first slash, so the address when a prefix length follows it at once; empty when a dynamic line is present. Fails otherwise (C174_addr_fails): for `fe80::1 link-local` the keyword is part of the result, and a dynamic line hides a static address."
  },
  {
   "property": "C175",
   "status": "proved",
   "theorems": [
    "Asa.C175_text",
    "Asa.C175_object"
   ],
   "note": "Proved. An address without a mask on its own line would be combined with the mask of another line; the theorem about the object asks that each address has its mask."
  },
  {
   "property": "C176",
   "status": "proved",
   "theorems": [
    "Asa.C176_subnet",
    "Asa.C176_no_list",
    "Asa.C176_none"
   ],
   "note": "Proved, for non-empty lists (for [] see C182)."
  },
  {
   "property": "C177",
   "status": "partial",
   "theorems": [
    "Asa.C177_standby_partial",
    "Asa.C177_blanks_fails"
   ],
   "note": "Proved for lines without two blanks next to each other (C177_standby_partial). Fails otherwise: the expression allows one blank before standby only (C177_blanks_fails)."
  },
  {
   "property": "C178",
   "status": "proved",
   "theorems": [
    "Asa.C178_object",
    "Asa.C178_standby"
   ],
   "note": "Proved. The prefix length is written with at most three digits."
  },
  {
   "property": "C179",
   "status": "proved",
   "theorems": [
    "Asa.C179_numbers",
    "Asa.C179_flags"
   ],
   "note": "Proved."
  },
  {
   "property": "C180",
   "status": "partial",
   "theorems": [
    "Asa.C180_description_partial",
    "Asa.C180_auto_partial",
    "Asa.C180_access_partial",
    "Asa.C180_fails"
   ],
   "note": "Proved as far as it holds (C180_*_partial). Fails (C180_fails): a description of one letter is lost, `duplex auto` counts as a fixed duplex, two blanks after switchport hide the access mode."
  },
  {
   "property": "C181",
   "status": "proved",
   "theorems": [
    "Asa.C181_name",
    "Asa.C181_ordinals",
    "Asa.C181_kinds",
    "Asa.C181_virtual"
   ],
   "note": "Proved. The kinds of is_virtual_intf have to be written with just the capitals of the code: Port-channel is not virtual."
  },
  {
   "property": "C182",
   "status": "partial",
   "theorems": [
    "Asa.C182_raises_fails",
    "Asa.C182_pim_fails",
    "Asa.C182_port_fails"
   ],
   "note": "Fails: has_manual_switch_trunk_encap always raises AttributeError, in_ipv4_subnets([]) raises UnboundLocalError (C182_raises_fails), has_ip_pim_sparse_mode raises re.error for every interface with an address (C182_pim_fails), port raises IndexError for every interface line without a digit (C182_port_fails)."
  },
  {
   "property": "C183",
   "status": "proved",
   "theorems": [
    "Range.C183_getitem",
    "Range.C183_search",
    "Range.C183_reversed",
    "Range.C183_delete",
    "Range.C183_equality",
    "Range.C183_text"
   ],
   "note": "Proved. The methods inherited from collections.abc.MutableSequence are modelled from the standard library. str round trip for natural numbers, the only ones a range text can denote."
  },
  {
   "property": "C184",
   "status": "partial",
   "theorems": [
    "Range.C184_as_set_partial",
    "Range.C184_as_set_fails",
    "Range.C184_setitem_fails",
    "Range.C184_setitem_silent_fails",
    "Range.C184_reverse_fails",
    "Range.C184_unsupported_fails"
   ],
   "note": "as_set(int) and as_set() of an empty range are right (C184_as_set_partial). Fails: assignment stores nothing (C184_setitem_fails, C184_setitem_silent_fails), so reverse() does nothing (C184_reverse_fails); as_set() raises TypeError for every non-empty range (C184_as_set_fails); slices, insert and the hash of an empty range raise (C184_unsupported_fails)."
  },
  {
   "property": "C185",
   "status": "partial",
   "theorems": [
    "Range.C185_extend_partial",
    "Range.C185_extend_fails"
   ],
   "note": "Proved for new members (C185_extend_partial). Fails (C185_extend_fails): with a member among the values it raises and keeps the values before that one."
  },
  {
   "property": "C186",
   "status": "proved",
   "theorems": [
    "Xr.C186_addr"
   ],
   "note": "Proved."
  },
  {
   "property": "C187",
   "status": "proved",
   "theorems": [
    "Xr.C187_objects",
    "Xr.C187_dhcp"
   ],
   "note": "Proved."
  },
  {
   "property": "C188",
   "status": "partial",
   "theorems": [
    "Xr.C188_subnets_partial",
    "Xr.C188_empty_fails",
    "Xr.C188_one_fails"
   ],
   "note": "Partial: proved for interfaces with a valid address other than 0.0.0.1 and for collections that are not empty. C188_empty_fails: an empty collection raises UnboundLocalError; C188_one_fails: for 0.0.0.1 with any mask the answer is None."
  },
  {
   "property": "C189",
   "status": "proved",
   "theorems": [
    "Xr.C189_name",
    "Xr.C189_parts",
    "Xr.C189_portchannel",
    "Xr.C189_none"
   ],
   "note": "Proved for the forms named in the statement (C189_name, C189_parts, C189_none)."
  },
  {
   "property": "C190",
   "status": "partial",
   "theorems": [
    "Xr.C190_bundle_partial",
    "Xr.C190_sub_fails",
    "Xr.C190_three_fails"
   ],
   "note": "Fails: C190_sub_fails, for every slot/card/processor/port.sub the name is that of the main interface; C190_three_fails, for every slot/card/port reading the name raises ValueError. C190_bundle_partial: port.sub keeps its number."
  },
  {
   "property": "C191",
   "status": "partial",
   "theorems": [
    "Xr.C191_ordinals_partial",
    "Xr.C191_management_fails"
   ],
   "note": "Partial: proved for numbers without letters. C191_management_fails: a letter in the card or the processor (0/RP0/CPU0/0) raises ValueError, for every such interface."
  },
  {
   "property": "C192",
   "status": "proved",
   "theorems": [
    "Xr.C192_numbers",
    "Xr.C192_carrierdelay",
    "Xr.C192_words",
    "Xr.C192_flags",
    "Xr.C192_vlans"
   ],
   "note": "Proved."
  },
  {
   "property": "C193",
   "status": "partial",
   "theorems": [
    "Xr.C193_description_partial",
    "Xr.C193_auto_partial",
    "Xr.C193_switch_partial",
    "Xr.C193_switch_fails",
    "Xr.C193_fails"
   ],
   "note": "Partial: descriptions and duplex values of at least two letters, single blanks. C193_switch_fails and C193_fails: storm control with an argument and DTP are never seen, the trunk encapsulation only with the keyword cut to encap (and then the whole line is the answer), one-letter descriptions are lost, `duplex auto` counts as fixed."
  },
  {
   "property": "C194",
   "status": "partial",
   "theorems": [
    "Xr.C194_vrf_partial",
    "Xr.C194_vrf_fails"
   ],
   "note": "Fails (C194_vrf_fails): every interface with a line `vrf NAME` raises IndexError, since the second group of an expression with one group is read. C194_vrf_partial: without one, vrf is empty."
  },
  {
   "property": "C195",
   "status": "proved",
   "theorems": [
    "Xr.C195_address",
    "Xr.C195_lines"
   ],
   "note": "Proved."
  },
  {
   "property": "C196",
   "status": "partial",
   "theorems": [
    "Xr.C196_preempt_fails"
   ],
   "note": "Fails (C196_preempt_fails): has_hsrp_preempt looks for use-bia, so it is false for every interface without that line."
  },
  {
   "property": "C197",
   "status": "partial",
   "theorems": [
    "Xr.C197_flags_partial",
    "Xr.C197_arp_partial",
    "Xr.C197_dhcp_fails",
    "Xr.C197_access_partial",
    "Xr.C197_lines_fails"
   ],
   "note": "Partial: single blanks, no DHCP. C197_dhcp_fails: with DHCP every one of these attributes raises; C197_lines_fails: two blanks hide a line, and `ipv4 access-group A ingress` is not seen."
  },
  {
   "property": "C198",
   "status": "partial",
   "theorems": [
    "Xr.C198_trunk_partial",
    "Xr.C198_none",
    "Xr.C198_add_fails",
    "Xr.C198_list_fails"
   ],
   "note": "Partial, as C143 for NXOS: the code is the same text. C198_add_fails and C198_list_fails are universal."
  },
  {
   "property": "C199",
   "status": "partial",
   "theorems": [
    "Query.C199_child_partial",
    "Query.C199_find",
    "Query.C199_literal_fails"
   ],
   "note": "Partial: proved for expressions that match their own text and never the empty string, with all_children also no child's text starting with a digit; the connection with find_parent_objects holds for every expression (C199_find). C199_literal_fails: a child that contains the text of the expression counts although the expression does not match it."
  },
  {
   "property": "C200",
   "status": "partial",
   "theorems": [
    "Query.C200_parent",
    "Query.C200_child_partial",
    "Query.C200_listed_partial",
    "Query.C200_geneology_partial",
    "Query.C200_digit_fails"
   ],
   "note": "Partial: is_parent fully proved; is_child and geneology_text when no text starts with a digit (and for the children list, without brace lines). C200_digit_fails: a line that compares equal to its parent is no child."
  },
  {
   "property": "C201",
   "status": "proved",
   "theorems": [
    "Query.C201_add_child",
    "Query.C201_twice",
    "Query.C201_descendants"
   ],
   "note": "Proved. C201_twice and C201_descendants hold for every state."
  },
  {
   "property": "C202",
   "status": "partial",
   "theorems": [
    "Query.C202_both_partial",
    "Query.C202_child_fails",
    "Query.C202_parent_fails"
   ],
   "note": "Fails in both directions for every configuration (C202_child_fails, C202_parent_fails): each call sets one link only. C202_both_partial: both calls together link the lines in both directions."
  },
  {
   "property": "C203",
   "status": "proved",
   "theorems": [
    "Nxos.C203_name",
    "Nxos.C203_parts",
    "Nxos.C203_ordinals",
    "Nxos.C203_none"
   ],
   "note": "Proved (C203_name, C203_parts, C203_ordinals, C203_none)."
  },
  {
   "property": "C204",
   "status": "proved",
   "theorems": [
    "Nxos.C204_ethernet",
    "Nxos.C204_kinds",
    "Nxos.C204_portchannel",
    "Nxos.C204_channel_group"
   ],
   "note": "Proved."
  },
  {
   "property": "C205",
   "status": "partial",
   "theorems": [
    "Nxos.C205_auto_partial",
    "Nxos.C205_duplex_auto_fails"
   ],
   "note": "Partial: what counts as fixed duplex is any value of at least two letters. C205_duplex_auto_fails: `duplex auto` counts as fixed."
  },
  {
   "property": "C206",
   "status": "proved",
   "theorems": [
    "Cisco.C206_eq",
    "Cisco.C206_equivalence",
    "Cisco.C206_hash"
   ],
   "note": "Proved (C206_eq, C206_equivalence, C206_hash)."
  },
  {
   "property": "C207",
   "status": "partial",
   "theorems": [
    "Cisco.C207_different_partial",
    "Cisco.C207_number",
    "Cisco.C207_same_fails"
   ],
   "note": "Partial: tracked interfaces with different names are different and equal data give equal hashes. C207_same_fails: comparing two of the same name, also one with itself, raises AttributeError, and so does printing one."
  },
  {
   "property": "C208",
   "status": "partial",
   "theorems": [
    "Misc.C208_v4_partial",
    "Misc.C208_v6_fails"
   ],
   "note": "Partial: exact for IPv4 texts (C208_v4_partial). C208_v6_fails: every IPv6 text raises ValueError."
  },
  {
   "property": "C209",
   "status": "proved",
   "theorems": [
    "Misc.C209_eq"
   ],
   "note": "Proved."
  },
  {
   "property": "C210",
   "status": "proved",
   "theorems": [
    "Misc.C210_search",
    "Misc.C210_current"
   ],
   "note": "Proved. The engine of Python (compile and search) is a parameter; the statement holds for each."
  },
  {
   "property": "C211",
   "status": "partial",
   "theorems": [
    "Misc.C211_captured_partial",
    "Misc.C211_target_fails",
    "Misc.C211_flags_fails",
    "Misc.C211_flags_dropped_fails"
   ],
   "note": "Partial: proved for wrappers built without a text. C211_target_fails: built with a text, captured is empty and a search raises. C211_flags_fails: assigning the same expression drops the flags."
  },
  {
   "property": "C212",
   "status": "partial",
   "theorems": [
    "Diff.C212_lines_partial",
    "Diff.C212_object_fails"
   ],
   "note": "Partial: lists and files, with blank lines kept. C212_object_fails: a parsed configuration is never compared, RequirementFailure is raised."
  },
  {
   "property": "C213",
   "status": "proved",
   "theorems": [
    "Intf.XRState.C213_number",
    "Intf.XRState.C213_text",
    "Intf.XRState.C213_words",
    "Intf.XRState.C213_error"
   ],
   "note": "Proved (C213_number, C213_text, C213_words, C213_error)."
  },
  {
   "property": "C214",
   "status": "partial",
   "theorems": [
    "Intf.XRState.C214_same_partial",
    "Intf.XRState.C214_integer_fails"
   ],
   "note": "Partial: texts come back unchanged (C214_same_partial). C214_integer_fails: an integer assigned to slot, card or processor is read back as a text."
  },
  {
   "property": "C215",
   "status": "partial",
   "theorems": [
    "Intf.XRState.C215_name_partial",
    "Intf.XRState.C215_assign_partial",
    "Intf.XRState.C215_none_fails"
   ],
   "note": "Partial: proved for objects with all numbers (C215_name_partial, C215_assign_partial). C215_none_fails: a slot assigned to an interface with one number makes a name with the word None in it."
  },
  {
   "property": "C216",
   "status": "proved",
   "theorems": [
    "Intf.XRState.C216_dict"
   ],
   "note": "Proved."
  },
  {
   "property": "C217",
   "status": "proved",
   "theorems": [
    "Query.C217_block",
    "Query.C217_family"
   ],
   "note": "Proved. There is no condition on what stands before the block, not even that its banners end. Parents are not part of the claim: below an open banner the parent of the block's first line is the banner."
  },
  {
   "property": "C218",
   "status": "proved",
   "theorems": [
    "Cisco.C218_settings",
    "Cisco.C218_addresses",
    "Cisco.C218_subnets",
    "Cisco.C218_switch",
    "Cisco.C218_hsrp",
    "Cisco.C218_groups"
   ],
   "note": "Proved for the modelled attributes that are read from the interface and its descendants. Not among them: ip_secondary_addresses and ip_secondary_networks, which start from the parent of the interface line."
  },
  {
   "property": "C219",
   "status": "proved",
   "theorems": [
    "Asa.C219_asa_settings",
    "Asa.C219_asa_standby6",
    "Asa.C219_asa_subnets",
    "Nxos.C219_nxos_settings",
    "Nxos.C219_nxos_others",
    "Nxos.C219_nxos_domain",
    "Nxos.C219_nxos_subnets",
    "Nxos.C219_nxos_hsrp",
    "Xr.C219_xr_settings",
    "Xr.C219_xr_others",
    "Xr.C219_xr_hsrp",
    "Xr.C219_xr_subnets"
   ],
   "note": "Proved for the modelled attributes."
  },
  {
   "property": "C220",
   "status": "proved",
   "theorems": [
    "Query.C220_parents",
    "Query.C220_children"
   ],
   "note": "Proved. The condition about banners and macros of the second part is needed because a banner above can be the parent of the block's first line."
  },
  {
   "property": "C221",
   "status": "partial",
   "theorems": [
    "Edit.C221_commit",
    "Edit.C221_delete_partial",
    "Edit.C221_insert",
    "Edit.C221_comment_fails"
   ],
   "note": "The general part and the part about insertion are proved. The part about deletion (C221_delete_partial) needs configuration lines only, no banners, macros or closing braces, and deleted lines that do not start with a digit. C221_comment_fails: with comments it is false. A comment below the deleted line is not among its children, stays, and becomes a child of the interface before."
  },
  {
   "property": "C222",
   "status": "partial",
   "theorems": [
    "Edit.C222_insert_partial",
    "Edit.C222_delete_partial",
    "Edit.C222_adopt_fails"
   ],
   "note": "C222_insert_partial and C222_delete_partial: for configurations without blank lines, banners, macros and closing braces, and inserted or deleted lines that do not start with a digit. An inserted line must be a comment, or be followed by a configuration line that is not deeper, or by nothing. C222_adopt_fails: otherwise it becomes the parent of the deeper line and takes it along when it is deleted."
  },
  {
   "property": "C223",
   "status": "partial",
   "theorems": [
    "IP.C223_eq_partial",
    "IP.C223_eq_fails",
    "IP.C223_in_partial",
    "IP.C223_in_fails",
    "IP.C223_raise_fails"
   ],
   "note": "C223_eq_partial: an IPv6 object with an address of more than 32 bits or a prefix longer than 32 differs from every IPv4 object. C223_eq_fails: every IPv4 object is equal to the IPv6 object with the same number and prefix length; != disagrees and the hashed texts differ. C223_in_partial, C223_in_fails, C223_raise_fails: when `in` gives True, False or ValueError."
  },
  {
   "property": "C224",
   "status": "partial",
   "theorems": [
    "IP.C224_order",
    "IP.C224_total",
    "IP.C224_eq_partial",
    "IP.C224_eq_fails",
    "IP.C224_sorted"
   ],
   "note": "C224_order, C224_total and C224_sorted hold for all regular objects. C224_eq_partial: equal objects of one family are not less than each other. C224_eq_fails: every IPv4 object with a nonzero network is equal to an IPv6 object that is also less."
  },
  {
   "property": "C225",
   "status": "partial",
   "theorems": [
    "IP.C225_eq_partial",
    "IP.C225_fails"
   ],
   "note": "C225_eq_partial: equality. C225_fails: the hash raises AttributeError and `in` raises ValueError or gives True."
  },
  {
   "property": "C226",
   "status": "partial",
   "theorems": [
    "Intf.Typed.C226_all",
    "Intf.Typed.C226_types_partial",
    "Intf.Typed.C226_float_fails",
    "Intf.Typed.C226_xr_fails"
   ],
   "note": "C226_all for every type; C226_types_partial for None, CiscoIOSInterface, str (which gives interfaces, not texts) and int. C226_float_fails and C226_xr_fails: every text but the empty one raises an error."
  },
  {
   "property": "C227",
   "status": "partial",
   "theorems": [
    "Query.C227_exact_partial",
    "Query.C227_fails"
   ],
   "note": "C227_exact_partial: same hash_children iff the descendants have the same line numbers and texts, if no child's text starts with a digit; Python's hash is taken to be injective. C227_fails: so two lines of one configuration that have children never have the same."
  },
  {
   "property": "C228",
   "status": "partial",
   "theorems": [
    "Diff.Word.C228_word",
    "Diff.Word.C228_fits_partial",
    "Diff.Word.C228_side",
    "Diff.Word.C228_stale_fails"
   ],
   "note": "C228_word, C228_side and C228_fits_partial: right after the word is assigned the marks agree. C228_stale_fails: assigning the side afterwards leaves the word."
  },
  {
   "property": "C229",
   "status": "proved",
   "theorems": [
    "Query.C229_blocks",
    "Query.C229_order"
   ],
   "note": "C229_blocks and C229_order, for blocks without banners and macros (C217), each of which parses alone."
  },
  {
   "property": "C230",
   "status": "partial",
   "theorems": [
    "Diff.C230_plus_partial",
    "Diff.C230_minus_partial",
    "Diff.C230_order_partial",
    "Diff.C230_digits_fails"
   ],
   "note": "C230_plus_partial, C230_minus_partial, C230_order_partial under the hypotheses of C48 (no unindented line starts with a digit, no hash collision, ios or nxos), for blocks without banners, macros and closing braces. C230_digits_fails: a line with a leading digit makes a moved block show up."
  },
  {
   "property": "C231",
   "status": "partial",
   "theorems": [
    "Diff.C231_present_partial",
    "Diff.C231_order_partial",
    "Diff.C231_digits_fails"
   ],
   "note": "C231_present_partial and C231_order_partial under the hypotheses of C230. C231_digits_fails."
  },
  {
   "property": "C232",
   "status": "partial",
   "theorems": [
    "Diff.C232_mirror_partial",
    "Diff.C232_count_partial"
   ],
   "note": "C232_mirror_partial and C232_count_partial, under the hypotheses of C48 (no unindented line starts with a digit, no hash collision, ios or nxos). The order of the lines is not compared."
  },
  {
   "property": "C233",
   "status": "partial",
   "theorems": [
    "Diff.C233_compose_partial"
   ],
   "note": "C233_compose_partial, under the hypotheses of C48 for each of the three pairs."
  },
  {
   "property": "C234",
   "status": "partial",
   "theorems": [
    "Edit.C234_delete_partial",
    "Edit.C234_again_partial",
    "Edit.C234_nested_fails"
   ],
   "note": "C234_delete_partial and C234_again_partial, if no line belongs to the families of two matching lines, there are no blank lines and no text in these families starts with a digit. C234_nested_fails: if one expression matches a child of a line that the other matches, the order matters."
  },
  {
   "property": "C235",
   "status": "partial",
   "theorems": [
    "Edit.C235_fresh_partial",
    "Edit.C235_branches_partial",
    "Edit.C235_lineage_partial",
    "Edit.C235_macro_fails"
   ],
   "note": "C235_fresh_partial, C235_branches_partial and C235_lineage_partial, if no line is blank (or blank lines are kept). C235_macro_fails: a blank line inserted into a macro is kept and found after commit, but a new parse drops it."
  },
  {
   "property": "C236",
   "status": "partial",
   "theorems": [
    "Diff.C236_before_partial",
    "Diff.C236_after_partial",
    "Diff.C236_repeat_fails",
    "Diff.C236_order_fails"
   ],
   "note": "C236_before_partial, if no line of before occurs twice with the same parents; C236_after_partial gives the lines of after up to their order; both under the hypotheses of C48. C236_repeat_fails: a repeated line appears only once. C236_order_fails: the added lines of a parent come in the reverse order."
  },
  {
   "property": "C237",
   "status": "partial",
   "theorems": [
    "Query.C237_links_partial",
    "Query.C237_without_partial",
    "Query.C237_star_fails"
   ],
   "note": "C237_links_partial and C237_without_partial, for a childspec that matches its own text and never the empty string (as in C30), if no child starts with a digit. C237_star_fails: with the childspec x* a parent is found and no child."
  },
  {
   "property": "C238",
   "status": "proved",
   "theorems": [
    "IP.C238_v4",
    "IP.C238_v6",
    "IP.C238_order4",
    "IP.C238_order6"
   ],
   "note": "C238_v4, C238_v6, C238_order4 and C238_order6."
  },
  {
   "property": "C239",
   "status": "partial",
   "theorems": [
    "Diff.C239_lines_partial",
    "Diff.C239_nothing_else_partial",
    "Diff.C239_banner_fails"
   ],
   "note": "C239_lines_partial and C239_nothing_else_partial: wanted configurations that consist of blocks (C217) without comments, blank lines, banners, macros and closing braces, written with single blanks, under the hypotheses of C48. C239_banner_fails: the commands for a banner are not that banner."
  },
  {
   "property": "C240",
   "status": "partial",
   "theorems": [
    "Diff.C240_lines_partial",
    "Diff.C240_again_partial",
    "Diff.C240_indent_fails",
    "Diff.C240_remove_fails"
   ],
   "note": "C240_lines_partial and C240_again_partial: wanted configurations as in C239, configurations of blocks, without remove_lines. C240_indent_fails: a first line that is indented is asked for again. C240_remove_fails: the same with remove_lines, as removals come without parents."
  },
  {
   "property": "C241",
   "status": "proved",
   "theorems": [
    "Diff.C241_linespec",
    "Diff.C241_remove",
    "Diff.C241_none"
   ],
   "note": "C241_linespec, C241_remove and C241_none, for all inputs."
  },
  {
   "property": "C242",
   "status": "partial",
   "theorems": [
    "Diff.C242_add_partial",
    "Diff.C242_remove_partial",
    "Diff.C242_parents_partial"
   ],
   "note": "C242_add_partial, C242_remove_partial and C242_parents_partial, under the hypotheses of C48 (no text starts with a digit, no hash collisions, ios or nxos)."
  },
  {
   "property": "C243",
   "status": "partial",
   "theorems": [
    "Query.C243_same_partial",
    "Query.C243_blank_fails",
    "Query.C243_macro_fails"
   ],
   "note": "C243_same_partial, for all configurations and options; missing: with ignore_blank_lines, lines that are blank, and lines that are just 'macro name' (C243_blank_fails and C243_macro_fails: refuted)."
  },
  {
   "property": "C244",
   "status": "partial",
   "theorems": [
    "Query.C244_tree_partial",
    "Query.C244_macro_fails"
   ],
   "note": "C244_tree_partial, for all strictly increasing indentations; missing: banners and macros, which are only recognised at the left margin (C244_macro_fails: refuted)."
  },
  {
   "property": "C245",
   "status": "partial",
   "theorems": [
    "Query.C245_parent_partial",
    "Query.C245_children_partial",
    "Query.C245_banner_fails",
    "Query.C245_comment_fails"
   ],
   "note": "C245_parent_partial and C245_children_partial, without banners and macros; a comment may end a banner (C245_banner_fails), and comments themselves may get another parent (C245_comment_fails)."
  },
  {
   "property": "C246",
   "status": "partial",
   "theorems": [
    "Init.C246_lines",
    "Init.C246_file",
    "Init.C246_only",
    "Init.C246_path_fails",
    "Init.C246_tuple_fails",
    "Init.C246_other",
    "Init.C246_line"
   ],
   "note": "C246_lines, C246_file and C246_only, and which exceptions refuse lists with other elements (C246_other, C246_line); a pathlib.Path is always refused (C246_path_fails), and for Junos a tuple if blank lines are kept (C246_tuple_fails). With the filter for blank lines any sequence of strings is accepted, and objects without text in it are dropped."
  },
  {
   "property": "C247",
   "status": "partial",
   "theorems": [
    "Edit.C247_agree",
    "Edit.C247_lines",
    "Edit.C247_brace",
    "Edit.C247_again",
    "Edit.C247_tree_fails"
   ],
   "note": "C247_agree, C247_lines, C247_brace and C247_again for the lines and the exception. The tree is left inconsistent when a macro without end is committed (C247_tree_fails): the parents and children that the macro pass has changed so far stay as they are."
  },
  {
   "property": "C248",
   "status": "partial",
   "theorems": [
    "Edit.C248_agree",
    "Edit.C248_same_partial",
    "Edit.C248_atomic_partial",
    "Edit.C248_atomic_fails"
   ],
   "note": "C248_agree, C248_same_partial (without atomic) and C248_atomic_partial; with atomic=True the new line stays when the commit after the insertion raises (C248_atomic_fails)."
  },
  {
   "property": "C249",
   "status": "proved",
   "theorems": [
    "Conf.C249_syntax",
    "Conf.C249_delimiters",
    "Conf.C249_blank"
   ],
   "note": "C249_syntax, C249_delimiters and C249_blank; the example beside them shows that no condition can be dropped."
  },
  {
   "property": "C250",
   "status": "partial",
   "theorems": [
    "Edit.C250_put",
    "Edit.C250_append_partial",
    "Edit.C250_width_fails"
   ],
   "note": "C250_append_partial for the default width of one blank, without banners, macros and closing braces and under the condition of C40 that the last line of the family is found by its text; C250_put is the part about the tree, for every place and text with an indent that fits. With a wider indent than that of the children the new line becomes a child of the last child (C250_width_fails)."
  },
  {
   "property": "C251",
   "status": "partial",
   "theorems": [
    "Edit.C251_put_partial",
    "Edit.C251_comment_partial",
    "Edit.C251_before_partial",
    "Edit.C251_macro_fails"
   ],
   "note": "C251_put_partial and C251_comment_partial for configurations without banners, macros, closing braces and blank lines; in a macro the new line hangs below the macro whatever its indent is (C251_macro_fails)."
  },
  {
   "property": "C252",
   "status": "partial",
   "theorems": [
    "Edit.C252_removed",
    "Edit.C252_delete_partial",
    "Edit.C252_delete_lines_partial",
    "Edit.C252_delete_children_partial",
    "Edit.C252_comment_fails",
    "Edit.C252_recurse_fails"
   ],
   "note": "C252_removed for every set of lines that is closed under children; C252_delete_partial, C252_delete_lines_partial and C252_delete_children_partial under the conditions of C37, C38 and C61, without banners, macros, closing braces and blank lines. A comment can get a parent that it did not have (C252_comment_fails); with recurse=False the children go to another line (C252_recurse_fails)."
  },
  {
   "property": "C253",
   "status": "partial",
   "theorems": [
    "Edit.C253_parse_partial",
    "Edit.C253_replaced_partial",
    "Edit.C253_replace_lines_partial",
    "Edit.C253_comment_fails"
   ],
   "note": "C253_parse_partial, C253_replaced_partial and C253_replace_lines_partial without banners, macros, closing braces and blank lines. When a line becomes a comment its children go to another line (C253_comment_fails)."
  },
  {
   "property": "C254",
   "status": "partial",
   "theorems": [
    "Edit.C254_prefix_partial",
    "Edit.C254_macro_fails"
   ],
   "note": "C254_prefix_partial without banners, macros, closing braces and blank lines; a macro without its end cannot be read alone (C254_macro_fails)."
  },
  {
   "property": "C255",
   "status": "partial",
   "theorems": [
    "Edit.C255_last_partial",
    "Edit.C255_history_partial",
    "Edit.C255_depth_fails"
   ],
   "note": "C255_last_partial for one step and C255_history_partial for any number of them (each step reads the lines of the commit before), for configurations without comments, blank lines, banners, macros and closing braces, for texts put behind the last line of the family as C40 says. A deeper text becomes a child of the last child (C255_depth_fails)."
  },
  {
   "property": "C256",
   "status": "partial",
   "theorems": [
    "Edit.C256_read_partial",
    "Edit.C256_unique_partial",
    "Edit.C256_comment_fails",
    "Edit.C256_space_fails"
   ],
   "note": "C256_read_partial and C256_unique_partial, for texts that are no comments, start and end without white space, and for lines that are no banners, macros or closing braces. Below a comment nothing hangs (C256_comment_fails) and trailing white space is lost (C256_space_fails)."
  },
  {
   "property": "C257",
   "status": "partial",
   "theorems": [
    "Query.C257_below_partial",
    "Query.C257_walk_partial",
    "Query.C257_comment_fails",
    "Query.C257_below_fails"
   ],
   "note": "C257_walk_partial and C257_below_partial, for configurations without comments, blank lines, banners, macros and closing braces. A comment is visited behind the lines that follow it (C257_comment_fails, C257_below_fails)."
  },
  {
   "property": "C258",
   "status": "partial",
   "theorems": [
    "Edit.C258_delete_partial",
    "Edit.C258_recurse_fails"
   ],
   "note": "C258_delete_partial, with the trees and the conditions of C256, if no text of the family starts with a digit (see C43). delete(recurse=False) moves the children to another line (C258_recurse_fails)."
  },
  {
   "property": "C259",
   "status": "partial",
   "theorems": [
    "Edit.C259_append_partial",
    "Edit.C259_twice_fails"
   ],
   "note": "C259_append_partial, with the trees and the conditions of C256, if the text of the last line of the family, taken as a regular expression, matches that line only (see C40; else C259_twice_fails) and no text of the family starts with a digit (see C43)."
  },
  {
   "property": "C260",
   "status": "partial",
   "theorems": [
    "Edit.C260_before_partial",
    "Edit.C260_after_fails"
   ],
   "note": "C260_before_partial, with the trees and the conditions of C256, if the text of the line, taken as a regular expression, matches that line only (see C40). insert_after(text) takes the children of the line away from it (C260_after_fails)."
  },
  {
   "property": "C261",
   "status": "proved",
   "theorems": [
    "IP.C261_v4",
    "IP.C261_v6",
    "IP.C261_inj4",
    "IP.C261_inj6"
   ],
   "note": "C261_v4 and C261_v6 (the text is read back as the object), C261_inj4 and C261_inj6 (the same repr is the same object). IPv6Obj(None) is not covered. Objects with a negative network_offset assigned are excluded (see C05)."
  },
  {
   "property": "C262",
   "status": "partial",
   "theorems": [
    "Edit.C262_extend",
    "Edit.C262_append",
    "Edit.C262_repeat",
    "Edit.C262_set",
    "Edit.C262_pop",
    "Edit.C262_reverse",
    "Edit.C262_sum_partial",
    "Edit.C262_times_partial"
   ],
   "note": "C262_extend, C262_append, C262_repeat, C262_set, C262_pop, C262_reverse, for any list; C262_sum_partial and C262_times_partial for sums and multiples, when all elements are texts without blank lines, banners and macros (with line objects sums raise, see C129_sum_fails). Line numbers are not kept up to date (see C131)."
  },
  {
   "property": "C263",
   "status": "partial",
   "theorems": [
    "IP.C263_offset_partial",
    "IP.C263_offset_fails"
   ],
   "note": "C263_offset_partial for offsets >= 0, with the reading back for every address but the last one of a /0../126. C263_offset_fails shows both gaps in the code: the last offset can be set but not read (the comparison is with numhosts, which leaves out two addresses), and a negative offset is accepted although it leaves the subnet."
  },
  {
   "property": "C264",
   "status": "partial",
   "theorems": [
    "Edit.C264_subtree_partial",
    "Edit.C264_again_partial",
    "Edit.C264_comment_fails"
   ],
   "note": "C264_subtree_partial (the lines) and C264_again_partial (read again), for forests without comments, banners, macros and closing braces; C264_comment_fails shows that a comment written inside is left out."
  },
  {
   "property": "C265",
   "status": "partial",
   "theorems": [
    "Edit.C265_texts_partial",
    "Edit.C265_lines_partial",
    "Edit.C265_le_fails",
    "Edit.C265_mixed_fails"
   ],
   "note": "C265_texts_partial for <, > and >= on lists of texts; C265_lines_partial for < and > on lists of lines (two lines are equal if line number and text, written one after the other, are). C265_le_fails: <= is written with <, so that no list of texts is <= itself. C265_mixed_fails: a line and a text cannot be compared. On lines >= raises TypeError (C128_ge_fails)."
  },
  {
   "property": "C266",
   "status": "proved",
   "theorems": [
    "Intf.State.C266_repr",
    "Intf.State.C266_identifies"
   ],
   "note": "C266_repr and C266_identifies, for every interface that the parser returns."
  },
  {
   "property": "C267",
   "status": "proved",
   "theorems": [
    "Asa.C267_hostname"
   ],
   "note": "C267_hostname; the regular expression is run by the model of re."
  },
  {
   "property": "C268",
   "status": "proved",
   "theorems": [
    "Cisco.C268_channel",
    "Cisco.C268_reset"
   ],
   "note": "C268_channel and C268_reset; letters are lowered for ASCII only."
  },
  {
   "property": "C269",
   "status": "partial",
   "theorems": [
    "Cisco.C269_route",
    "Cisco.C269_network_partial",
    "Cisco.C269_class",
    "Cisco.C269_vrf_fails",
    "Cisco.C269_interface_fails",
    "Cisco.C269_vrf_every_fails"
   ],
   "note": "C269_route and C269_class hold for every route. C269_network_partial needs a route without VRF: C269_vrf_every_fails shows that network is empty and network_object None for every route in a VRF whose name has no slash and is not vrf, because the expression for network does not skip the name of the VRF. An interface is one word; C269_interface_fails shows what becomes of a name with a blank before its number."
  },
  {
   "property": "C270",
   "status": "partial",
   "theorems": [
    "Nxos.Lines.C270_route",
    "Nxos.Lines.C270_network_partial",
    "Nxos.Lines.C270_vrf_fails",
    "Nxos.Lines.C270_vrf_every_fails"
   ],
   "note": "C270_route holds for every route. C270_network_partial needs a route without VRF: C270_vrf_every_fails shows that network is empty and network_object None for every route in a VRF whose name has no slash and is not vrf, because the expression for network does not skip the name of the VRF."
  },
  {
   "property": "C271",
   "status": "partial",
   "theorems": [
    "Edit.C271_reset_fails",
    "Edit.C271_insert_partial",
    "Edit.C271_one_partial",
    "Edit.C271_other_fails"
   ],
   "note": "The property is false: C271_reset_fails shows that reset() raises TypeError for every interface, because insert_before has no parameter atomic. C271_insert_partial and C271_one_partial say what the same call does without that keyword; C271_other_fails shows that the command is also put before other lines that hold the text of the interface. The call of a Python function is modelled by its parameters, the number of its arguments and its keywords."
  },
  {
   "property": "C272",
   "status": "partial",
   "theorems": [
    "Misc.C272_format_partial",
    "Misc.C272_same",
    "Misc.C272_twice",
    "Misc.C272_mixed_fails"
   ],
   "note": "C272_twice and C272_same hold for every text. C272_format_partial needs a text without doubled braces: C272_mixed_fails shows that a text with one doubled brace is not escaped at all, so that format() fails or gives an other text. str.format() without arguments is specified in Misc.Spec.format; every exception of a replacement field is written as ValueError."
  },
  {
   "property": "C273",
   "status": "partial",
   "theorems": [
    "Misc.C273_refused",
    "Misc.C273_lines_partial",
    "Misc.C273_file_fails",
    "Misc.C273_last_fails"
   ],
   "note": "What the library hier_config does with the configurations is not modelled; lines are the lines of str.splitlines(). C273_lines_partial needs lists of single lines whose last one is not empty: C273_last_fails shows the others, because the lines are joined. C273_refused holds for all arguments. C273_file_fails shows that the text of a file is given to the library as a text for the old and as a list for the new configuration. A list with items that are no texts is not modelled."
  },
  {
   "property": "C274",
   "status": "partial",
   "theorems": [
    "Range.C274_list_partial",
    "Range.C274_raises",
    "Range.C274_self_fails"
   ],
   "note": "For lists of int and str; lists of interfaces, of floats and of anything else are not modelled here. C274_self_fails proves that without a list nothing is sorted: the range keeps its order."
  },
  {
   "property": "C275",
   "status": "partial",
   "theorems": [
    "IP.C275_address_partial",
    "IP.C275_object_fails"
   ],
   "note": "C275_object_fails proves that both attributes raise AttributeError for every object, because they are asked of the IPv6Network, which has neither; C275_address_partial proves that the attributes of the IPv6Address would be right."
  }
 ]
}
