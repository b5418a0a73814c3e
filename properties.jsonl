{"id": "C01", "title": "IPv4 containment is address-set inclusion", "statement": "`b in a` is True exactly when every address of b's network is an address of a's network.", "quantifier": "all pairs of non-empty IPv4Obj (any host address, any prefix length 0..32)", "why_tests_cant": "2^37 objects squared; the interesting cases are at network boundaries of every prefix length", "anchors": ["ciscoconfparse/ccp_util.py:IPv4Obj.__contains__", "ciscoconfparse/ccp_util.py:IPv4Obj.as_decimal_network", "ciscoconfparse/ccp_util.py:IPv4Obj.as_decimal_broadcast"]}
{"id": "C02", "title": "IPv4Obj comparison is a strict total order that agrees with ==", "statement": "For any two IPv4Obj exactly one of a<b, a==b, a>b holds, < is transitive, a<b iff b>a, and sorting puts lower networks first, then shorter masks, then lower hosts; walking a reverse-sorted route table and taking the first route that contains an address gives a longest match.", "quantifier": "all pairs/triples of IPv4Obj and all route lists", "why_tests_cant": "an order law over all triples, and a longest-match claim over all route tables", "anchors": ["ciscoconfparse/ccp_util.py:IPv4Obj.__lt__", "ciscoconfparse/ccp_util.py:IPv4Obj.__gt__", "ciscoconfparse/ccp_util.py:IPv4Obj.__eq__"]}
{"id": "C03", "title": "IPv4Obj integer arithmetic is exact, keeps the prefix length and is bounds-checked", "statement": "a+n (a-n) is the object whose address is n higher (lower) with the same prefix length whenever that address is in 0..2^32-1, and raises otherwise; (a+n)-n == a whenever a+n exists.", "quantifier": "all IPv4Obj and all Python integers n (positive, zero, negative)", "why_tests_cant": "unbounded integers and 2^37 objects; the failing values are exactly at the ends of the range", "anchors": ["ciscoconfparse/ccp_util.py:IPv4Obj.__add__", "ciscoconfparse/ccp_util.py:IPv4Obj.__sub__"]}
{"id": "C04", "title": "IPv4 network arithmetic is coherent", "statement": "network <= ip <= broadcast; network is a multiple of 2^(32-p); broadcast-network+1 = 2^(32-p); the address is in its own network; numhosts is the number of usable host addresses (all addresses but network and broadcast, for p<=30; 2 for /31; 1 for /32).", "quantifier": "all IPv4Obj", "why_tests_cant": "32-bit space times 33 prefix lengths", "anchors": ["ciscoconfparse/ccp_util.py:IPv4Obj.as_decimal_network", "ciscoconfparse/ccp_util.py:IPv4Obj.as_decimal_broadcast", "ciscoconfparse/ccp_util.py:IPv4Obj.numhosts"]}
{"id": "C05", "title": "network_offset: what you set is what you read, and it never leaves the subnet", "statement": "After `o.network_offset = k` succeeds, o stays inside its subnet and reading o.network_offset returns k; k is rejected exactly when network+k is outside the subnet.", "quantifier": "all IPv4Obj and all integers k", "why_tests_cant": "all offsets of all subnets, incl. network/broadcast offsets and negative ones", "anchors": ["ciscoconfparse/ccp_util.py:IPv4Obj.network_offset"]}
{"id": "C06", "title": "IPv4 renderings decode back to the same address", "statement": "as_zeropadded, as_binary_tuple and as_hex_tuple are fixed-width renderings from which as_decimal is recovered, and IPv4Obj(o.as_cidr_addr) == o.", "quantifier": "all IPv4Obj", "why_tests_cant": "2^37 objects", "anchors": ["ciscoconfparse/ccp_util.py:IPv4Obj.as_zeropadded", "ciscoconfparse/ccp_util.py:IPv4Obj.as_binary_tuple", "ciscoconfparse/ccp_util.py:IPv4Obj.as_hex_tuple", "ciscoconfparse/ccp_util.py:IPv4Obj.as_cidr_addr", "ciscoconfparse/ccp_util.py:IPv4Obj.__init__"]}
{"id": "C07", "title": "IPv6 containment is address-set inclusion", "statement": "`b in a` is True exactly when every address of b's network is an address of a's network.", "quantifier": "all pairs of non-empty IPv6Obj", "why_tests_cant": "2^135 objects squared", "anchors": ["ciscoconfparse/ccp_util.py:IPv6Obj.__contains__", "ciscoconfparse/ccp_util.py:IPv6Obj.numhosts"]}
{"id": "C08", "title": "IPv6Obj order, arithmetic and network bounds obey the same laws as IPv4Obj", "statement": "Comparison is a strict total order agreeing with ==; +/- n are exact and bounds-checked; network <= ip <= last address of the network.", "quantifier": "all IPv6Obj, all integers n", "why_tests_cant": "128-bit space, order laws over triples", "anchors": ["ciscoconfparse/ccp_util.py:IPv6Obj.__lt__", "ciscoconfparse/ccp_util.py:IPv6Obj.__gt__", "ciscoconfparse/ccp_util.py:IPv6Obj.__add__", "ciscoconfparse/ccp_util.py:IPv6Obj.__sub__", "ciscoconfparse/ccp_util.py:IPv6Obj.as_decimal_network_maxint"]}
{"id": "C09", "title": "An integer CiscoRange expands to exactly the described set", "statement": "CiscoRange(text, result_type=int) for text = comma list of N or A-B holds exactly the integers N and A..B inclusive, once each.", "quantifier": "all well-formed range texts of any length, any naturals, overlapping or reversed ranges included", "why_tests_cant": "infinitely many texts; duplicates and overlaps combine arbitrarily", "anchors": ["ciscoconfparse/ccp_util.py:CiscoRange.parse_integers"]}
{"id": "C10", "title": "Integer range compression loses nothing: expand(compress(S)) == S", "statement": "CiscoRange(r.as_compressed_str(), result_type=int) has the same members as r, for every non-empty set of naturals.", "quantifier": "all finite sets of naturals", "why_tests_cant": "infinitely many sets; run boundaries in any pattern", "anchors": ["ciscoconfparse/ccp_util.py:CiscoRange.as_compressed_str", "ciscoconfparse/ccp_util.py:CiscoRange.parse_integers"]}
{"id": "C11", "title": "Reading a CiscoRange does not change it", "statement": "as_list() returns the members sorted without duplicates, and calling it any number of times never changes len(), iteration or later results.", "quantifier": "all ranges and all numbers of repeated reads", "why_tests_cant": "a history property over read calls", "anchors": ["ciscoconfparse/ccp_util.py:CiscoRange.as_list", "ciscoconfparse/ccp_util.py:CiscoRange.__len__"]}
{"id": "C12", "title": "CiscoRange append/remove obey set laws", "statement": "append(v) adds exactly v (error if present), remove(v) removes exactly v (error if absent), order stays sorted; remove undoes append; under any history of successful appends/removes the members are those of the corresponding set.", "quantifier": "all int ranges and all finite append/remove histories", "why_tests_cant": "unbounded histories", "anchors": ["ciscoconfparse/ccp_util.py:CiscoRange.append", "ciscoconfparse/ccp_util.py:CiscoRange.remove", "ciscoconfparse/ccp_util.py:CiscoRange.attribute_sort"]}
{"id": "C13", "title": "CiscoRange + and - are union and difference", "statement": "x in (a+b) iff x in a or x in b; x in (a-b) iff x in a and x not in b.", "quantifier": "all pairs of int ranges", "why_tests_cant": "all pairs of sets", "anchors": ["ciscoconfparse/ccp_util.py:CiscoRange.__add__", "ciscoconfparse/ccp_util.py:CiscoRange.__sub__"]}
{"id": "C14", "title": "Interface names round-trip", "statement": "Parsing the rendering of an interface (prefix, slot/card/port, subinterface, channel, class) gives back the same components; rendering is a normal form, so str(CiscoIOSInterface(str(o))) == str(o).", "quantifier": "all interfaces with a letter prefix and natural-number components of any size", "why_tests_cant": "infinitely many component values in 2^4 shapes", "anchors": ["ciscoconfparse/ccp_util.py:CiscoIOSInterface.parse_single_interface", "ciscoconfparse/ccp_util.py:CiscoIOSInterface.parse_intf_short", "ciscoconfparse/ccp_util.py:CiscoIOSInterface.parse_intf_long", "ciscoconfparse/ccp_util.py:CiscoIOSInterface.render_as_string", "ciscoconfparse/ccp_util.py:CiscoIOSInterface.number"]}
{"id": "C15", "title": "Interface equality, hashing and ordering are coherent", "statement": "Equal interfaces hash equal; == is an equivalence; < is a strict order whose incomparable pairs have equal numbers, comparing never fails.", "quantifier": "all pairs/triples of CiscoIOSInterface", "why_tests_cant": "order laws over triples", "anchors": ["ciscoconfparse/ccp_util.py:CiscoIOSInterface.__eq__", "ciscoconfparse/ccp_util.py:CiscoIOSInterface.__lt__", "ciscoconfparse/ccp_util.py:CiscoIOSInterface.__gt__", "ciscoconfparse/ccp_util.py:CiscoIOSInterface.__hash__", "ciscoconfparse/ccp_util.py:CiscoIOSInterface.update_sort_list"]}
{"id": "C16", "title": "Interface ranges expand to exactly the listed interfaces", "statement": "CiscoRange('PREFIX s/a-b,c,d-e') contains exactly PREFIX s/i for i in the listed numbers, each once.", "quantifier": "all interface range texts over one slot/card", "why_tests_cant": "infinitely many texts", "anchors": ["ciscoconfparse/ccp_util.py:CiscoRange.parse_cisco_interfaces"]}
{"id": "C17", "title": "Type-7 password decryption inverts Cisco's type-7 encryption", "statement": "CiscoPassword().decrypt of a type-7 encoding (any salt 0..52) of a non-empty password is that password.", "quantifier": "all passwords of 8-bit characters (any length) and all salts", "why_tests_cant": "infinitely many passwords times 53 salts (wrap-around of the key)", "anchors": ["ciscoconfparse/ciscoconfparse.py:CiscoPassword.decrypt"]}
{"id": "C18", "title": "L4Object port specifications denote the right port set", "statement": "port_list of 'eq N', 'lt N', 'gt N', 'neq N', 'range A B' is exactly the sorted list of ports in 1..65535 satisfying the relation; invalid specs raise.", "quantifier": "all operators and all numbers", "why_tests_cant": "65536^2 ranges", "anchors": ["ciscoconfparse/ccp_util.py:L4Object.__init__"]}
{"id": "C19", "title": "trunk_vlans_allowed implements the switchport statements", "statement": "The returned VLAN set is what the device would compute by applying the 'switchport trunk allowed vlan ...' statements in order.", "quantifier": "all sequences of allowed/add/except/remove statements", "why_tests_cant": "unbounded statement sequences", "anchors": ["ciscoconfparse/models_cisco.py:BaseIOSIntfLine.trunk_vlans_allowed"]}
{"id": "C20", "title": "Parsing keeps every configuration line", "statement": "The texts of parse.objs, in order, are the input lines with trailing whitespace removed, except that blank lines are dropped when ignore_blank_lines=True (unless inside a banner/macro). No line is lost, duplicated, reordered or altered.", "quantifier": "all lists of lines", "why_tests_cant": "infinitely many configurations", "anchors": ["ciscoconfparse/ciscoconfparse.py:CiscoConfParse.__init__", "ciscoconfparse/ciscoconfparse.py:ConfigList.bootstrap_obj_init_ng", "ciscoconfparse/ccp_abc.py:BaseCfgLine.text"]}
{"id": "C21", "title": "Parent is the nearest preceding less-indented configuration line", "statement": "For IOS-style text without banners/macros/braces, each indented line's parent is the closest earlier non-comment, non-blank line with strictly smaller indent (itself if none); a comment directly below a deeper-indented line is left unattached; unindented lines are their own parents.", "quantifier": "all lists of lines with any indentation pattern", "why_tests_cant": "all indentation sequences of any length; an incremental parent cache must never be stale", "anchors": ["ciscoconfparse/ciscoconfparse.py:ConfigList._maintain_bootstrap_parent_cache", "ciscoconfparse/ciscoconfparse.py:ConfigList._build_bootstrap_parent_child", "ciscoconfparse/ciscoconfparse.py:ConfigList._add_child_to_parent"]}
{"id": "C22", "title": "Parent and children links agree and form a forest", "statement": "c is listed in p.children exactly once iff c.parent is p and c is not p; children are in line order; a parent always precedes its child, so following parents terminates at a root.", "quantifier": "all parsed configurations", "why_tests_cant": "graph invariant over all inputs", "anchors": ["ciscoconfparse/ciscoconfparse.py:ConfigList.bootstrap_obj_init_ng", "ciscoconfparse/ccp_abc.py:BaseCfgLine.all_parents", "ciscoconfparse/ccp_abc.py:BaseCfgLine.all_children"]}
{"id": "C23", "title": "Line numbers are positions", "statement": "After parsing, objs[i].linenum == i for every i.", "quantifier": "all parsed configurations", "why_tests_cant": "all inputs incl. whitespace-only lines", "anchors": ["ciscoconfparse/ciscoconfparse.py:ConfigList.bootstrap_obj_init_ng", "ciscoconfparse/ciscoconfparse.py:ConfigList.reassign_linenums"]}
{"id": "C24", "title": "Comments and blank lines never own configuration", "statement": "A comment or blank line has no children and is never anybody's parent.", "quantifier": "all parsed configurations", "why_tests_cant": "all inputs", "anchors": ["ciscoconfparse/ccp_abc.py:BaseCfgLine.is_config_line", "ciscoconfparse/ccp_abc.py:BaseCfgLine.set_comment_bool", "ciscoconfparse/ciscoconfparse.py:ConfigList._build_bootstrap_parent_child"]}
{"id": "C25", "title": "Banner bodies belong to the banner", "statement": "For a banner line with delimiter d not closed on the same line, exactly the following lines up to and including the first line containing d become its children, whatever their indentation, comments or blanks; lines after the banner are unaffected.", "quantifier": "all configurations with a banner, any body text", "why_tests_cant": "all bodies", "anchors": ["ciscoconfparse/ciscoconfparse.py:ConfigList._banner_mark_regex", "ciscoconfparse/ciscoconfparse.py:ConfigList._build_banner_re_ios"]}
{"id": "C26", "title": "Macro bodies belong to the macro", "statement": "Lines after 'macro name X' up to and including the first '@' line become its children and blank lines in it are kept.", "quantifier": "all configurations with a macro", "why_tests_cant": "all bodies; unterminated macros", "anchors": ["ciscoconfparse/ciscoconfparse.py:ConfigList._macro_mark_children"]}
{"id": "C27", "title": "commit() of unmodified configuration changes nothing", "statement": "Re-parsing (commit/atomic) right after parsing keeps the same texts, line numbers and parent/child structure.", "quantifier": "all parsed configurations", "why_tests_cant": "all inputs", "anchors": ["ciscoconfparse/ciscoconfparse.py:CiscoConfParse.commit", "ciscoconfparse/ciscoconfparse.py:CiscoConfParse.atomic", "ciscoconfparse/ciscoconfparse.py:ConfigList.bootstrap_obj_init_ng"]}
{"id": "C28", "title": "Parsing never fails on text", "statement": "CiscoConfParse(lines) for syntax='ios' returns normally for every list of strings.", "quantifier": "all lists of strings", "why_tests_cant": "totality over all inputs", "anchors": ["ciscoconfparse/ciscoconfparse.py:assign_parent_to_closing_braces", "ciscoconfparse/ciscoconfparse.py:ConfigList._macro_mark_children", "ciscoconfparse/ciscoconfparse.py:ConfigList.bootstrap_obj_init_ng"]}
{"id": "C29", "title": "find_objects is sound, complete and in order", "statement": "find_objects(spec) returns exactly the objects whose text matches spec, each once, in configuration order; find_lines returns their texts; has_line_with is True iff it is non-empty.", "quantifier": "all configurations and all regexes", "why_tests_cant": "all regex/config pairs", "anchors": ["ciscoconfparse/ciscoconfparse.py:CiscoConfParse.find_objects", "ciscoconfparse/ciscoconfparse.py:CiscoConfParse.find_lines", "ciscoconfparse/ciscoconfparse.py:CiscoConfParse.has_line_with", "ciscoconfparse/ciscoconfparse.py:CiscoConfParse._find_line_OBJ"]}
{"id": "C30", "title": "find_parent_objects returns exactly the matching parents with a matching child", "statement": "An object is returned iff it matches parentspec and one of its children (descendants if recurse) matches childspec; no duplicates, in order.", "quantifier": "all configurations and all pairs of regexes", "why_tests_cant": "all triples", "anchors": ["ciscoconfparse/ciscoconfparse.py:CiscoConfParse.find_parent_objects"]}
{"id": "C31", "title": "With-child and without-child partition the matching parents", "statement": "find_parent_objects(p,c) and find_parent_objects_wo_child(p,c) are disjoint and together are exactly the parents matching p.", "quantifier": "all configurations and all regex pairs", "why_tests_cant": "all triples", "anchors": ["ciscoconfparse/ciscoconfparse.py:CiscoConfParse.find_parent_objects", "ciscoconfparse/ciscoconfparse.py:CiscoConfParse.find_parent_objects_wo_child"]}
{"id": "C32", "title": "find_child_objects is the child-side view of find_parent_objects", "statement": "x is in find_child_objects(p,c) iff x matches c and its parent (some ancestor if recurse) matches p; there is a child result iff there is a parent result.", "quantifier": "all configurations and all regex pairs", "why_tests_cant": "all triples", "anchors": ["ciscoconfparse/ciscoconfparse.py:CiscoConfParse.find_child_objects"]}
{"id": "C33", "title": "all_children / all_parents are the transitive closures of children / parent", "statement": "d in o.all_children iff o in d.all_parents iff following parent from d reaches o in >=1 steps; both are sorted by line and duplicate-free.", "quantifier": "all parsed configurations", "why_tests_cant": "recursive traversals of arbitrary depth", "anchors": ["ciscoconfparse/ccp_abc.py:BaseCfgLine.all_children", "ciscoconfparse/ccp_abc.py:BaseCfgLine.all_parents", "ciscoconfparse/ccp_abc.py:BaseCfgLine.lineage", "ciscoconfparse/ccp_abc.py:BaseCfgLine.geneology"]}
{"id": "C34", "title": "A family is contiguous and self-contained", "statement": "For configurations without banners/macros/braces, the descendants of o are lines in o.linenum+1 .. o.family_endpoint and every configuration line in that interval is a descendant of o.", "quantifier": "all parsed configurations", "why_tests_cant": "all indentation patterns", "anchors": ["ciscoconfparse/ccp_abc.py:BaseCfgLine.family_endpoint", "ciscoconfparse/ccp_abc.py:BaseCfgLine.all_children"]}
{"id": "C35", "title": "find_object_branches enumerates exactly the matching root-to-leaf paths", "statement": "Each returned branch is a chain o1>o2>...>ok of parent/child links whose i-th element matches the i-th spec; every such chain is returned; works for every branchspec length.", "quantifier": "all configurations and all branchspecs", "why_tests_cant": "all depths", "anchors": ["ciscoconfparse/ciscoconfparse.py:CiscoConfParse.find_object_branches"]}
{"id": "C36", "title": "find_children_w_parents / find_parents_w_child agree with the object queries", "statement": "The text queries return the texts of the corresponding object queries in order.", "quantifier": "all configurations and regex pairs", "why_tests_cant": "all triples", "anchors": ["ciscoconfparse/ciscoconfparse.py:CiscoConfParse.find_children_w_parents", "ciscoconfparse/ciscoconfparse.py:CiscoConfParse.find_parents_w_child", "ciscoconfparse/ciscoconfparse.py:CiscoConfParse.find_parents_wo_child"]}
{"id": "C37", "title": "Deleting an object removes exactly its family", "statement": "obj.delete() removes obj and all its descendants from the configuration and nothing else; the order and text of other lines is unchanged; line numbers equal positions afterwards.", "quantifier": "all configurations and all objects in them", "why_tests_cant": "all trees, all positions", "anchors": ["ciscoconfparse/ccp_abc.py:BaseCfgLine.delete"]}
{"id": "C38", "title": "delete_lines removes only matching families", "statement": "delete_lines(spec) removes exactly the lines that match or descend from a matching line.", "quantifier": "all configurations and regexes", "why_tests_cant": "nested matches in any pattern", "anchors": ["ciscoconfparse/ciscoconfparse.py:CiscoConfParse.delete_lines"]}
{"id": "C39", "title": "insert_before / insert_after insert next to every match exactly once", "statement": "After insert_before(spec,new) the text list is the old one with new placed immediately before each matching line and nothing else changed (similarly after).", "quantifier": "all configurations, regexes, new texts", "why_tests_cant": "any number of matches, new text that matches too", "anchors": ["ciscoconfparse/ciscoconfparse.py:CiscoConfParse.insert_before", "ciscoconfparse/ciscoconfparse.py:CiscoConfParse.insert_after", "ciscoconfparse/ciscoconfparse.py:ConfigList.insert_before", "ciscoconfparse/ciscoconfparse.py:ConfigList.insert_after"]}
{"id": "C40", "title": "append_to_family puts the new line at the end of that family only", "statement": "obj.append_to_family(s) inserts s exactly once, right after obj's last descendant (after obj if it has none).", "quantifier": "all configurations and objects", "why_tests_cant": "all trees, repeated texts", "anchors": ["ciscoconfparse/ccp_abc.py:BaseCfgLine.append_to_family"]}
{"id": "C41", "title": "Line numbers stay consistent under every edit history", "statement": "After any sequence of insert/delete/append/commit operations that succeed, every listed object's linenum is its position.", "quantifier": "all operation histories", "why_tests_cant": "unbounded histories", "anchors": ["ciscoconfparse/ciscoconfparse.py:ConfigList.reassign_linenums", "ciscoconfparse/ccp_abc.py:BaseCfgLine.delete", "ciscoconfparse/ciscoconfparse.py:ConfigList.insert_before", "ciscoconfparse/ciscoconfparse.py:ConfigList.insert_after"]}
{"id": "C42", "title": "Replacement edits only matching lines", "statement": "replace_lines(spec, repl) leaves the number of lines and every non-matching (or excluded) line unchanged.", "quantifier": "all configurations, regexes and substitution functions", "why_tests_cant": "all inputs", "anchors": ["ciscoconfparse/ciscoconfparse.py:CiscoConfParse.replace_lines", "ciscoconfparse/ccp_abc.py:BaseCfgLine.re_sub"]}
{"id": "C43", "title": "Object equality identifies lines of a configuration", "statement": "Two objects of one configuration compare equal only if they are the same line.", "quantifier": "all configurations, all pairs of lines", "why_tests_cant": "a key-collision property over all pairs of line numbers and texts", "anchors": ["ciscoconfparse/ccp_abc.py:BaseCfgLine.__eq__", "ciscoconfparse/ccp_abc.py:BaseCfgLine.__hash__"]}
{"id": "C44", "title": "uncfgtext is the inverse command", "statement": "uncfgtext of 'X' is 'no X' and of 'no X' is 'X' at the same indentation; applying it twice returns the original command up to spacing.", "quantifier": "all lines", "why_tests_cant": "all strings", "anchors": ["ciscoconfparse/ccp_abc.py:BaseCfgLine.uncfgtext"]}
{"id": "C45", "title": "Junos brace conversion indents by nesting depth", "statement": "For a brace-structured Junos configuration, convert_junos_to_ios emits each statement at 4*depth spaces with braces and semicolons removed.", "quantifier": "all brace trees of any depth and width", "why_tests_cant": "unbounded nesting", "anchors": ["ciscoconfparse/ciscoconfparse.py:convert_junos_to_ios", "ciscoconfparse/ciscoconfparse.py:parse_line_braces"]}
{"id": "C46", "title": "The Junos parse tree is the brace tree", "statement": "After parsing with syntax='junos', each statement's parent is the statement owning its enclosing brace.", "quantifier": "all brace trees", "why_tests_cant": "unbounded nesting", "anchors": ["ciscoconfparse/ciscoconfparse.py:CiscoConfParse.handle_ccp_brace_syntax", "ciscoconfparse/ciscoconfparse.py:convert_junos_to_ios", "ciscoconfparse/ciscoconfparse.py:ConfigList.bootstrap_obj_init_ng"]}
{"id": "C47", "title": "Closing braces are matched with their opening line", "statement": "In brace text parsed line by line, each closing-brace line's parent is the line that opened the block; unbalanced closing raises.", "quantifier": "all balanced brace sequences", "why_tests_cant": "unbounded nesting", "anchors": ["ciscoconfparse/ciscoconfparse.py:assign_parent_to_closing_braces"]}
{"id": "C48", "title": "HDiff of identical configurations is empty and reports only true changes", "statement": "No +/- lines for equal configurations; every '+' line comes from after and has no counterpart path in before; every '-' line comes from before and has no counterpart path in after.", "quantifier": "all pairs of configurations", "why_tests_cant": "all pairs", "anchors": ["ciscoconfparse/ciscoconfparse.py:HDiff"]}
{"id": "C49", "title": "Saving and re-reading a configuration is lossless", "statement": "CiscoConfParse(file written by save_as) has the same line texts as the original.", "quantifier": "all configurations", "why_tests_cant": "all texts, line terminators", "anchors": ["ciscoconfparse/ciscoconfparse.py:CiscoConfParse.save_as", "ciscoconfparse/ciscoconfparse.py:CiscoConfParse.read_config_file"]}
{"id": "C50", "title": "fix_repeated_words cancels double negation and terminates", "statement": "For 'no' repeated k times in front of a command, the result has k mod 2 copies of the word (pairs cancel), the command and indentation are kept, and applying it again changes nothing.", "quantifier": "all strings", "why_tests_cant": "all strings", "anchors": ["ciscoconfparse/ccp_util.py:fix_repeated_words"]}
{"id": "C51", "title": "Family queries return whole families once, in order", "statement": "find_children(spec) returns the matching lines with their children and find_all_children(spec) the matching lines with all their descendants, each line once, in configuration order, even when matches are nested.", "quantifier": "all configurations and regexes", "why_tests_cant": "nested and overlapping families of any depth", "anchors": ["ciscoconfparse/ciscoconfparse.py:CiscoConfParse.find_children", "ciscoconfparse/ciscoconfparse.py:CiscoConfParse.find_all_children"]}
{"id": "C52", "title": "find_objects_w_all_children and find_objects_w_missing_children are complementary", "statement": "A matching parent is in the first iff every spec of the list has a matching child, in the second iff some spec has none; each matching parent is in exactly one.", "quantifier": "all configurations, parent specs and lists of child specs", "why_tests_cant": "lists of any length, all trees", "anchors": ["ciscoconfparse/ciscoconfparse.py:CiscoConfParse.find_objects_w_all_children", "ciscoconfparse/ciscoconfparse.py:CiscoConfParse.find_objects_w_missing_children"]}
{"id": "C53", "title": "A list of specs asks for a conjunction", "statement": "find_parent_objects([p,c1,..,cn]) returns exactly the parents matching p that have a matching child for every ci; find_child_objects([p,c1,..,cn]) returns the children matching one of them under such parents.", "quantifier": "all configurations and lists of specs", "why_tests_cant": "lists of any length", "anchors": ["ciscoconfparse/ciscoconfparse.py:CiscoConfParse.find_parent_objects", "ciscoconfparse/ciscoconfparse.py:CiscoConfParse.find_child_objects"]}
{"id": "C54", "title": "lineage and geneology are the path through the tree", "statement": "geneology is the ancestors in order followed by the line; lineage is ancestors, line and descendants in order; find_lineage succeeds iff exactly one line matches.", "quantifier": "all configurations and lines", "why_tests_cant": "trees of any depth", "anchors": ["ciscoconfparse/ccp_abc.py:BaseCfgLine.lineage", "ciscoconfparse/ccp_abc.py:BaseCfgLine.geneology", "ciscoconfparse/ciscoconfparse.py:CiscoConfParse.find_lineage"]}
{"id": "C55", "title": "find_blocks returns the matching lines, their siblings and all their ancestors", "statement": "find_blocks(spec) returns exactly the matching lines, the other children of their parents, and the ancestors of all those, each once and in order.", "quantifier": "all configurations and regexes", "why_tests_cant": "trees of any depth", "anchors": ["ciscoconfparse/ciscoconfparse.py:CiscoConfParse.find_blocks"]}
{"id": "C56", "title": "siblings are the lines with the same parent and indent", "statement": "x is in obj.siblings iff x has the same parent as obj and the same indent; obj is its own sibling.", "quantifier": "all configurations and non-root lines", "why_tests_cant": "all indentation patterns", "anchors": ["ciscoconfparse/ccp_abc.py:BaseCfgLine.siblings"]}
{"id": "C57", "title": "append_line and prepend_line add the given line", "statement": "append_line(t) makes t the last line and prepend_line(t) makes t the first line; every other line stays as it was.", "quantifier": "all configurations, edit histories and texts", "why_tests_cant": "all histories and texts", "anchors": ["ciscoconfparse/ciscoconfparse.py:CiscoConfParse.append_line", "ciscoconfparse/ciscoconfparse.py:CiscoConfParse.prepend_line", "ciscoconfparse/ciscoconfparse.py:ConfigList.insert"]}
{"id": "C58", "title": "Inserting next to an object puts one line next to that object only", "statement": "obj.insert_before(t) (obj.insert_after(t)) adds one line with text t directly before (after) obj and leaves every other line as it was; insert_after_child inserts once after each matching child.", "quantifier": "all configurations, edit histories, objects and texts", "why_tests_cant": "other lines may contain the object's text", "anchors": ["ciscoconfparse/ccp_abc.py:BaseCfgLine.insert_before", "ciscoconfparse/ccp_abc.py:BaseCfgLine.insert_after", "ciscoconfparse/ciscoconfparse.py:CiscoConfParse.insert_after_child"]}
{"id": "C59", "title": "commit re-establishes the tree after any edits", "statement": "After any sequence of edits, commit() keeps the line texts and gives every line the line number, indent and parent that parsing those texts would give it.", "quantifier": "all configurations and edit histories", "why_tests_cant": "histories of any length", "anchors": ["ciscoconfparse/ciscoconfparse.py:CiscoConfParse.commit", "ciscoconfparse/ciscoconfparse.py:CiscoConfParse.atomic", "ciscoconfparse/ciscoconfparse.py:ConfigList._bootstrap_from_text"]}
{"id": "C60", "title": "replace_children replaces exactly the matching children of matching parents", "statement": "replace_children(p, c, r) replaces the text of exactly the lines that match c and are children of a line that matches p (for replace_all_children: descendants); everything else stays as it was.", "quantifier": "all configurations, regexes and replacements", "why_tests_cant": "overlapping families, all trees", "anchors": ["ciscoconfparse/ciscoconfparse.py:CiscoConfParse.replace_children", "ciscoconfparse/ciscoconfparse.py:CiscoConfParse.replace_all_children", "ciscoconfparse/ccp_abc.py:BaseCfgLine.re_sub"]}
{"id": "C61", "title": "delete_children_matching removes exactly the matching children with their families", "statement": "obj.delete_children_matching(r) removes exactly the children of obj that match r, and everything below them.", "quantifier": "all configurations, objects and regexes", "why_tests_cant": "families of any size", "anchors": ["ciscoconfparse/ccp_abc.py:BaseCfgLine.delete_children_matching"]}
{"id": "C62", "title": "The object list behaves like a list of lines", "statement": "objs.insert(k, t) makes t line k and shifts the later lines; del objs[k] removes line k and re-parses; out-of-range deletion raises IndexError; indices count from the end when negative.", "quantifier": "all configurations, edit histories, indices and texts", "why_tests_cant": "all histories and indices", "anchors": ["ciscoconfparse/ciscoconfparse.py:ConfigList.insert", "ciscoconfparse/ciscoconfparse.py:ConfigList.__delitem__"]}
{"id": "C63", "title": "No part of an accepted interface name is silently dropped or moved", "statement": "When CiscoIOSInterface(name) is accepted, str() of the result is the name up to whitespace: no digit group, separator or sign of the name disappears or changes its place.", "quantifier": "all interface names", "why_tests_cant": "all texts, not only well-formed ones", "anchors": ["ciscoconfparse/ccp_util.py:CiscoIOSInterface.parse_single_interface", "ciscoconfparse/ccp_util.py:CiscoIOSInterface.parse_intf_short", "ciscoconfparse/ccp_util.py:CiscoIOSInterface.parse_intf_long"]}
{"id": "C64", "title": "HDiff reports every change, and every line once", "statement": "Every line (with its parents) that only one of the two configurations has is reported with + or -, every line that both have is reported without a sign, and no line with the same parents is reported twice.", "quantifier": "all pairs of configurations, all syntaxes", "why_tests_cant": "all pairs", "anchors": ["ciscoconfparse/ciscoconfparse.py:HDiff", "ciscoconfparse/ciscoconfparse.py:HDiff.compress_dict_diffs"]}
{"id": "C65", "title": "HDiff keeps the order of the lines", "statement": "The kept and removed lines are reported in the order of before, the added lines in the order of after, each below its own parent.", "quantifier": "all pairs of configurations", "why_tests_cant": "all pairs, any number of families", "anchors": ["ciscoconfparse/ciscoconfparse.py:HDiff.compress_dict_diffs", "ciscoconfparse/ciscoconfparse.py:HDiff.dict_diffs"]}
{"id": "C66", "title": "sync_diff of a compliant configuration is empty", "statement": "If the wanted lines are the present lines, sync_diff returns no commands, whatever linespec and uncfgspec are.", "quantifier": "all configurations, expressions and syntaxes", "why_tests_cant": "all configurations", "anchors": ["ciscoconfparse/ciscoconfparse.py:CiscoConfParse.sync_diff"]}
{"id": "C67", "title": "sync_diff returns exactly the commands for the differences", "statement": "sync_diff returns a command for every line matching linespec that is missing and, if remove_lines, a 'no' command (or the positive form of a 'no' line) for every such line that is too much, and nothing else; it does not raise.", "quantifier": "all configurations, wanted lines and expressions", "why_tests_cant": "all pairs, all expressions", "anchors": ["ciscoconfparse/ciscoconfparse.py:CiscoConfParse.sync_diff", "ciscoconfparse/ccp_util.py:fix_repeated_words"]}
{"id": "C68", "title": "The commands of sync_diff can be entered as they are", "statement": "Every command for an indented line is preceded by the commands of its parents.", "quantifier": "all configurations, wanted lines and expressions", "why_tests_cant": "all pairs", "anchors": ["ciscoconfparse/ciscoconfparse.py:CiscoConfParse.sync_diff"]}
{"id": "C69", "title": "The header of the unified diff counts the changes", "statement": "The line '@@ -a,b +c,d @@' gives the position of the first removed (added) line and the number of removed (added) lines of the diff below it, in this order.", "quantifier": "all pairs of configurations", "why_tests_cant": "all pairs, repeated lines", "anchors": ["ciscoconfparse/ciscoconfparse.py:HDiff.unified_diff_header"]}
{"id": "C70", "title": "Typed search returns the first match or the default", "statement": "obj.re_match_iter_typed(rx, group, result_type, default) converts the group of the first match among the line and its descendants in order (its children with recurse=False) and returns the default without a match; an invalid expression raises; with groupdict the result has exactly the keys of groupdict, all with the default if nothing matches.", "quantifier": "all configurations, lines, expressions of the modelled regular expression language, groups and conversions", "why_tests_cant": "all expressions and trees", "anchors": ["ciscoconfparse/ccp_abc.py:BaseCfgLine.re_match_iter_typed", "ciscoconfparse/ccp_abc.py:BaseCfgLine.get_typed_dict"]}
{"id": "C71", "title": "Numeric interface attributes are the configured numbers", "statement": "manual_mtu, manual_ip_mtu, manual_mpls_mtu, manual_bandwidth, manual_delay, manual_speed, manual_clock_rate, manual_holdqueue_in/out, manual_carrierdelay and manual_arp_timeout are the number in the first line of the interface that consists of the keywords and a number; the documented default (0, or -1) without such a line; the has_... attributes say whether there is one.", "quantifier": "all configurations and lines", "why_tests_cant": "all texts of the lines, all blanks between words, any nesting", "anchors": ["ciscoconfparse/models_cisco.py:BaseIOSIntfLine.manual_mtu", "ciscoconfparse/models_cisco.py:BaseIOSIntfLine.manual_bandwidth", "ciscoconfparse/models_cisco.py:BaseIOSIntfLine.manual_delay"]}
{"id": "C72", "title": "Textual interface attributes are the configured words", "statement": "description, manual_encapsulation, manual_duplex, the access groups and vrf are the text (word) behind their keywords in the first line of the interface that has them, and empty otherwise.", "quantifier": "all configurations and lines", "why_tests_cant": "all texts", "anchors": ["ciscoconfparse/models_cisco.py:BaseIOSIntfLine.description", "ciscoconfparse/models_cisco.py:BaseIOSIntfLine.ipv4_accessgroup_in", "ciscoconfparse/models_cisco.py:BaseIOSIntfLine.vrf"]}
{"id": "C73", "title": "Interface flags are true exactly if the line is there", "statement": "is_shutdown, has_mpls, has_manual_speed, has_no_icmp_unreachables, has_no_icmp_redirects, has_no_ip_proxyarp, has_ip_pim_sparse_mode, ... are true exactly if the interface has the corresponding line; 'no shutdown' does not count as shutdown.", "quantifier": "all configurations and lines", "why_tests_cant": "all texts", "anchors": ["ciscoconfparse/models_cisco.py:BaseIOSIntfLine.is_shutdown", "ciscoconfparse/models_cisco.py:BaseIOSIntfLine.has_no_icmp_redirects", "ciscoconfparse/models_cisco.py:BaseIOSIntfLine.has_ip_pim_sparse_mode"]}
{"id": "C74", "title": "The IPv4 address attributes are the configured address and agree with each other", "statement": "ipv4_addr and ipv4_netmask are the address and mask of the first line 'ip address A M' (not secondary), empty for dhcp/negotiated; ipv4_addr_object is IPv4Obj(A/M).", "quantifier": "all configurations and lines", "why_tests_cant": "all texts, any order of primary and secondary lines", "anchors": ["ciscoconfparse/models_cisco.py:BaseIOSIntfLine.ipv4_addr", "ciscoconfparse/models_cisco.py:BaseIOSIntfLine.ipv4_netmask", "ciscoconfparse/models_cisco.py:BaseIOSIntfLine.ipv4_addr_object"]}
{"id": "C75", "title": "Switch port attributes follow the switchport lines", "statement": "is_switchport is true exactly if a child of the interface starts with switchport; access_vlan and native_vlan are the configured numbers, 1 by default on a switch port and 0 elsewhere; the modes, CDP, port security, trunk encapsulation and DTP attributes are true exactly if the lines are there; none of them raises.", "quantifier": "all configurations and interface lines", "why_tests_cant": "all texts", "anchors": ["ciscoconfparse/models_cisco.py:BaseIOSIntfLine.is_switchport", "ciscoconfparse/models_cisco.py:BaseIOSIntfLine.access_vlan", "ciscoconfparse/models_cisco.py:BaseIOSIntfLine.has_dtp"]}
{"id": "C76", "title": "The HSRP attributes are those of the standby lines", "statement": "hsrp_ip_addr, hsrp_ip_mask, hsrp_group, hsrp_priority, hsrp_hello_timer, hsrp_hold_timer and hsrp_authentication_md5_keychain are the values of the first 'standby [group] ...' line of the interface that has them and the documented default otherwise (priority 100 with, 0 without an HSRP address); has_ip_hsrp, has_hsrp_usebia, has_hsrp_preempt and has_hsrp_authentication_md5 are true exactly if the line is there; none of them raises.", "quantifier": "all configurations and lines", "why_tests_cant": "all texts, with and without a group number, any order", "anchors": ["ciscoconfparse/models_cisco.py:BaseIOSIntfLine.hsrp_ip_addr", "ciscoconfparse/models_cisco.py:BaseIOSIntfLine.hsrp_priority", "ciscoconfparse/models_cisco.py:BaseIOSIntfLine.has_hsrp_preempt"]}
{"id": "C77", "title": "factory=True gives each line the class it belongs to", "statement": "With factory=True an IOS line becomes an interface object exactly if its first word is interface, a route object exactly if it starts with 'ip route ' or 'ipv6 route ', an access line object for line..., a hostname object for hostname..., an AAA object for its three keywords, and an ordinary line otherwise; a line belongs to one of these classes only; the only exception is ValueError, for routes and AAA server groups.", "quantifier": "all texts of a line", "why_tests_cant": "all texts, overlapping keywords", "anchors": ["ciscoconfparse/ciscoconfparse.py:config_line_factory", "ciscoconfparse/models_cisco.py:IOSCfgLine.is_object_for", "ciscoconfparse/models_cisco.py:IOSRouteLine.is_object_for"]}
{"id": "C78", "title": "factory=True changes the classes of the objects, not the tree", "statement": "If CiscoConfParse(lines, factory=True) succeeds, its objects have the same texts, order, parents and children as with factory=False, and the object of each line has the class that the factory gives this line.", "quantifier": "all lists of lines and options (empty lines aside if blank lines are ignored)", "why_tests_cant": "all configurations", "anchors": ["ciscoconfparse/ciscoconfparse.py:ConfigList", "ciscoconfparse/ciscoconfparse.py:config_line_factory"]}
{"id": "C79", "title": "Static route attributes are what the command says", "statement": "For a static IPv4 route as IOS writes it, with any combination of the optional parameters, vrf, network, netmask, network_object, masklen, next_hop_interface, next_hop_addr, global_next_hop, admin_distance, multicast, route_name, permanent, tracking_object_name and tag are those of the command (or the documented defaults).", "quantifier": "all combinations of parameters and all values", "why_tests_cant": "2^11 combinations of parameters with unbounded values", "anchors": ["ciscoconfparse/models_cisco.py:IOSRouteLine", "ciscoconfparse/models_cisco.py:_RE_IP_ROUTE"]}
{"id": "C80", "title": "factory=True accepts what factory=False accepts", "statement": "A configuration that parses with factory=False also parses with factory=True; a command mentioned inside another line (a description) does not change the class of the line.", "quantifier": "all configurations", "why_tests_cant": "all configurations", "anchors": ["ciscoconfparse/ciscoconfparse.py:config_line_factory", "ciscoconfparse/models_cisco.py:IOSRouteLine", "ciscoconfparse/models_cisco.py:IOSAaaGroupServerLine", "ciscoconfparse/models_cisco.py:IOSIntfGlobal.is_object_for"]}
{"id": "C81", "title": "Route attributes do not depend on spelling", "statement": "nexthop_str is the next hop of the command; the attributes are the same with several blanks between the words, with the parameters in any order that IOS accepts, for IPv6 routes, and with next hops learned from DHCP.", "quantifier": "all static routes", "why_tests_cant": "all spellings", "anchors": ["ciscoconfparse/models_cisco.py:IOSRouteLine.nexthop_str", "ciscoconfparse/models_cisco.py:IOSRouteLine.network", "ciscoconfparse/models_cisco.py:_RE_IPV6_ROUTE"]}
{"id": "C82", "title": "Host names and access lines are read as they are written", "statement": "hostname is the second word of the hostname line; for an access line, name is the second word (empty if it is a number), line_range and range_str are the one or two numbers behind the words, and parse_exectimeout gives the numbers of the first exec-timeout line among the line and its children.", "quantifier": "all lines and configurations", "why_tests_cant": "all texts and numbers", "anchors": ["ciscoconfparse/models_cisco.py:IOSHostnameLine.hostname", "ciscoconfparse/models_cisco.py:IOSAccessLine.name", "ciscoconfparse/models_cisco.py:IOSAccessLine.line_range", "ciscoconfparse/models_cisco.py:IOSAccessLine.parse_exectimeout"]}
{"id": "C83", "title": "Minutes, seconds and three-part numbers of access lines", "statement": "manual_exectimeout_minutes and manual_exectimeout_seconds are the two numbers of exec-timeout; line_range of 'line s/p/n' has the complete numbers.", "quantifier": "all configurations", "why_tests_cant": "all configurations", "anchors": ["ciscoconfparse/models_cisco.py:IOSAccessLine.manual_exectimeout_minutes", "ciscoconfparse/models_cisco.py:IOSAccessLine.line_range"]}
{"id": "C84", "title": "The kind of an interface follows from its line", "statement": "is_intf, is_subintf, is_loopback_intf, is_ethernet_intf and is_virtual_intf depend only on the words of the interface line in the documented way; portchannel_number is the number of the first channel-group line and -1 otherwise, in_portchannel says that there is one; the flags of global default lines are true exactly for these commands; none of them raises.", "quantifier": "all lines and configurations", "why_tests_cant": "all texts", "anchors": ["ciscoconfparse/models_cisco.py:BaseIOSIntfLine.is_intf", "ciscoconfparse/models_cisco.py:IOSCfgLine.is_virtual_intf", "ciscoconfparse/models_cisco.py:IOSCfgLine.portchannel_number", "ciscoconfparse/models_cisco.py:IOSIntfGlobal"]}
{"id": "C85", "title": "Names and numbers of interfaces are taken apart correctly", "statement": "For a line 'interface TYPE[ ]NUMBER words...', port_type is TYPE, interface_number is NUMBER without the subinterface, subinterface_number is NUMBER, name is the rest of the line with single blanks; is_abbreviated_as(v) is true exactly if v is some first letters of TYPE, at most one blank, and NUMBER, without regard to case; interface_object, port and ordinal_list have the numbers of the interface; a line that is no interface has no interface object.", "quantifier": "all interface lines (types of letters and hyphens, numbers of any shape, any further words)", "why_tests_cant": "all names and numbers", "anchors": ["ciscoconfparse/models_cisco.py:BaseIOSIntfLine.interface_object", "ciscoconfparse/models_cisco.py:BaseIOSIntfLine.port_type", "ciscoconfparse/models_cisco.py:BaseIOSIntfLine.interface_number", "ciscoconfparse/models_cisco.py:BaseIOSIntfLine.subinterface_number", "ciscoconfparse/models_cisco.py:BaseIOSIntfLine.is_abbreviated_as", "ciscoconfparse/models_cisco.py:BaseIOSIntfLine.ordinal_list"]}
{"id": "C86", "title": "Classes of interfaces and irregular spellings", "statement": "interface_object keeps the class of 'interface Serial1/0.25 point-to-point'; the number of an interface does not depend on the number of blanks before the class; interface_number never contains the subinterface.", "quantifier": "all interface lines", "why_tests_cant": "all spellings", "anchors": ["ciscoconfparse/models_cisco.py:BaseIOSIntfLine.interface_object", "ciscoconfparse/models_cisco.py:BaseIOSIntfLine.interface_number"]}
{"id": "C87", "title": "IPv6 addresses survive being written and read", "statement": "IPv6Obj(text) reads every RFC 4291 text of an address (eight groups of one to four hexadecimal digits of either case, or fewer around one '::') as that address, alone, with '/length' or with a blank and the length. as_cidr_addr, as_cidr_net and compressed write the address or network as RFC 5952 recommends (lower case, no needless zeros, the first of the longest runs of two or more zero groups as '::') and the prefix length; exploded, as_hex_tuple and as_binary_tuple write the eight groups with a fixed number of digits. Reading back what as_cidr_addr writes gives an equal object, reading as_cidr_net gives the network, reading exploded gives the address. Two objects are equal exactly if the texts from which their hashes are made agree.", "quantifier": "all addresses, all prefix lengths, all texts of every address", "why_tests_cant": "There are 2^128 addresses with many texts each; the expression that finds the address has eleven alternatives that are tried in order.", "anchors": ["ciscoconfparse/ccp_util.py:IPv6Obj", "ciscoconfparse/ccp_util.py:_RGX_IPV6ADDR", "ciscoconfparse/ccp_util.py:IPv6Obj.as_cidr_addr", "ciscoconfparse/ccp_util.py:IPv6Obj.exploded"]}
{"id": "C88", "title": "Only texts of IPv6 addresses are taken for addresses", "statement": "If IPv6Obj(text) succeeds then the text, with blanks as slash, is a text of the address of the object, with or without one mask length.", "quantifier": "all texts", "why_tests_cant": "The set of texts is infinite; accepting a wrong text silently gives another address.", "anchors": ["ciscoconfparse/ccp_util.py:IPv6Obj", "ciscoconfparse/ccp_util.py:_RGX_IPV6ADDR"]}
{"id": "C89", "title": "IPv6 addresses that end with a dotted IPv4 address are read", "statement": "IPv6Obj accepts a text whose last two groups are written as a dotted IPv4 address (RFC 4291, form 3, with all groups or with one ::), alone, with /length or with a blank and the length, and has the address, the prefix length and the network that the text denotes.", "quantifier": "all numbers of groups before and after ::, all groups of one to four hexadecimal digits, all IPv4 addresses, all prefix lengths", "why_tests_cant": "2^128 addresses times all positions of :: ; the expression has eleven alternatives of which an earlier one may read a prefix of the text", "anchors": ["ciscoconfparse/ccp_util.py:IPv6Obj", "ciscoconfparse/ccp_util.py:_RGX_IPV6ADDR"]}
{"id": "C90", "title": "The views of an address agree with its network", "statement": "netmask has ones exactly in the first prefixlen places, hostmask and inverse_netmask exactly in the others; network is the network of the object; broadcast (IPv4) is its last address; iterating over the object visits every address of the network once in ascending order; int(), as_int and as_hex are the address; as_zeropadded_network is the network with three digits for each octet; is_multicast, is_reserved, is_link_local, is_site_local and is_unspecified hold exactly if all addresses of the network are of that class.", "quantifier": "all IPv4 and IPv6 objects a program can obtain", "why_tests_cant": "2^32 and 2^128 addresses times all prefix lengths; a class test that looks at one end only passes most tests", "anchors": ["ciscoconfparse/ccp_util.py:IPv4Obj.netmask", "ciscoconfparse/ccp_util.py:IPv4Obj.broadcast", "ciscoconfparse/ccp_util.py:IPv4Obj.__iter__", "ciscoconfparse/ccp_util.py:IPv4Obj.as_hex", "ciscoconfparse/ccp_util.py:IPv6Obj.hostmask", "ciscoconfparse/ccp_util.py:IPv6Obj.is_multicast"]}
{"id": "C91", "title": "ip_factory accepts exactly the IPv4 texts", "statement": "ip_factory(text, mode='ipv4') succeeds exactly for a dotted quad, alone or followed by a slash and a mask (digits up to 32, a dotted netmask or a dotted hostmask), and returns the object with that address and prefix length; with stdlib=True it returns that address if the length is 32 and else that network. The default mode chooses IPv6 exactly if the text has a colon; another mode is refused; in the three modes every failure is an AddressValueError.", "quantifier": "all texts, all modes", "why_tests_cant": "the texts are infinitely many; the mask is read by two parsers that must agree", "anchors": ["ciscoconfparse/ccp_util.py:ip_factory", "ciscoconfparse/ccp_util.py:_get_ipv4"]}
{"id": "C92", "title": "ip_factory accepts exactly the IPv6 texts", "statement": "ip_factory(text, mode='ipv6') succeeds exactly for the texts of an IPv6 address, alone or followed by a slash and a mask length up to 128, and returns the object (with stdlib=True the address or network) with that address and length.", "quantifier": "all texts", "why_tests_cant": "the texts are infinitely many; the text is read by two parsers that must agree", "anchors": ["ciscoconfparse/ccp_util.py:ip_factory", "ciscoconfparse/ccp_util.py:_get_ipv6"]}
{"id": "C93", "title": "IPv4Obj reads exactly these texts", "statement": "IPv4Obj(text) succeeds exactly if the text without blanks at its ends is a dotted quad alone, a dotted quad, a slash and a mask (digits, netmask or hostmask), or a dotted quad, blanks and a dotted mask; the object has that address, prefix length and network.", "quantifier": "all texts", "why_tests_cant": "the set of texts is infinite; accepting a wrong text silently gives another address", "anchors": ["ciscoconfparse/ccp_util.py:IPv4Obj", "ciscoconfparse/ccp_util.py:_RGX_IPV4ADDR_WITH_MASK"]}
{"id": "C94", "title": "A search with a text finds exactly the lines that have it", "statement": "find_objects and find_lines with a plain text return exactly the lines that contain it; with exactmatch=True the lines equal to it; with a pattern of characters, escaped characters, ., \\d, \\s, \\S, \\w, each possibly with +, * or ?, and ^ and $ at its ends, exactly the lines with a part of that form at the place the anchors demand (exactmatch: of that form as a whole). In line order, each line once.", "quantifier": "all configurations, all plain texts and all patterns of this form", "why_tests_cant": "infinitely many texts and patterns; a greedy search without the right backtracking passes most tests", "anchors": ["ciscoconfparse/ciscoconfparse.py:CiscoConfParse.find_objects", "ciscoconfparse/ciscoconfparse.py:CiscoConfParse.find_lines", "ciscoconfparse/ciscoconfparse.py:CiscoConfParse._find_line_OBJ"]}
{"id": "C95", "title": "ignore_ws makes runs of blanks equal", "statement": "With ignore_ws=True a search finds exactly the lines that the specification stands for if every run of blanks in it may be any nonempty run of whitespace in the line; for a plain text with exactmatch=True: the lines with the same words.", "quantifier": "all configurations, all plain texts and simple patterns", "why_tests_cant": "infinitely many texts, patterns and spacings", "anchors": ["ciscoconfparse/ciscoconfparse.py:build_space_tolerant_regex", "ciscoconfparse/ciscoconfparse.py:CiscoConfParse.find_objects"]}
{"id": "C96", "title": "exactmatch demands the whole line for every expression", "statement": "find_objects(spec, exactmatch=True) returns only lines that the expression matches from the first to the last character.", "quantifier": "all configurations, all regular expressions", "why_tests_cant": "the expressions are infinitely many, and the anchors are added to their texts", "anchors": ["ciscoconfparse/ciscoconfparse.py:CiscoConfParse.find_objects", "ciscoconfparse/ciscoconfparse.py:CiscoConfParse._find_line_OBJ"]}
{"id": "C97", "title": "Searches for parents and children with plain texts", "statement": "find_parent_objects(p, c) returns exactly the lines that contain p and have a child (recurse=True: a descendant) that contains c; find_parent_objects_wo_child exactly the other lines that contain p; find_child_objects exactly the children (descendants) that contain c of lines that contain p. In line order, each line once.", "quantifier": "all configurations (for descendants and find_child_objects without the texts that make two children equal), all plain texts, c not empty", "why_tests_cant": "infinitely many configurations and texts", "anchors": ["ciscoconfparse/ciscoconfparse.py:CiscoConfParse.find_parent_objects", "ciscoconfparse/ciscoconfparse.py:CiscoConfParse.find_parent_objects_wo_child", "ciscoconfparse/ciscoconfparse.py:CiscoConfParse.find_child_objects"]}
{"id": "C98", "title": "escape_chars makes any text a plain text", "statement": "With escape_chars=True, find_parent_objects and find_child_objects take their specifications as plain texts whatever characters they contain, also together with ignore_ws=True.", "quantifier": "all configurations, all texts", "why_tests_cant": "the special characters may stand anywhere in the texts", "anchors": ["ciscoconfparse/ciscoconfparse.py:CiscoConfParse.find_parent_objects", "ciscoconfparse/ciscoconfparse.py:CiscoConfParse.find_child_objects"]}
{"id": "C99", "title": "req_cfgspec_all_diff returns the required lines that are missing", "statement": "req_cfgspec_all_diff(required) returns, in their order, exactly the required lines that are not a line of the configuration; blanks at the ends of lines do not count.", "quantifier": "all configurations, all lists of required lines", "why_tests_cant": "infinitely many configurations and requirements; a missing line that is not reported is never configured", "anchors": ["ciscoconfparse/ciscoconfparse.py:CiscoConfParse.req_cfgspec_all_diff"]}
{"id": "C100", "title": "req_cfgspec_all_diff with ignore_ws compares words", "statement": "req_cfgspec_all_diff(required, ignore_ws=True) returns, in their order, exactly the required lines for which no line of the configuration has the same words.", "quantifier": "all configurations, all lists of required lines", "why_tests_cant": "the texts and their spacings are infinitely many", "anchors": ["ciscoconfparse/ciscoconfparse.py:CiscoConfParse.req_cfgspec_all_diff", "ciscoconfparse/ciscoconfparse.py:build_space_tolerant_regex"]}
{"id": "C101", "title": "req_cfgspec_excl_diff removes what is not allowed and adds what is missing", "statement": "req_cfgspec_excl_diff(linespec, uncfgspec, allowed) returns, in line order, for each line that matches linespec and is none of the allowed lines, its ancestors as they are and 'no' with what uncfgspec finds in it, indented as the line; then, in their order, the allowed lines that the configuration does not have. A line in which uncfgspec finds nothing raises an error.", "quantifier": "all configurations, all expressions, all lists of allowed lines", "why_tests_cant": "the trees and the overlapping ancestors are infinitely many; a command without its parent is applied to another object", "anchors": ["ciscoconfparse/ciscoconfparse.py:CiscoConfParse.req_cfgspec_excl_diff", "ciscoconfparse/ciscoconfparse.py:CiscoConfParse._unique_OBJ", "ciscoconfparse/ccp_abc.py:BaseCfgLine.add_uncfgtext"]}
{"id": "C102", "title": "child_indent is the indentation of the last child", "statement": "child_indent of a line is the indentation of its last child, and 0 for a line without children.", "quantifier": "all configurations", "why_tests_cant": "the nesting depth is unbounded", "anchors": ["ciscoconfparse/ccp_abc.py:BaseCfgLine.child_indent"]}
{"id": "C103", "title": "Searches from the top of the configuration", "statement": "CiscoConfParse.re_search_children(rx) returns exactly the matching lines without a parent, with recurse=True exactly all matching lines, in line order. CiscoConfParse.re_match_iter_typed returns the converted group of the first line without a parent that matches, and the default (converted unless untyped_default) if there is none.", "quantifier": "all configurations, all expressions, result types and defaults", "why_tests_cant": "infinitely many configurations; the first match may be at any place", "anchors": ["ciscoconfparse/ciscoconfparse.py:CiscoConfParse.re_search_children", "ciscoconfparse/ciscoconfparse.py:CiscoConfParse.re_match_iter_typed"]}
{"id": "C104", "title": "find_interface_objects finds the interface that a text abbreviates", "statement": "With factory=True, find_interface_objects(text) returns the first interface line whose name the text abbreviates (a nonempty beginning of the type, capital letters or not, perhaps one blank, and the whole number), and an empty list if there is none. Without factory=True it raises ValueError; with exactmatch=False or a syntax with braces NotImplementedError.", "quantifier": "all configurations, all texts", "why_tests_cant": "the configurations, interface names and abbreviations are infinitely many; a wrong abbreviation finds another interface", "anchors": ["ciscoconfparse/ciscoconfparse.py:CiscoConfParse.find_interface_objects", "ciscoconfparse/models_cisco.py:BaseIOSIntfLine.abbvs"]}
{"id": "C105", "title": "find_objects_dna finds lines by the name of their class", "statement": "With factory=True, find_objects_dna(text) with a plain text returns exactly the lines whose class has a name that contains the text, with exactmatch=True exactly the lines of the class with this name, in line order. Without factory=True it raises ValueError.", "quantifier": "all configurations, all plain texts", "why_tests_cant": "infinitely many configurations; each line is classified by its own text", "anchors": ["ciscoconfparse/ciscoconfparse.py:CiscoConfParse.find_objects_dna", "ciscoconfparse/ccp_abc.py:BaseCfgLine.dna"]}
{"id": "C106", "title": "Names of IOS XR interfaces are read and written", "statement": "CiscoIOSXRInterface reads names with slot/card/processor/port (card and processor are any letters and digits), slot/port, and port with an optional subinterface, channel and class, whatever white text is around the name or in front of the numbers; str() gives the same name without that white text.", "quantifier": "all prefixes, numbers, words and white texts", "why_tests_cant": "the names are infinitely many; the parser reads them with an expression of nine groups, most of them optional", "anchors": ["ciscoconfparse/ccp_util.py:CiscoIOSXRInterface.parse_single_interface", "ciscoconfparse/ccp_util.py:CiscoIOSXRInterface.parse_intf_long", "ciscoconfparse/ccp_util.py:CiscoIOSXRInterface.parse_intf_short", "ciscoconfparse/ccp_util.py:CiscoIOSXRInterface.render_as_string"]}
{"id": "C107", "title": "No part of the name of an IOS XR interface is lost", "statement": "CiscoIOSXRInterface keeps the subinterface, channel and class behind slot/card/processor/port, and reads slot/card/port; str() writes every interface that was read.", "quantifier": "all names that the parser accepts", "why_tests_cant": "the names are infinitely many", "anchors": ["ciscoconfparse/ccp_util.py:CiscoIOSXRInterface.parse_intf_long", "ciscoconfparse/ccp_util.py:CiscoIOSXRInterface.number"]}
{"id": "C108", "title": "IOS XR interfaces compare part by part", "statement": "Two CiscoIOSXRInterface objects are equal exactly when the prefix and all parts are, and equal ones have the same hash; < is a strict order by slot, card, processor, port, subinterface, channel and class, > is < turned around, the order of numbers is the numerical one, and any two interfaces compare.", "quantifier": "all pairs and triples of interfaces", "why_tests_cant": "transitivity and totality range over all triples and pairs", "anchors": ["ciscoconfparse/ccp_util.py:CiscoIOSXRInterface.__eq__", "ciscoconfparse/ccp_util.py:CiscoIOSXRInterface.__lt__", "ciscoconfparse/ccp_util.py:CiscoIOSXRInterface.__gt__", "ciscoconfparse/ccp_util.py:CiscoIOSXRInterface.__hash__", "ciscoconfparse/ccp_util.py:CiscoIOSXRInterface.sort_list"]}
{"id": "C109", "title": "Copies of IOS XR interfaces", "statement": "from_dict(as_dict()) of a CiscoIOSXRInterface gives the same interface, and so does the constructor with another interface or with such a dictionary.", "quantifier": "all interfaces that the parser returns, all dictionaries", "why_tests_cant": "the interfaces are infinitely many", "anchors": ["ciscoconfparse/ccp_util.py:CiscoIOSXRInterface.from_dict", "ciscoconfparse/ccp_util.py:CiscoIOSXRInterface.as_dict", "ciscoconfparse/ccp_util.py:CiscoIOSXRInterface.check_interface_dict", "ciscoconfparse/ccp_util.py:CiscoIOSXRInterface.update_internal_state"]}
{"id": "C110", "title": "The dictionaries of an ASA configuration", "statement": "With syntax='asa', names maps each name to the address on the last name line for it, object_group_network maps each name to the last object-group network line with it, and access_list maps each name to all access-list lines with it, in their order; the dictionaries have no other keys. With another syntax the attributes raise.", "quantifier": "all configurations", "why_tests_cant": "the value of a key depends on which of arbitrarily many lines is the last one", "anchors": ["ciscoconfparse/ciscoconfparse.py:ConfigList.names", "ciscoconfparse/ciscoconfparse.py:ConfigList.object_group_network", "ciscoconfparse/ciscoconfparse.py:ConfigList.access_list"]}
{"id": "C111", "title": "The classes of ASA objects", "statement": "With factory=True and syntax='asa', each line gets an object of exactly one class, determined by the words that the line begins with; the texts, parents and children are those of factory=False; ValueError is raised only for name and access-list lines, and for a name line exactly if it is not name, an address, one blank and a name.", "quantifier": "all lines and all configurations", "why_tests_cant": "the classes are tried one after the other; that the tests exclude each other has to hold for every line", "anchors": ["ciscoconfparse/ciscoconfparse.py:config_line_factory", "ciscoconfparse/models_asa.py:ASAName.is_object_for", "ciscoconfparse/models_asa.py:ASAObjGroupNetwork.is_object_for", "ciscoconfparse/models_asa.py:ASAIntfLine.is_object_for", "ciscoconfparse/models_asa.py:ASAName.__init__"]}
{"id": "C112", "title": "factory=True reads what factory=False reads, for ASA", "statement": "A configuration that CiscoConfParse(syntax='asa', factory=False) reads is read with factory=True as well.", "quantifier": "all configurations", "why_tests_cant": "the constructors of some classes raise, and one such line stops the whole parse", "anchors": ["ciscoconfparse/ciscoconfparse.py:config_line_factory", "ciscoconfparse/models_asa.py:ASAName.__init__", "ciscoconfparse/models_asa.py:ASAAclLine.__init__"]}
{"id": "C113", "title": "The networks of an object group", "statement": "network_strings of an ASA network group is the list of the hosts and networks on its lines, in their order: names are replaced by the addresses of names, a host mask gives a host, description lines give nothing, and a group-object line gives the list of that group at this place; network_count is its length. If a line is of another form, or a group is unknown or contains itself directly or through other groups, an exception is raised.", "quantifier": "all configurations, with groups nested to any depth", "why_tests_cant": "the groups refer to each other to any depth and in cycles; the result is defined by recursion over the configuration", "anchors": ["ciscoconfparse/models_asa.py:ASAObjGroupNetwork.network_strings", "ciscoconfparse/models_asa.py:ASAObjGroupNetwork.network_count", "ciscoconfparse/models_asa.py:ASAObjGroupNetwork.name"]}
{"id": "C114", "title": "Every network group can be expanded", "statement": "network_strings gives a result for each network group that an ASA accepts.", "quantifier": "all configurations", "why_tests_cant": "the forms of the lines are infinitely many", "anchors": ["ciscoconfparse/models_asa.py:ASAObjGroupNetwork.network_strings", "ciscoconfparse/ciscoconfparse.py:ConfigList.object_group_network"]}
{"id": "C115", "title": "The cache of network objects is not visible", "statement": "networks of an ASA network group is the list of IPv4Obj(s) for s in network_strings, and raises what the first failing one raises, whatever evaluations of networks of whatever groups came before, with or without exceptions.", "quantifier": "all configurations and all histories of evaluations", "why_tests_cant": "the cache is shared by all groups of a configuration and its contents depend on the history", "anchors": ["ciscoconfparse/models_asa.py:ASAObjGroupNetwork.networks"]}
{"id": "C116", "title": "The ports of a service object group", "statement": "name, protocol type and directionality of an ASA service group are those of its line; ports is the list of the L4Objects of its lines, in their order: a port-object line gives one object of the group's protocol with its operator and ports, a service-object line one of its own protocol with the word behind source or destination, tcp-udp gives two objects, a description line none; with any other line ports raises.", "quantifier": "all service groups, with any number of lines", "why_tests_cant": "a line is read by an expression with three alternatives that itself contains alternatives with common beginnings (tcp, tcp-udp); that the right one is taken has to hold for every line", "anchors": ["ciscoconfparse/models_asa.py:ASAObjGroupService.ports", "ciscoconfparse/models_asa.py:ASAObjGroupService.__init__", "ciscoconfparse/models_asa.py:_RE_PORTOBJECT"]}
{"id": "C117", "title": "The ports of every service group can be read", "statement": "ports gives a result for each service group that an ASA accepts, and it contains exactly the ports that the lines of the group allow.", "quantifier": "all service groups", "why_tests_cant": "the forms of the lines and the numbers are unboundedly many", "anchors": ["ciscoconfparse/models_asa.py:ASAObjGroupService.ports", "ciscoconfparse/ccp_util.py:L4Object"]}
{"id": "C118", "title": "The attributes of an ASA access list line", "statement": "For every ASA access-list line whose object could be created, result_dict raises nothing, and what it says (the name of the list, the action, the number of the protocol or the group of services, the kinds of the source and the destination, the remark, log with its level and interval, disable, the time range) is a reading of the words of the line.", "quantifier": "all lines", "why_tests_cant": "the expression has five alternatives and 82 groups, and the attributes are picked from more than sixty of them; each combination of the parts of a line is another case", "anchors": ["ciscoconfparse/models_asa.py:ASAAclLine.result_dict", "ciscoconfparse/models_asa.py:ASAAclLine.ip_protocol", "ciscoconfparse/models_asa.py:ASAAclLine.src_addr_method", "ciscoconfparse/models_asa.py:ASAAclLine.dst_addr_method", "ciscoconfparse/models_asa.py:_RE_ACLOBJECT"]}
{"id": "C119", "title": "Which ASA access list lines are accepted", "statement": "The object for an ASA access-list line is created if and only if the line begins with no blank and its words are those of a remark, an extended list, a standard list or a list for ICMP; for every other line ValueError is raised.", "quantifier": "all lines", "why_tests_cant": "the lines are infinitely many, and a line is refused only if each of five alternatives fails in every way", "anchors": ["ciscoconfparse/models_asa.py:ASAAclLine.__init__", "ciscoconfparse/models_asa.py:_RE_ACLOBJECT"]}
{"id": "C120", "title": "The attributes of an ASA access list line for ICMP", "statement": "For each ASA access-list line for ICMP the attributes log, log_interval, log_level, disable and time_range are those the words behind the destination and the type of message say.", "quantifier": "all lines for ICMP", "why_tests_cant": "this part of the expression is not anchored at the end of the line: which of several matches is taken decides whether the words are seen", "anchors": ["ciscoconfparse/models_asa.py:ASAAclLine.result_dict", "ciscoconfparse/models_asa.py:_RE_ACLOBJECT"]}
{"id": "C121", "title": "The interfaces of a Junos document", "statement": "In a parsed Junos document, is_intf is True exactly for the statements directly inside a top level block 'interfaces' and those one level deeper; the name of the former is their statement, the name of the latter that of the interface, a blank and the statement; other lines have no name; is_switchport is True exactly for the interfaces that have a statement with 'family ethernet-switching' inside, at any depth.", "quantifier": "all brace documents of any depth", "why_tests_cant": "a statement is found by its ancestors and descendants in a tree of any shape", "anchors": ["ciscoconfparse/models_junos.py:JunosCfgLine.is_intf", "ciscoconfparse/models_junos.py:JunosCfgLine.name", "ciscoconfparse/models_junos.py:JunosCfgLine.is_switchport"]}
{"id": "C122", "title": "The kinds of Junos interfaces", "statement": "is_subintf is True for the units of an interface and for no other line; is_loopback_intf, is_ethernet_intf and is_virtual_intf are True for the interfaces whose name says so.", "quantifier": "all brace documents", "why_tests_cant": "the names are arbitrary", "anchors": ["ciscoconfparse/models_junos.py:JunosCfgLine.is_subintf", "ciscoconfparse/models_junos.py:JunosCfgLine.is_loopback_intf", "ciscoconfparse/models_junos.py:JunosCfgLine.is_ethernet_intf", "ciscoconfparse/models_junos.py:JunosCfgLine.is_virtual_intf"]}
{"id": "C123", "title": "The HSRP groups of an interface", "statement": "hsrp_interfaces lists, in increasing order and once each, the numbers of the groups for which the interface has a 'standby <number> ip' line, and raises nothing.", "quantifier": "all interfaces", "why_tests_cant": "lines that mention the words elsewhere are arbitrary; order and absence of repetitions have to hold for any number of groups", "anchors": ["ciscoconfparse/models_cisco.py:BaseIOSIntfLine.hsrp_interfaces", "ciscoconfparse/models_cisco.py:HSRPInterfaceGroup.__init__", "ciscoconfparse/models_cisco.py:HSRPInterfaceGroup.__eq__", "ciscoconfparse/models_cisco.py:HSRPInterfaceGroup.__hash__"]}
{"id": "C124", "title": "The attributes of an HSRP group", "statement": "priority, version, preempt, ip, ipv6, has_ipv6, hello_timer, hold_timer, use_bia and interface_name of a group are what the first line for it, read in small letters, says; without a line they are 100, 1, False, (an error), '', False, 3, 10 and False.", "quantifier": "all interfaces, groups and lines", "why_tests_cant": "the lines of other groups and other attributes in front are arbitrary", "anchors": ["ciscoconfparse/models_cisco.py:HSRPInterfaceGroup.priority", "ciscoconfparse/models_cisco.py:HSRPInterfaceGroup.version", "ciscoconfparse/models_cisco.py:HSRPInterfaceGroup.preempt", "ciscoconfparse/models_cisco.py:HSRPInterfaceGroup.ipv4", "ciscoconfparse/models_cisco.py:HSRPInterfaceGroup.ipv6", "ciscoconfparse/models_cisco.py:HSRPInterfaceGroup.hello_timer", "ciscoconfparse/models_cisco.py:HSRPInterfaceGroup.hold_timer"]}
{"id": "C125", "title": "The remaining attributes of an HSRP group", "statement": "preempt_delay is the number in the 'standby <group> preempt delay minimum' line, ip is the address also in a line that ends in 'secondary' and raises ValueError without a line, authentication_md5_keychain is the key chain configured for the group.", "quantifier": "all interfaces and groups", "why_tests_cant": "they are claims about every configuration; a test shows one", "anchors": ["ciscoconfparse/models_cisco.py:HSRPInterfaceGroup.preempt_delay", "ciscoconfparse/models_cisco.py:HSRPInterfaceGroup.ipv4", "ciscoconfparse/models_cisco.py:HSRPInterfaceGroup.authentication_md5_keychain", "ciscoconfparse/models_cisco.py:HSRPInterfaceGroup.has_authentication_md5"]}
{"id": "C126", "title": "The interfaces an HSRP group tracks", "statement": "get_hsrp_tracking_interfaces lists the names and decrements of the 'standby <group> track <name> [<decrement>]' lines of the group in their order, with 10 where no decrement is given, and raises nothing; has_hsrp_track tells whether there are any.", "quantifier": "all interfaces, groups, names and decrements", "why_tests_cant": "the expression has a lazy part followed by a repeated optional one; where the name ends has to be right for every name", "anchors": ["ciscoconfparse/models_cisco.py:HSRPInterfaceGroup.get_hsrp_tracking_interfaces", "ciscoconfparse/models_cisco.py:TrackingInterface.decrement", "ciscoconfparse/models_cisco.py:TrackingInterface.name", "ciscoconfparse/models_cisco.py:HSRPInterfaceGroup.has_hsrp_track"]}
{"id": "C127", "title": "Configurations are equal if they have the same lines", "statement": "For two configurations whose line numbers are positions (every parse without dropped blank lines, and every history of careful edits), objs == objs2 is True if and only if they have the same lines in the same order.", "quantifier": "all pairs of configurations and histories", "why_tests_cant": "the lists have any length, and the comparison goes by the line numbers and texts of objects of different parses", "anchors": ["ciscoconfparse/ciscoconfparse.py:ConfigList.__eq__", "ciscoconfparse/ciscoconfparse.py:ConfigList.__cast", "ciscoconfparse/ccp_abc.py:BaseCfgLine.__eq__"]}
{"id": "C128", "title": "The order of configurations", "statement": "<, <=, > and >= between two configurations raise nothing; < holds if the lines of the first are the first lines of the second, which has more; > is < the other way round; <= is < or ==, and >= is > or ==.", "quantifier": "all pairs of configurations", "why_tests_cant": "an order is a claim about all pairs", "anchors": ["ciscoconfparse/ciscoconfparse.py:ConfigList.__lt__", "ciscoconfparse/ciscoconfparse.py:ConfigList.__le__", "ciscoconfparse/ciscoconfparse.py:ConfigList.__gt__", "ciscoconfparse/ciscoconfparse.py:ConfigList.__ge__", "ciscoconfparse/ccp_abc.py:BaseCfgLine.__lt__", "ciscoconfparse/ccp_abc.py:BaseCfgLine.__gt__"]}
{"id": "C129", "title": "Elements, parts, sums and copies of a configuration list", "statement": "objs[k] is line k, or the one counted from the end, and raises IndexError if there is none; objs[a:b:c] is the list of the selected lines; objs + other, other + objs, objs * k and objs.copy() are the lists of these lines; copy.copy(objs) is a new list of the same objects.", "quantifier": "all configurations, indices, slices and operands", "why_tests_cant": "bounds and steps are arbitrary integers", "anchors": ["ciscoconfparse/ciscoconfparse.py:ConfigList.__getitem__", "ciscoconfparse/ciscoconfparse.py:ConfigList.__add__", "ciscoconfparse/ciscoconfparse.py:ConfigList.__radd__", "ciscoconfparse/ciscoconfparse.py:ConfigList.__mul__", "ciscoconfparse/ciscoconfparse.py:ConfigList.copy", "ciscoconfparse/ciscoconfparse.py:ConfigList.__copy__", "ciscoconfparse/ciscoconfparse.py:ConfigList.__init__"]}
{"id": "C130", "title": "The list finds its own lines", "statement": "For the object at position k of a configuration, index is k, count is 1, in is True, and remove takes out this line and nothing else; for a string, which is no line object, in is False, and index and remove raise ValueError.", "quantifier": "all configurations and lines", "why_tests_cant": "objects compare by number and text together, so that a different line can be taken for the one given", "anchors": ["ciscoconfparse/ciscoconfparse.py:ConfigList.index", "ciscoconfparse/ciscoconfparse.py:ConfigList.count", "ciscoconfparse/ciscoconfparse.py:ConfigList.remove", "ciscoconfparse/ciscoconfparse.py:ConfigList.__iter__", "ciscoconfparse/ccp_abc.py:BaseCfgLine.__eq__"]}
{"id": "C131", "title": "Changes of the list keep it usable", "statement": "pop, reverse, sort and append change the list like a Python list; afterwards the line numbers are the positions, deleting an object deletes the line of this object, and searches work.", "quantifier": "all configurations and changes", "why_tests_cant": "what goes wrong depends on the edits that follow", "anchors": ["ciscoconfparse/ciscoconfparse.py:ConfigList.pop", "ciscoconfparse/ciscoconfparse.py:ConfigList.reverse", "ciscoconfparse/ciscoconfparse.py:ConfigList.sort", "ciscoconfparse/ciscoconfparse.py:ConfigList.append", "ciscoconfparse/ciscoconfparse.py:ConfigList.has_line_with", "ciscoconfparse/ccp_abc.py:BaseCfgLine.delete"]}
{"id": "C132", "title": "The lines at the left margin", "statement": "config_hierarchy returns the lines that begin without a blank and are no comments, in order, split into those with and those without children; iter_with_comments(b) yields the lines from position b on, iter_no_comments(b) those of them that are no comments; all_parents are the lines with children.", "quantifier": "all configurations", "why_tests_cant": "the lines and their tree are arbitrary", "anchors": ["ciscoconfparse/ciscoconfparse.py:ConfigList.config_hierarchy", "ciscoconfparse/ciscoconfparse.py:ConfigList.iter_no_comments", "ciscoconfparse/ciscoconfparse.py:ConfigList.iter_with_comments", "ciscoconfparse/ciscoconfparse.py:ConfigList.all_parents"]}
{"id": "C133", "title": "config_hierarchy lists the top of the tree", "statement": "The lines that config_hierarchy returns are those that have no parent and are no comments.", "quantifier": "all configurations", "why_tests_cant": "banners, macros and braces give parents to lines that are not indented", "anchors": ["ciscoconfparse/ciscoconfparse.py:ConfigList.config_hierarchy"]}
{"id": "C134", "title": "Numbers of an NXOS interface", "statement": "manual_speed, manual_bandwidth, manual_delay, manual_mtu, vpc and fex_associate_chassis_id are the number in the first line of the interface that consists of the keywords and a number, and 0 without such a line; access_vlan and native_vlan likewise, with 1 as the default of a switch port.", "quantifier": "all configurations parsed with syntax nxos and all interfaces", "why_tests_cant": "any number of lines, blanks and digits; near misses such as a second word behind the number must not count", "anchors": ["ciscoconfparse/models_nxos.py:BaseNXOSIntfLine.manual_speed", "ciscoconfparse/models_nxos.py:BaseNXOSIntfLine.manual_bandwidth", "ciscoconfparse/models_nxos.py:BaseNXOSIntfLine.manual_mtu", "ciscoconfparse/models_nxos.py:BaseNXOSIntfLine.vpc", "ciscoconfparse/models_nxos.py:BaseNXOSIntfLine.access_vlan", "ciscoconfparse/models_nxos.py:BaseNXOSIntfLine.native_vlan"]}
{"id": "C135", "title": "Texts of an NXOS interface", "statement": "description is the text behind the first line's keyword description; the spanning-tree link and port types are the text behind their keywords; vrf is the word behind vrf member.", "quantifier": "all configurations parsed with syntax nxos and all interfaces", "why_tests_cant": "the texts are arbitrary, and the shortest ones are the ones that are missed", "anchors": ["ciscoconfparse/models_nxos.py:BaseNXOSIntfLine.description", "ciscoconfparse/models_nxos.py:BaseNXOSIntfLine.vrf", "ciscoconfparse/models_nxos.py:BaseNXOSIntfLine.manual_stp_link_type", "ciscoconfparse/models_nxos.py:BaseNXOSIntfLine.manual_stp_port_type"]}
{"id": "C136", "title": "Flags of an NXOS interface", "statement": "is_switchport is true exactly if the first word of some line of the interface begins with switchport; manual_beacon, has_mpls and has_manual_switch_trunk exactly if some line consists of the keywords; has_manual_disable_cdp exactly if some line starts with no cdp enable.", "quantifier": "all configurations parsed with syntax nxos and all interfaces", "why_tests_cant": "any lines and any blanks", "anchors": ["ciscoconfparse/models_nxos.py:BaseNXOSIntfLine.is_switchport", "ciscoconfparse/models_nxos.py:BaseNXOSIntfLine.manual_beacon", "ciscoconfparse/models_nxos.py:BaseNXOSIntfLine.has_mpls", "ciscoconfparse/models_nxos.py:BaseNXOSIntfLine.has_manual_switch_trunk", "ciscoconfparse/models_nxos.py:BaseNXOSIntfLine.has_manual_disable_cdp"]}
{"id": "C137", "title": "Switch port modes, port security and MAC access groups of an NXOS interface", "statement": "has_manual_switch_access, has_manual_switch_fex_fabric and has_switch_portsecurity are true exactly if some line consists of the keywords; mac_accessgroup_in and mac_accessgroup_out are the word in the first line mac access-group W in (out).", "quantifier": "all configurations parsed with syntax nxos and all interfaces", "why_tests_cant": "any lines and any number of blanks between the words", "anchors": ["ciscoconfparse/models_nxos.py:BaseNXOSIntfLine.has_manual_switch_access", "ciscoconfparse/models_nxos.py:BaseNXOSIntfLine.has_manual_switch_fex_fabric", "ciscoconfparse/models_nxos.py:BaseNXOSIntfLine.has_switch_portsecurity", "ciscoconfparse/models_nxos.py:BaseNXOSIntfLine.mac_accessgroup_in"]}
{"id": "C138", "title": "The address line of an NXOS interface", "statement": "ipv4_addr and ipv4_masklength are the address and the length of the first line ip address A/L (or A /L); lines with more words, such as secondary, do not count; without such a line they are empty and 0. With a line ip address dhcp, ipv4_addr raises the exception about dynamic addresses.", "quantifier": "all configurations parsed with syntax nxos and all interfaces", "why_tests_cant": "any lines in any order, any blanks; the mask length comes from another expression than the address, and both must read the same line", "anchors": ["ciscoconfparse/models_nxos.py:BaseNXOSIntfLine.ipv4_addr", "ciscoconfparse/models_nxos.py:BaseNXOSIntfLine.ipv4_masklength"]}
{"id": "C139", "title": "Address objects of an NXOS interface", "statement": "With a valid address line A/L, ipv4_addr_object and ip_network_object are the address A with mask length L, ipv4_netmask is the mask of L and has_no_ipv4 is False; otherwise the objects are 0.0.0.1/32, the netmask is empty and has_no_ipv4 is True; with ip address dhcp they all raise the exception about dynamic addresses.", "quantifier": "all configurations parsed with syntax nxos and all interfaces", "why_tests_cant": "2^32 addresses and 33 lengths, plus all texts that only look like an address", "anchors": ["ciscoconfparse/models_nxos.py:BaseNXOSIntfLine.ipv4_addr_object", "ciscoconfparse/models_nxos.py:BaseNXOSIntfLine.ip_network_object", "ciscoconfparse/models_nxos.py:BaseNXOSIntfLine.ipv4_netmask", "ciscoconfparse/models_nxos.py:BaseNXOSIntfLine.has_no_ipv4"]}
{"id": "C140", "title": "Membership of an NXOS interface in subnets", "statement": "in_ipv4_subnet(s) is True exactly if every address of the interface's network is in the subnet; in_ipv4_subnets(ss) exactly if that holds for some member of ss; without an address both are None.", "quantifier": "all configurations, interfaces and subnets", "why_tests_cant": "all pairs of networks, and sets of any size including the empty one", "anchors": ["ciscoconfparse/models_nxos.py:BaseNXOSIntfLine.in_ipv4_subnet", "ciscoconfparse/models_nxos.py:BaseNXOSIntfLine.in_ipv4_subnets"]}
{"id": "C141", "title": "Flags of an NXOS interface with an address", "statement": "has_no_icmp_unreachables, has_no_icmp_redirects, has_no_ip_proxyarp and the three PIM modes are true exactly if the interface has an address and the line; manual_arp_timeout is the number in the first line arp timeout N, or 0, and -1 without an address.", "quantifier": "all configurations parsed with syntax nxos and all interfaces", "why_tests_cant": "any lines and any blanks", "anchors": ["ciscoconfparse/models_nxos.py:BaseNXOSIntfLine.has_no_icmp_unreachables", "ciscoconfparse/models_nxos.py:BaseNXOSIntfLine.has_no_icmp_redirects", "ciscoconfparse/models_nxos.py:BaseNXOSIntfLine.has_no_ip_proxyarp", "ciscoconfparse/models_nxos.py:BaseNXOSIntfLine.has_ip_pim_sparse_mode", "ciscoconfparse/models_nxos.py:BaseNXOSIntfLine.manual_arp_timeout"]}
{"id": "C142", "title": "DHCP relay addresses of an NXOS interface", "statement": "ip_helper_addresses lists, in order, the addresses of the lines ip dhcp relay address A with the VRF of the interface, and has_ip_helper_addresses is true exactly if the list is not empty.", "quantifier": "all configurations parsed with syntax nxos and all interfaces", "why_tests_cant": "any number of relay lines, with or without a VRF", "anchors": ["ciscoconfparse/models_nxos.py:BaseNXOSIntfLine.ip_helper_addresses", "ciscoconfparse/models_nxos.py:BaseNXOSIntfLine.has_ip_helper_addresses"]}
{"id": "C143", "title": "VLANs of an NXOS trunk", "statement": "trunk_vlans_allowed starts with VLANs 1 to 4094 and applies the lines switchport trunk allowed vlan in order: all, none and a list replace the set, except L leaves all VLANs but L, add L and remove L put VLANs in and take them out. Interfaces that are no switchport or are access ports have 0.", "quantifier": "all configurations parsed with syntax nxos, all interfaces and all sequences of statements", "why_tests_cant": "histories of statements of any length, any VLAN lists", "anchors": ["ciscoconfparse/models_nxos.py:BaseNXOSIntfLine.trunk_vlans_allowed", "ciscoconfparse/ccp_util.py:CiscoRange"]}
{"id": "C144", "title": "The HSRP group of an NXOS interface and its address", "statement": "hsrp_group is the number of the first child line hsrp N, or empty. If the interface has an address, hsrp_ip_addr is the word behind ip in the first line ip A below a group, group by group, and has_ip_hsrp is true exactly if there is one; without an address they are empty and false. has_hsrp_usebia is true exactly if a line of the interface begins with hsrp use-bia.", "quantifier": "all configurations parsed with syntax nxos and all interfaces", "why_tests_cant": "any number of groups, in any order between other lines, with or without an address", "anchors": ["ciscoconfparse/models_nxos.py:BaseNXOSIntfLine.hsrp_group", "ciscoconfparse/models_nxos.py:BaseNXOSIntfLine.hsrp_ip_addr", "ciscoconfparse/models_nxos.py:BaseNXOSIntfLine.has_ip_hsrp", "ciscoconfparse/models_nxos.py:BaseNXOSIntfLine.has_hsrp_usebia"]}
{"id": "C145", "title": "The settings of an NXOS HSRP group", "statement": "hsrp_priority, hsrp_hello_timer, hsrp_hold_timer, hsrp_track and has_hsrp_preempt are those of the group that hsrp_group names: the priority is 100 without a priority line, the timers are in milliseconds whichever unit the line uses.", "quantifier": "all configurations parsed with syntax nxos and all interfaces", "why_tests_cant": "any number of groups, each with any settings in any order", "anchors": ["ciscoconfparse/models_nxos.py:BaseNXOSIntfLine.hsrp_priority", "ciscoconfparse/models_nxos.py:BaseNXOSIntfLine.hsrp_hello_timer", "ciscoconfparse/models_nxos.py:BaseNXOSIntfLine.hsrp_hold_timer", "ciscoconfparse/models_nxos.py:BaseNXOSIntfLine.hsrp_track", "ciscoconfparse/models_nxos.py:BaseNXOSIntfLine.has_hsrp_preempt"]}
{"id": "C146", "title": "The vPC peer link of an NXOS interface", "statement": "is_vpc_peerlink is true exactly if a line vpc peer-link is below the interface.", "quantifier": "all configurations parsed with syntax nxos and all interfaces", "why_tests_cant": "any lines, any number of children", "anchors": ["ciscoconfparse/models_nxos.py:BaseNXOSIntfLine.is_vpc_peerlink"]}
{"id": "C147", "title": "Storm control, negotiation and encapsulation of an NXOS switchport", "statement": "has_switch_stormcontrol is true exactly if a storm-control line is below the interface, has_dtp is true exactly if a switchport has no switchport nonegotiate line, and manual_switch_trunk_encap is the encapsulation that is configured.", "quantifier": "all configurations parsed with syntax nxos and all interfaces", "why_tests_cant": "any lines, any number of children", "anchors": ["ciscoconfparse/models_nxos.py:BaseNXOSIntfLine.has_switch_stormcontrol", "ciscoconfparse/models_nxos.py:BaseNXOSIntfLine.has_dtp", "ciscoconfparse/models_nxos.py:BaseNXOSIntfLine.manual_switch_trunk_encap"]}
{"id": "C148", "title": "AAA authentication and authorization lines", "statement": "list_name, group, level and methods of the lines aaa authentication login and enable and aaa authorization commands and console, of IOS and NXOS, are what the line says: the word behind the keywords (and the level), the word behind group, and the words behind it, one by one.", "quantifier": "all these lines with one blank between the words, any names, levels and methods", "why_tests_cant": "any names of any length, any number of methods, with or without a group", "anchors": ["ciscoconfparse/models_cisco.py:IOSAaaLoginAuthenticationLine", "ciscoconfparse/models_cisco.py:IOSAaaEnableAuthenticationLine", "ciscoconfparse/models_cisco.py:IOSAaaCommandsAuthorizationLine", "ciscoconfparse/models_cisco.py:IOSAaaConsoleAuthorizationLine", "ciscoconfparse/models_nxos.py:NXOSAaaLoginAuthenticationLine", "ciscoconfparse/models_nxos.py:NXOSAaaEnableAuthenticationLine", "ciscoconfparse/models_nxos.py:NXOSAaaCommandsAuthorizationLine", "ciscoconfparse/models_nxos.py:NXOSAaaConsoleAuthorizationLine"]}
{"id": "C149", "title": "AAA accounting lines", "statement": "level, list_name, record_type and group of the lines aaa accounting commands N L R group G and aaa accounting exec L R group G, with R one of none, stop-only and start-stop, are N, L, R and G. On any other line they are 0 and empty.", "quantifier": "all lines with one blank between the words", "why_tests_cant": "any words, any number of them", "anchors": ["ciscoconfparse/models_cisco.py:IOSAaaCommandsAccountingLine", "ciscoconfparse/models_cisco.py:IOSAaaExecAccountingLine", "ciscoconfparse/models_nxos.py:NXOSAaaCommandsAccountingLine", "ciscoconfparse/models_nxos.py:NXOSAaaExecAccountingLine"]}
{"id": "C150", "title": "AAA server groups", "statement": "The line aaa group server PROTOCOL GROUP gives this protocol and this group, and any other line raises ValueError. vrf is the word behind the first use-vrf (NXOS) or vrf forwarding, with or without ip before it (IOS). source_interface is the text behind the first source-interface (NXOS) or ip tacacs source-interface (IOS), for texts of three characters or more.", "quantifier": "all lines with one blank between the words; all configurations and all groups", "why_tests_cant": "any names, any lines below the group", "anchors": ["ciscoconfparse/models_cisco.py:IOSAaaGroupServerLine", "ciscoconfparse/models_nxos.py:NXOSAaaGroupServerLine"]}
{"id": "C151", "title": "The private servers of an AAA server group", "statement": "server_private is the set of the words behind server-private in the children of the group.", "quantifier": "all configurations and all groups", "why_tests_cant": "any number of servers with any keys and options", "anchors": ["ciscoconfparse/models_cisco.py:IOSAaaGroupServerLine.server_private", "ciscoconfparse/models_nxos.py:NXOSAaaGroupServerLine.server_private"]}
{"id": "C152", "title": "The attributes of an NXOS vPC domain", "statement": "vpc_domain_id is the number of the line vpc domain N. vpc_role_priority, vpc_system_priority and vpc_auto_recovery_reload_delay are the numbers, and vpc_system_mac the word, of the first line below it that has them, or -1 and the empty text. has_peer_config_check_bypass, has_peer_switch, has_peer_gateway, has_auto_recovery and has_layer3_peer_router are true exactly if an indented line begins with these words.", "quantifier": "all configurations parsed with syntax nxos and all domains", "why_tests_cant": "any lines, any number of children, any numbers", "anchors": ["ciscoconfparse/models_nxos.py:NXOSvPCLine"]}
{"id": "C153", "title": "ARP synchronisation of an NXOS vPC domain", "statement": "has_ip_arp_synchronize is true exactly if ip arp synchronize is configured below the domain.", "quantifier": "all configurations parsed with syntax nxos and all domains", "why_tests_cant": "any lines, any number of children", "anchors": ["ciscoconfparse/models_nxos.py:NXOSvPCLine.has_ip_arp_synchronize"]}
{"id": "C154", "title": "The peer keepalive of an NXOS vPC domain", "statement": "Every value in vpc_peer_keepalive is the word behind its own keyword on the first peer-keepalive line that has the keyword, or -1 or the empty text if there is none; reading it does not raise an exception.", "quantifier": "all configurations parsed with syntax nxos and all domains", "why_tests_cant": "any number and order of parameters, any values, any number of lines", "anchors": ["ciscoconfparse/models_nxos.py:NXOSvPCLine.vpc_peer_keepalive"]}
{"id": "C155", "title": "Static routes of NXOS", "statement": "network, masklen, next_hop_interface, next_hop_addr, tracking_object_name, route_name, tag and admin_distance of an IPv4 route are what the command says, network_object is the network of the route and netmask its mask.", "quantifier": "all lines ip route PREFIX/LENGTH [INTERFACE] [ADDRESS] [track N] [name NAME] [tag N] [DISTANCE] with one blank between the words", "why_tests_cant": "any addresses, names and numbers, all combinations of the optional parameters", "anchors": ["ciscoconfparse/models_nxos.py:NXOSRouteLine"]}
{"id": "C156", "title": "The next hop of NXOS routes, and routes in other forms", "statement": "nexthop_str names the interface and the address of the next hop and nothing else, routeinfo says next hop, distance and tracking object, and the attributes of IPv6 routes and of routes with other spacing or another order are what the command says.", "quantifier": "all NXOS route lines", "why_tests_cant": "any addresses, names and numbers, all combinations of the optional parameters", "anchors": ["ciscoconfparse/models_nxos.py:NXOSRouteLine.nexthop_str", "ciscoconfparse/models_nxos.py:BaseNXOSRouteLine.routeinfo", "ciscoconfparse/models_nxos.py:NXOSRouteLine.tracking_object_name", "ciscoconfparse/models_nxos.py:NXOSRouteLine.route_name"]}
{"id": "C157", "title": "Which object an NXOS line becomes", "statement": "With factory, every line becomes an object of the class for this kind of line, whatever the other lines are: interfaces, routes, access lines, AAA lines, vPC domains, host names, interface globals; all others become ordinary configuration lines. The only exception is ValueError, for routes and AAA server groups.", "quantifier": "all lines", "why_tests_cant": "any text", "anchors": ["ciscoconfparse/ciscoconfparse.py:config_line_factory", "ciscoconfparse/ciscoconfparse.py:ALL_NXOS_FACTORY_CLASSES", "ciscoconfparse/models_nxos.py:NXOSIntfLine.is_object_for", "ciscoconfparse/models_nxos.py:NXOSRouteLine.is_object_for"]}
{"id": "C158", "title": "Every line of an NXOS configuration becomes an object", "statement": "No line of an NXOS configuration makes the factory raise an exception, and no line becomes an object of a class for another kind of line.", "quantifier": "all lines", "why_tests_cant": "any text", "anchors": ["ciscoconfparse/ciscoconfparse.py:config_line_factory", "ciscoconfparse/models_nxos.py:NXOSRouteLine", "ciscoconfparse/models_nxos.py:NXOSAaaGroupServerLine", "ciscoconfparse/models_nxos.py:NXOSIntfGlobal"]}
{"id": "C159", "title": "Host names, access lines and global defaults of NXOS", "statement": "hostname is the word behind hostname; name and line_range of an access line are the word behind line and its one or two numbers; the flags of a global default are true exactly if the line begins with its words.", "quantifier": "all lines", "why_tests_cant": "any text; for the ranges, lines of letters and numbers", "anchors": ["ciscoconfparse/models_nxos.py:NXOSHostnameLine.hostname", "ciscoconfparse/models_nxos.py:NXOSAccessLine.name", "ciscoconfparse/models_nxos.py:NXOSAccessLine.line_range", "ciscoconfparse/models_nxos.py:NXOSAccessLine.range_str", "ciscoconfparse/models_nxos.py:NXOSIntfGlobal"]}
{"id": "C160", "title": "The exec timeout of NXOS access lines", "statement": "parse_exectimeout, manual_exectimeout_minutes and manual_exectimeout_seconds give the numbers of the first exec-timeout line below the access line, and line_range the range of lines also with slot numbers.", "quantifier": "all configurations parsed with syntax nxos and all access lines", "why_tests_cant": "any lines, any number of children", "anchors": ["ciscoconfparse/models_nxos.py:NXOSAccessLine.parse_exectimeout", "ciscoconfparse/models_nxos.py:NXOSAccessLine.manual_exectimeout_minutes", "ciscoconfparse/models_nxos.py:NXOSAccessLine.manual_exectimeout_seconds"]}
{"id": "C161", "title": "Attributes of interface objects can be assigned and read back", "statement": "Assigning a number, the text of a number or None to slot, card, port, subinterface or channel of a CiscoIOSInterface, or a text to prefix, digit_separator or interface_class, makes the attribute read as that value (texts without the white text around them) and leaves all other attributes alone; an assignment that fails raises ValueError, and the values that fail are known exactly.", "quantifier": "all objects, all attributes, all values that are None, integers or texts", "why_tests_cant": "numbers of any size, any history of assignments", "anchors": ["ciscoconfparse/ccp_util.py:CiscoIOSInterface.slot", "ciscoconfparse/ccp_util.py:CiscoIOSInterface.card", "ciscoconfparse/ccp_util.py:CiscoIOSInterface.port", "ciscoconfparse/ccp_util.py:CiscoIOSInterface.subinterface", "ciscoconfparse/ccp_util.py:CiscoIOSInterface.channel", "ciscoconfparse/ccp_util.py:CiscoIOSInterface.prefix", "ciscoconfparse/ccp_util.py:CiscoIOSInterface.interface_class", "ciscoconfparse/ccp_util.py:CiscoIOSInterface.digit_separator"]}
{"id": "C162", "title": "An assigned part shows in the name of the interface", "statement": "After assigning the port, subinterface, channel, prefix or class of a parsed interface, or the slot or card of one that has a slot, str() is the name with this part replaced, and this name parses to the interface with this part replaced.", "quantifier": "all interface names that the parser accepts, all numbers and words", "why_tests_cant": "names and numbers are infinitely many", "anchors": ["ciscoconfparse/ccp_util.py:CiscoIOSInterface.render_as_string", "ciscoconfparse/ccp_util.py:CiscoIOSInterface.number", "ciscoconfparse/ccp_util.py:CiscoIOSInterface.parse_single_interface"]}
{"id": "C163", "title": "Every accepted assignment leaves an interface that can be written and read back", "statement": "After any assignment that raises no exception, str() gives a name that parses to the same attributes; every attribute except the prefix and the port can be removed with None.", "quantifier": "all interface names that the parser accepts, all attributes and values", "why_tests_cant": "names, numbers and histories are infinitely many", "anchors": ["ciscoconfparse/ccp_util.py:CiscoIOSInterface.render_as_string", "ciscoconfparse/ccp_util.py:CiscoIOSInterface.number", "ciscoconfparse/ccp_util.py:CiscoIOSInterface.digit_separator"]}
{"id": "C164", "title": "Interfaces survive the trip through a dictionary", "statement": "from_dict(o.as_dict()) has the attributes of o for every object a program can get by parsing and assigning; the constructor with a parsed interface or with its dictionary gives the same interface; the constructor accepts no dictionary that misses a name, has another number of items or another name.", "quantifier": "all parsed interfaces, all histories of assignments, all dictionaries", "why_tests_cant": "any history of assignments", "anchors": ["ciscoconfparse/ccp_util.py:CiscoIOSInterface.as_dict", "ciscoconfparse/ccp_util.py:CiscoIOSInterface.from_dict", "ciscoconfparse/ccp_util.py:CiscoIOSInterface.check_interface_dict", "ciscoconfparse/ccp_util.py:CiscoIOSInterface.update_internal_state"]}
{"id": "C165", "title": "The constructor copies every interface", "statement": "CiscoIOSInterface(other) has the attributes of other, for every object that a program can get, also of IOS XR.", "quantifier": "all objects reached by parsing and assigning", "why_tests_cant": "any history of assignments", "anchors": ["ciscoconfparse/ccp_util.py:CiscoIOSInterface.update_internal_state", "ciscoconfparse/ccp_util.py:CiscoIOSXRInterface.as_dict"]}
{"id": "C166", "title": "The numbers of an interface as a list and as a text", "statement": "number_list has all numbers in front of the subinterface, and slot_card_port_subinterface_channel is the name without its prefix, for every interface.", "quantifier": "all names that CiscoIOSInterface and CiscoIOSXRInterface accept", "why_tests_cant": "names are infinitely many", "anchors": ["ciscoconfparse/ccp_util.py:CiscoIOSInterface.number_list", "ciscoconfparse/ccp_util.py:CiscoIOSInterface.slot_card_port_subinterface_channel", "ciscoconfparse/ccp_util.py:CiscoIOSXRInterface.number_list", "ciscoconfparse/ccp_util.py:CiscoIOSXRInterface.slot_card_port_subinterface_channel"]}
{"id": "C167", "title": "Collapsing networks keeps the addresses and returns the largest networks", "statement": "list(collapse_addresses(l)) for a sequence of networks of one IP version (IPv4Obj, IPv6Obj or standard-library networks, in any order, with repetitions and overlaps) has exactly the addresses of the networks in l. It consists of exactly the largest networks that fit into these addresses, in ascending order and disjoint. No list of networks with the same addresses is shorter. The result depends only on the set of addresses, and collapsing it again changes nothing.", "quantifier": "all finite lists of networks of one version, all addresses", "why_tests_cant": "lists of networks and the addresses in them are infinitely many, and the merging loop re-inserts its own results", "anchors": ["ciscoconfparse/ccp_util.py:collapse_addresses", "ciscoconfparse/ccp_util.py:IPv4Obj.network", "ciscoconfparse/ccp_util.py:IPv6Obj.network"]}
{"id": "C168", "title": "Which arguments collapse_addresses rejects", "statement": "An IPv4 and an IPv6 network in one argument always raise TypeError (at the latest when the result is iterated), wherever they stand and however long their prefixes are. A value that is not a network raises ValueError, an empty object AttributeError, an argument that is not a sequence ValueError.", "quantifier": "all finite lists with a bad element, all positions of it", "why_tests_cant": "the two lists of the standard library make the outcome depend on prefix lengths and order", "anchors": ["ciscoconfparse/ccp_util.py:collapse_addresses"]}
{"id": "C169", "title": "Whether an IOS interface lies in a subnet", "statement": "For an interface whose first line `ip address A M` has a valid address and mask, in_ipv4_subnet(net) is True exactly if every address of the interface's network is an address of net; it is False for None and for the empty IPv4Obj, None for an argument of another type, and False for an interface without an address and for a dynamic address. in_ipv4_subnets(list) is True exactly if this holds for one element of the list, and False for an empty list.", "quantifier": "all configurations, all interfaces, all networks and lists of networks", "why_tests_cant": "addresses, masks and lists of networks are infinitely many and the answer is about every address of a network", "anchors": ["ciscoconfparse/models_cisco.py:BaseIOSIntfLine.in_ipv4_subnet", "ciscoconfparse/models_cisco.py:BaseIOSIntfLine.in_ipv4_subnets"]}
{"id": "C170", "title": "The network object of an IOS interface", "statement": "ip_network_object of an interface with a valid address and mask is the network of that address.", "quantifier": "all configurations and interfaces", "why_tests_cant": "configurations are infinitely many", "anchors": ["ciscoconfparse/models_cisco.py:BaseIOSIntfLine.ip_network_object"]}
{"id": "C171", "title": "Secondary addresses of an IOS interface", "statement": "For an interface at the top level whose lines `ip address A M secondary` all have a valid address and mask, ip_secondary_addresses is exactly the set of these addresses, and ip_secondary_networks the set of the same addresses with their prefix lengths. An invalid secondary address raises an exception. has_ip_secondary is True exactly if there is such a line.", "quantifier": "all configurations, all interfaces, any number of secondary lines", "why_tests_cant": "the number, order and repetition of secondary lines is unbounded", "anchors": ["ciscoconfparse/models_cisco.py:BaseIOSIntfLine.ip_secondary_addresses", "ciscoconfparse/models_cisco.py:BaseIOSIntfLine.ip_secondary_networks", "ciscoconfparse/models_cisco.py:BaseIOSIntfLine.has_ip_secondary"]}
{"id": "C172", "title": "Autonegotiation of an IOS interface", "statement": "has_autonegotiation is True exactly for an ethernet interface whose configuration fixes neither the speed nor the duplex mode.", "quantifier": "all configurations and interfaces", "why_tests_cant": "configurations are infinitely many", "anchors": ["ciscoconfparse/models_cisco.py:BaseIOSIntfLine.has_autonegotiation", "ciscoconfparse/models_cisco.py:BaseIOSIntfLine.has_manual_speed", "ciscoconfparse/models_cisco.py:BaseIOSIntfLine.has_manual_duplex"]}
{"id": "C173", "title": "The IPv6 address object of an IOS interface", "statement": "If the first line ` ipv6 address A/L ..` of an interface has a valid IPv6 address A and a prefix length L, ipv6_addr_object is the address A with prefix length L and ipv6_masklength is L. Without such a line they are the empty IPv6Obj and 0.", "quantifier": "all configurations, all interfaces, every way of writing an IPv6 address", "why_tests_cant": "addresses, their spellings and configurations are infinitely many", "anchors": ["ciscoconfparse/models_cisco.py:BaseIOSIntfLine.ipv6_addr_object", "ciscoconfparse/models_cisco.py:BaseIOSIntfLine.ipv6_masklength"]}
{"id": "C174", "title": "The IPv6 address text of an IOS interface", "statement": "ipv6_addr is the IPv6 address on the first line ` ipv6 address ..` of the interface, and the empty string if the interface has no address of its own but only dhcp, autoconfig or negotiated.", "quantifier": "all configurations and interfaces", "why_tests_cant": "configurations are infinitely many", "anchors": ["ciscoconfparse/models_cisco.py:BaseIOSIntfLine.ipv6_addr"]}
{"id": "C175", "title": "The IPv4 address of an ASA interface", "statement": "ipv4_addr is the dotted quad behind `ip address` on the first line of the interface that has one, ipv4_netmask the second one on the first line that has two. If every address comes with a mask and the first one is valid, ipv4_addr_object is that address with the length of that mask, ipv4_masklength is the length and has_no_ipv4 is False; an interface without an address has the empty object, length 0 and has_no_ipv4 True.", "quantifier": "all configurations, all interfaces, all addresses and masks", "why_tests_cant": "configurations and addresses are too many to try", "anchors": ["ciscoconfparse/models_asa.py:BaseASAIntfLine.ipv4_addr", "ciscoconfparse/models_asa.py:BaseASAIntfLine.ipv4_netmask", "ciscoconfparse/models_asa.py:BaseASAIntfLine.ipv4_addr_object", "ciscoconfparse/models_asa.py:BaseASAIntfLine.ipv4_masklength", "ciscoconfparse/models_asa.py:BaseASAIntfLine.has_no_ipv4"]}
{"id": "C176", "title": "Subnets of an ASA interface", "statement": "For an interface with a valid address, in_ipv4_subnet(net) is True exactly if every address of the interface's network is one of net, in_ipv4_subnets exactly if this holds for one element of a non-empty list, and ip_network_object is the network itself. Without an address the first two are None and the last raises ValueError.", "quantifier": "all configurations, interfaces and networks", "why_tests_cant": "configurations and networks are too many to try", "anchors": ["ciscoconfparse/models_asa.py:BaseASAIntfLine.in_ipv4_subnet", "ciscoconfparse/models_asa.py:BaseASAIntfLine.in_ipv4_subnets", "ciscoconfparse/models_asa.py:BaseASAIntfLine.ip_network_object"]}
{"id": "C177", "title": "The standby address of an ASA interface", "statement": "ipv4_standby_addr is the address behind `standby` on the first line ` ip address A M standby S` of the interface, and ipv4_standby_addr_object is it with the mask of the interface.", "quantifier": "all configurations and interfaces", "why_tests_cant": "configurations are infinitely many", "anchors": ["ciscoconfparse/models_asa.py:BaseASAIntfLine.ipv4_standby_addr", "ciscoconfparse/models_asa.py:BaseASAIntfLine.ipv4_standby_addr_object"]}
{"id": "C178", "title": "IPv6 addresses of an ASA interface", "statement": "If the first line ` ipv6 address A/L ..` has a valid address A and prefix length L, ipv6_addr_object is A with length L, ipv6_masklength is L and ipv6_addr is the canonical text of A; without such a line they are the empty object, 0 and the empty string. ipv6_standby_addr is the last word of the first child line that consists of `ipv6 address A standby S`.", "quantifier": "all configurations, all interfaces, every way of writing an IPv6 address", "why_tests_cant": "addresses, their spellings and configurations are infinitely many", "anchors": ["ciscoconfparse/models_asa.py:BaseASAIntfLine.ipv6_addr_object", "ciscoconfparse/models_asa.py:BaseASAIntfLine.ipv6_addr", "ciscoconfparse/models_asa.py:BaseASAIntfLine.ipv6_masklength", "ciscoconfparse/models_asa.py:BaseASAIntfLine.ipv6_standby_addr"]}
{"id": "C179", "title": "Numbers and flags of an ASA interface", "statement": "manual_delay and access_vlan are the number of the first line `delay N`, respectively `switchport access vlan N`, of the interface, and 0 without one. has_manual_speed, is_shutdown, has_manual_switch_trunk and is_switchport are true exactly if the interface has a line `speed N`, a line of one word that begins with shut, the line `switchport mode trunk`, and a line whose first word begins with switchport.", "quantifier": "all configurations and interfaces", "why_tests_cant": "configurations are infinitely many", "anchors": ["ciscoconfparse/models_asa.py:BaseASAIntfLine.manual_delay", "ciscoconfparse/models_asa.py:BaseASAIntfLine.access_vlan", "ciscoconfparse/models_asa.py:BaseASAIntfLine.has_manual_speed", "ciscoconfparse/models_asa.py:BaseASAIntfLine.is_shutdown", "ciscoconfparse/models_asa.py:BaseASAIntfLine.has_manual_switch_trunk", "ciscoconfparse/models_asa.py:BaseASAIntfLine.is_switchport"]}
{"id": "C180", "title": "Description, negotiation and access mode of an ASA interface", "statement": "description is the text of the description line, has_autonegotiation is true exactly if an Ethernet interface fixes neither speed nor duplex, and has_manual_switch_access is true exactly if the interface has the line `switchport mode access`, however many blanks are between the words.", "quantifier": "all configurations and interfaces", "why_tests_cant": "configurations are infinitely many", "anchors": ["ciscoconfparse/models_asa.py:BaseASAIntfLine.description", "ciscoconfparse/models_asa.py:BaseASAIntfLine.has_autonegotiation", "ciscoconfparse/models_asa.py:BaseASAIntfLine.has_manual_duplex", "ciscoconfparse/models_asa.py:BaseASAIntfLine.has_manual_switch_access"]}
{"id": "C181", "title": "Name, kind and ordinals of an ASA interface", "statement": "For a line `interface KIND N1/../Nk` with an optional blank and an optional subinterface number, name is what stands behind interface, port_type is KIND, ordinal_list is [N1, .., Nk] and port is Nk. is_subintf, is_loopback_intf, is_ethernet_intf and is_virtual_intf follow from the name alone. A line that is no interface has an empty name and no ordinals.", "quantifier": "all interface lines, any number of ordinals", "why_tests_cant": "names and numbers are infinitely many", "anchors": ["ciscoconfparse/models_asa.py:BaseASAIntfLine.name", "ciscoconfparse/models_asa.py:BaseASAIntfLine.port_type", "ciscoconfparse/models_asa.py:BaseASAIntfLine.ordinal_list", "ciscoconfparse/models_asa.py:BaseASAIntfLine.port", "ciscoconfparse/models_asa.py:ASACfgLine.is_intf", "ciscoconfparse/models_asa.py:ASACfgLine.is_subintf", "ciscoconfparse/models_asa.py:ASACfgLine.is_virtual_intf"]}
{"id": "C182", "title": "Every attribute of an ASA interface has an answer", "statement": "Reading an attribute of an ASA interface never raises: has_manual_switch_trunk_encap, has_ip_pim_sparse_mode, port and in_ipv4_subnets give a value for every interface.", "quantifier": "all configurations and interfaces", "why_tests_cant": "configurations are infinitely many", "anchors": ["ciscoconfparse/models_asa.py:BaseASAIntfLine.has_manual_switch_trunk_encap", "ciscoconfparse/models_asa.py:BaseASAIntfLine.has_ip_pim_sparse_mode", "ciscoconfparse/models_asa.py:BaseASAIntfLine.port", "ciscoconfparse/models_asa.py:BaseASAIntfLine.in_ipv4_subnets"]}
{"id": "C183", "title": "A range is a sequence of its members", "statement": "For an integer range r that iterates over m0, .., m(n-1): len(r) is n; r[k] and r[k-n] are mk and any other index raises IndexError; `x in r`, r.index(x), r.count(x) and reversed(r) agree with the iteration; del r[k] and r.pop(k) remove just mk and keep the order of the others, pop returns it; clear() leaves nothing; two ranges are equal exactly if they iterate over the same members, and equal non-empty ranges hash alike; the text between the brackets of str(r), read as a range, has the same members.", "quantifier": "all integer ranges of any length, all indices and values", "why_tests_cant": "ranges, indices and values are infinitely many", "anchors": ["ciscoconfparse/ccp_util.py:CiscoRange.__getitem__", "ciscoconfparse/ccp_util.py:CiscoRange.__delitem__", "ciscoconfparse/ccp_util.py:CiscoRange.__iter__", "ciscoconfparse/ccp_util.py:CiscoRange.__len__", "ciscoconfparse/ccp_util.py:CiscoRange.__eq__", "ciscoconfparse/ccp_util.py:CiscoRange.__hash__", "ciscoconfparse/ccp_util.py:CiscoRange.__str__"]}
{"id": "C184", "title": "A range is a mutable sequence", "statement": "r[k] = v makes v the k-th member, reverse() reverses the members, a slice r[a:b] reads the members a to b, every range has a hash and as_set() gives the set of its members.", "quantifier": "all integer ranges, positions and values", "why_tests_cant": "ranges and values are infinitely many", "anchors": ["ciscoconfparse/ccp_util.py:CiscoRange.__setitem__", "ciscoconfparse/ccp_util.py:CiscoRange.as_set", "ciscoconfparse/ccp_util.py:CiscoRange.insert", "ciscoconfparse/ccp_util.py:CiscoRange.__hash__"]}
{"id": "C185", "title": "Extending a range is all or nothing", "statement": "r.extend(values) with distinct integers that are not in r adds them all, sorted; if it raises because a value is already a member, the range is as before.", "quantifier": "all integer ranges, all lists of integers", "why_tests_cant": "ranges and lists are infinitely many", "anchors": ["ciscoconfparse/ccp_util.py:CiscoRange.append"]}
{"id": "C186", "title": "IOS-XR interface addresses come from the first address line", "statement": "ipv4_addr and ipv4_netmask of an IOS-XR interface are the address and the mask of its first indented line `ipv4 address A M` with two dotted quads and nothing else, and empty without one; an interface with a line `ipv4 address dhcp` raises the exception about dynamic addresses when its address is read.", "quantifier": "all configurations, all interfaces of them", "why_tests_cant": "configurations and orders of lines are infinitely many", "anchors": ["ciscoconfparse/models_iosxr.py:BaseIOSXRIntfLine.ipv4_addr", "ciscoconfparse/models_iosxr.py:BaseIOSXRIntfLine.ipv4_netmask"]}
{"id": "C187", "title": "IOS-XR address objects are the configured addresses", "statement": "ipv4_addr_object and ip_network_object hold the address and prefix length of the first address line if both are valid, the default 0.0.0.1/32 otherwise; has_no_ipv4 is true exactly in the latter case (or if the line says 0.0.0.1/32), ipv4_masklength is the length, or 0; with DHCP all of them raise.", "quantifier": "all configurations, all interfaces, all addresses and masks", "why_tests_cant": "2^32 addresses times 33 masks times all configurations", "anchors": ["ciscoconfparse/models_iosxr.py:BaseIOSXRIntfLine.ipv4_addr_object", "ciscoconfparse/models_iosxr.py:BaseIOSXRIntfLine.ip_network_object", "ciscoconfparse/models_iosxr.py:BaseIOSXRIntfLine.has_no_ipv4", "ciscoconfparse/models_iosxr.py:BaseIOSXRIntfLine.ipv4_masklength"]}
{"id": "C188", "title": "IOS-XR interfaces tell which subnets they are in", "statement": "in_ipv4_subnet(net) is true exactly if every address of the interface's network is in net, None without an address; in_ipv4_subnets(nets) is true exactly if one of the nets has it, for every collection of nets.", "quantifier": "all configurations, interfaces, networks and collections of networks", "why_tests_cant": "networks and collections are infinitely many", "anchors": ["ciscoconfparse/models_iosxr.py:BaseIOSXRIntfLine.in_ipv4_subnet", "ciscoconfparse/models_iosxr.py:BaseIOSXRIntfLine.in_ipv4_subnets"]}
{"id": "C189", "title": "IOS-XR interfaces have the name and number of their line", "statement": "For a line `interface`, a type and a number slot/card/processor/port, slot/port or port[.sub], with or without a blank between them, name is the type followed by the number, port the last number, port_type the type, interface_number the number without subinterface, subinterface_number all of it, and is_abbreviated_as accepts exactly the beginnings of the type (in any case) followed by the number, with a blank between or without. Other lines have no name.", "quantifier": "all lines, types and numbers", "why_tests_cant": "types and numbers are infinitely many", "anchors": ["ciscoconfparse/models_iosxr.py:BaseIOSXRIntfLine.name", "ciscoconfparse/models_iosxr.py:BaseIOSXRIntfLine.port", "ciscoconfparse/models_iosxr.py:BaseIOSXRIntfLine.interface_object", "ciscoconfparse/models_iosxr.py:BaseIOSXRIntfLine.is_abbreviated_as"]}
{"id": "C190", "title": "IOS-XR subinterfaces keep their number in the name", "statement": "The names of two interfaces with different lines are different: name is the type and the whole number of the line, also for slot/card/processor/port.sub and slot/card/port.", "quantifier": "all interface lines", "why_tests_cant": "numbers are infinitely many", "anchors": ["ciscoconfparse/models_iosxr.py:BaseIOSXRIntfLine.name", "ciscoconfparse/ccp_util.py:CiscoIOSXRInterface.parse_single_interface"]}
{"id": "C191", "title": "ordinal_list of an IOS-XR interface holds its numbers", "statement": "ordinal_list holds the parts of the interface number between the slashes, in order and without subinterface, for every interface.", "quantifier": "all interface lines", "why_tests_cant": "numbers are infinitely many", "anchors": ["ciscoconfparse/models_iosxr.py:BaseIOSXRIntfLine.ordinal_list", "ciscoconfparse/models_iosxr.py:BaseIOSXRIntfLine.interface_number"]}
{"id": "C192", "title": "Numbers and flags of IOS-XR interfaces come from the first line that sets them", "statement": "manual_bandwidth, manual_delay, manual_holdqueue_in/out, manual_clock_rate, manual_mtu, manual_mpls_mtu, manual_ip_mtu, manual_speed, manual_carrierdelay, xconnect_vc, portchannel_number, access_vlan and native_vlan are the number of the first line of the interface with these keywords, a fixed default without one; is_shutdown, has_mpls, has_manual_speed, has_manual_disable_cdp, is_switchport and has_manual_switch_trunk are true exactly if the interface has the line, with any blanks between the words.", "quantifier": "all configurations, all interfaces of them", "why_tests_cant": "configurations and orders of lines are infinitely many", "anchors": ["ciscoconfparse/models_iosxr.py:BaseIOSXRIntfLine.manual_mtu", "ciscoconfparse/models_iosxr.py:BaseIOSXRIntfLine.access_vlan", "ciscoconfparse/models_iosxr.py:BaseIOSXRIntfLine.is_shutdown", "ciscoconfparse/models_iosxr.py:BaseIOSXRIntfLine.manual_carrierdelay"]}
{"id": "C193", "title": "Descriptions, negotiation and switch ports of IOS-XR interfaces are those of the configuration", "statement": "description is the text behind the keyword, has_autonegotiation tells whether speed and duplex are negotiated, has_manual_switch_access, has_switch_portsecurity, has_switch_stormcontrol, has_dtp, manual_switch_trunk_encap and the MAC access groups are those of the lines of the interface, with any blanks between the words.", "quantifier": "all configurations, all interfaces of them", "why_tests_cant": "configurations and blanks are infinitely many", "anchors": ["ciscoconfparse/models_iosxr.py:BaseIOSXRIntfLine.description", "ciscoconfparse/models_iosxr.py:BaseIOSXRIntfLine.has_autonegotiation", "ciscoconfparse/models_iosxr.py:BaseIOSXRIntfLine.has_dtp", "ciscoconfparse/models_iosxr.py:BaseIOSXRIntfLine.has_switch_stormcontrol"]}
{"id": "C194", "title": "vrf of an IOS-XR interface is its routing instance", "statement": "vrf is the name in the line `vrf NAME` of the interface and empty without one; has_vrf tells whether there is one.", "quantifier": "all configurations, all interfaces of them", "why_tests_cant": "configurations and names are infinitely many", "anchors": ["ciscoconfparse/models_iosxr.py:BaseIOSXRIntfLine.vrf", "ciscoconfparse/models_iosxr.py:BaseIOSXRIntfLine.has_vrf"]}
{"id": "C195", "title": "HSRP attributes of IOS-XR interfaces come from the standby lines", "statement": "On an interface with an address line, hsrp_ip_addr, hsrp_ip_mask and hsrp_priority are those of the first standby line that sets them, with or without a group number (priority 100 without one, 0 without HSRP); without an address line they are empty and 0. hsrp_group, the timers, the key chain and has_hsrp_usebia are those of the first line that sets them.", "quantifier": "all configurations, all interfaces without DHCP", "why_tests_cant": "configurations and orders of lines are infinitely many", "anchors": ["ciscoconfparse/models_iosxr.py:BaseIOSXRIntfLine.hsrp_ip_addr", "ciscoconfparse/models_iosxr.py:BaseIOSXRIntfLine.hsrp_priority", "ciscoconfparse/models_iosxr.py:BaseIOSXRIntfLine.hsrp_group", "ciscoconfparse/models_iosxr.py:BaseIOSXRIntfLine.hsrp_hello_timer"]}
{"id": "C196", "title": "has_hsrp_preempt of an IOS-XR interface tells whether it preempts", "statement": "has_hsrp_preempt is true exactly if the interface has a line `standby [group] preempt`.", "quantifier": "all configurations, all interfaces of them", "why_tests_cant": "configurations are infinitely many", "anchors": ["ciscoconfparse/models_iosxr.py:BaseIOSXRIntfLine.has_hsrp_preempt"]}
{"id": "C197", "title": "IP flags and access groups of IOS-XR interfaces are those of the configuration", "statement": "has_no_icmp_unreachables, has_no_icmp_redirects, has_no_ip_proxyarp, the PIM modes, manual_arp_timeout and the IPv4 access groups in and out are those of the lines of the interface, also with DHCP and with any blanks.", "quantifier": "all configurations, all interfaces of them", "why_tests_cant": "configurations and blanks are infinitely many", "anchors": ["ciscoconfparse/models_iosxr.py:BaseIOSXRIntfLine.has_no_icmp_redirects", "ciscoconfparse/models_iosxr.py:BaseIOSXRIntfLine.manual_arp_timeout", "ciscoconfparse/models_iosxr.py:BaseIOSXRIntfLine.ipv4_accessgroup_in"]}
{"id": "C198", "title": "VLANs of an IOS-XR trunk are those its lines leave", "statement": "trunk_vlans_allowed is the set that the lines `switchport trunk allowed vlan` (all, none, a list, add, except, remove) leave, in order; 0 for a port that is no trunk.", "quantifier": "all configurations, all histories of such lines", "why_tests_cant": "histories of lines are infinitely many", "anchors": ["ciscoconfparse/models_iosxr.py:BaseIOSXRIntfLine.trunk_vlans_allowed"]}
{"id": "C199", "title": "has_child_with tells whether a child matches", "statement": "o.has_child_with(rx) is true exactly if rx matches the text of a child of o, with all_children exactly if it matches the text of a descendant; a line is found by find_parent_objects(p, rx) exactly if p matches it and has_child_with(rx) is true.", "quantifier": "all configurations, all lines of them, all expressions", "why_tests_cant": "configurations and expressions are infinitely many", "anchors": ["ciscoconfparse/ccp_abc.py:BaseCfgLine.has_child_with", "ciscoconfparse/ciscoconfparse.py:CiscoConfParse.find_parent_objects"]}
{"id": "C200", "title": "is_parent, is_child and geneology_text describe the place of a line", "statement": "is_parent is true exactly if the line has children, is_child exactly if its parent is another line (so exactly if another line has it among its children), and geneology_text is the texts of all its ancestors from the oldest down, followed by its own.", "quantifier": "all configurations, all lines of them", "why_tests_cant": "configurations are infinitely many", "anchors": ["ciscoconfparse/ccp_abc.py:BaseCfgLine.is_parent", "ciscoconfparse/ccp_abc.py:BaseCfgLine.is_child", "ciscoconfparse/ccp_abc.py:BaseCfgLine.geneology_text"]}
{"id": "C201", "title": "add_child makes a line a child once", "statement": "o.add_child(c) returns True exactly if c was not a child of o (no text of the configuration starts with a digit); c is then the last child of o and no other line's links change. A second call changes nothing and returns False. Afterwards exactly o and the ancestors of o have c and its descendants as further descendants.", "quantifier": "all configurations, all pairs of lines", "why_tests_cant": "configurations are infinitely many", "anchors": ["ciscoconfparse/ccp_abc.py:BaseCfgLine.add_child"]}
{"id": "C202", "title": "add_child and add_parent keep parents and children in agreement", "statement": "After o.add_child(c), o is the parent of c; after c.add_parent(o), c is among the children of o.", "quantifier": "all configurations, all pairs of lines", "why_tests_cant": "configurations are infinitely many", "anchors": ["ciscoconfparse/ccp_abc.py:BaseCfgLine.add_child", "ciscoconfparse/ccp_abc.py:BaseCfgLine.add_parent"]}
{"id": "C203", "title": "NX-OS interfaces have the name and numbers of their line", "statement": "For a line `interface`, a type and a number [slot/[card/]]port[.sub][:channel], with or without blanks between them, name is the type followed by the number and port the port; port_type is the type, interface_number the number without subinterface, subinterface_number all of it, ordinal_list the numbers between the slashes, and is_abbreviated_as accepts exactly the beginnings of the type (in any case) followed by the number, with a blank between or without. Lines that are not interface lines raise when name or port is read and have no numbers.", "quantifier": "all lines, types and numbers", "why_tests_cant": "types and numbers are infinitely many", "anchors": ["ciscoconfparse/models_nxos.py:BaseNXOSIntfLine.name", "ciscoconfparse/models_nxos.py:BaseNXOSIntfLine.ordinal_list", "ciscoconfparse/models_nxos.py:BaseNXOSIntfLine.interface_number", "ciscoconfparse/models_nxos.py:BaseNXOSIntfLine.is_abbreviated_as"]}
{"id": "C204", "title": "Kinds of NX-OS interfaces follow their names", "statement": "is_ethernet_intf is true exactly if a word behind `interface` has `thernet` behind some letter or the next word begins with mgmt; is_loopback_intf, is_subintf and is_virtual_intf follow the second word in the same way (loopback, vlan, tunnel, port-channel in any case), is_portchannel_intf is true exactly if the type has `channel` in it, in any case; portchannel_number is the number of the first channel-group line, -1 without one, and intf_in_portchannel tells whether there is one.", "quantifier": "all lines, all configurations", "why_tests_cant": "lines and configurations are infinitely many", "anchors": ["ciscoconfparse/models_nxos.py:NXOSCfgLine.is_ethernet_intf", "ciscoconfparse/models_nxos.py:NXOSCfgLine.is_virtual_intf", "ciscoconfparse/models_nxos.py:NXOSCfgLine.is_portchannel_intf", "ciscoconfparse/models_nxos.py:NXOSCfgLine.portchannel_number"]}
{"id": "C205", "title": "has_autonegotiation of an NX-OS interface tells whether speed and duplex are negotiated", "statement": "has_autonegotiation is true exactly for Ethernet and management interfaces without a fixed speed and without a fixed duplex mode.", "quantifier": "all configurations, all interfaces of them", "why_tests_cant": "configurations are infinitely many", "anchors": ["ciscoconfparse/models_nxos.py:BaseNXOSIntfLine.has_autonegotiation", "ciscoconfparse/models_nxos.py:BaseNXOSIntfLine.has_manual_duplex"]}
{"id": "C206", "title": "HSRP groups compare by interface and number", "statement": "Two HSRP groups are equal exactly if they have the same group number and their interface lines have the same words behind `interface`; this is an equivalence relation, and equal groups have equal hashes.", "quantifier": "all configurations, all interfaces and group numbers of them", "why_tests_cant": "configurations are infinitely many", "anchors": ["ciscoconfparse/models_cisco.py:HSRPInterfaceGroup.__eq__", "ciscoconfparse/models_cisco.py:HSRPInterfaceGroup.__hash__"]}
{"id": "C207", "title": "Tracked interfaces can be compared and printed", "statement": "Two tracked interfaces are equal exactly if interface, group, decrement and weighting are the same; each has a text.", "quantifier": "all tracked interfaces", "why_tests_cant": "names and numbers are infinitely many", "anchors": ["ciscoconfparse/models_cisco.py:TrackingInterface.__eq__", "ciscoconfparse/models_cisco.py:TrackingInterface.__str__"]}
{"id": "C208", "title": "check_valid_ipaddress accepts exactly the texts of addresses", "statement": "check_valid_ipaddress(s) gives the text without blanks around it and the family 4 or 6 for every text of an IPv4 or IPv6 address, and raises ValueError for every other text.", "quantifier": "all texts", "why_tests_cant": "texts are infinitely many", "anchors": ["ciscoconfparse/ccp_util.py:check_valid_ipaddress"]}
{"id": "C209", "title": "Port objects are equal exactly if they stand for the same ports", "statement": "Two L4Objects are equal exactly if they have the same protocol and the same set of ports, however the ports were written.", "quantifier": "all protocols and all port specifications", "why_tests_cant": "port specifications are infinitely many", "anchors": ["ciscoconfparse/ccp_util.py:L4Object.__eq__", "ciscoconfparse/ccp_util.py:L4Object.__init__"]}
{"id": "C210", "title": "A regular-expression wrapper searches once for its current expression", "statement": "After any history of calls on a wrapper that was built without a text, a search raises exactly if there was a search since the last expression was assigned; otherwise it gives the answer of the current expression, which is the last one that was assigned and compiles.", "quantifier": "all engines, expressions, texts and histories of calls", "why_tests_cant": "histories are infinitely many", "anchors": ["ciscoconfparse/ccp_util.py:__ccp_re__.s", "ciscoconfparse/ccp_util.py:__ccp_re__.regex"]}
{"id": "C211", "title": "captured of a regular-expression wrapper has the groups of the match", "statement": "After a search, captured has the groups of the match in order and the named groups, each converted to the type given for it, and nothing without a match; the flags given at construction stay in force.", "quantifier": "all engines, expressions, texts and histories of calls", "why_tests_cant": "histories are infinitely many", "anchors": ["ciscoconfparse/ccp_util.py:__ccp_re__.captured", "ciscoconfparse/ccp_util.py:__ccp_re__.__init__"]}
{"id": "C212", "title": "HDiff compares lists, files and parsed configurations alike", "statement": "Arguments of HDiff that stand for the same lines (a list, the name of a file with these lines, a parsed configuration with these lines) give the same comparison.", "quantifier": "all configurations and all kinds of arguments", "why_tests_cant": "configurations are infinitely many", "anchors": ["ciscoconfparse/ciscoconfparse.py:HDiff.__init__"]}
{"id": "C213", "title": "IOS-XR interface objects show what was assigned", "statement": "After any history of assignments to the attributes of a CiscoIOSXRInterface, every attribute that can be read is the last value that was accepted for it, as a number or as text according to the attribute; a value that is not accepted raises the exception of its kind and changes nothing.", "quantifier": "all interface objects, all histories of assignments with values of all kinds", "why_tests_cant": "histories are infinitely many", "anchors": ["ciscoconfparse/ccp_util.py:CiscoIOSXRInterface.slot", "ciscoconfparse/ccp_util.py:CiscoIOSXRInterface.card", "ciscoconfparse/ccp_util.py:CiscoIOSXRInterface.port", "ciscoconfparse/ccp_util.py:CiscoIOSXRInterface.prefix"]}
{"id": "C214", "title": "Assigning an IOS-XR attribute to itself changes nothing", "statement": "Reading an attribute of a CiscoIOSXRInterface right after assigning a value gives this value back.", "quantifier": "all interface objects, attributes and values", "why_tests_cant": "values are infinitely many", "anchors": ["ciscoconfparse/ccp_util.py:CiscoIOSXRInterface.slot", "ciscoconfparse/ccp_util.py:CiscoIOSXRInterface.card", "ciscoconfparse/ccp_util.py:CiscoIOSXRInterface.processor"]}
{"id": "C215", "title": "The name of an IOS-XR interface follows the assigned numbers", "statement": "After assigning slot, card, processor or port, the name of the interface is the type followed by the numbers in effect.", "quantifier": "all interface objects and histories of assignments", "why_tests_cant": "histories are infinitely many", "anchors": ["ciscoconfparse/ccp_util.py:CiscoIOSXRInterface.render_as_string", "ciscoconfparse/ccp_util.py:CiscoIOSXRInterface.number"]}
{"id": "C216", "title": "IOS-XR interfaces survive a dictionary round trip", "statement": "from_dict(as_dict()) of a CiscoIOSXRInterface, after any history of assignments, gives an object with the same attributes.", "quantifier": "all interface objects and histories of assignments", "why_tests_cant": "histories are infinitely many", "anchors": ["ciscoconfparse/ccp_util.py:CiscoIOSXRInterface.as_dict", "ciscoconfparse/ccp_util.py:CiscoIOSXRInterface.from_dict"]}
{"id": "C217", "title": "A block of a configuration is read the same wherever it stands", "statement": "Take a block: an unindented line and indented lines below it, no banner or macro among them. In every configuration that has this block, whatever stands before it, and whatever stands behind it that does not go on with indented lines, the lines of the block have the same texts, children and descendants (counted from its first line). If the block has no comments, the first line and its descendants are exactly the block.", "quantifier": "all blocks, all pairs of configurations that have them, all parser options", "why_tests_cant": "configurations are infinitely many, in size and depth", "anchors": ["ciscoconfparse/ciscoconfparse.py:ConfigList._bootstrap_from_text", "ciscoconfparse/ccp_abc.py:BaseCfgLine.all_children"]}
{"id": "C218", "title": "The attributes of an IOS interface depend on its block only", "statement": "Every attribute of an IOS interface that is read from its lines (numbers, texts, switchport and VLAN settings, addresses, subnets, access lists, HSRP settings and groups) is the same in all configurations that have the same block of lines for the interface.", "quantifier": "all interface blocks, all pairs of configurations that have them", "why_tests_cant": "configurations are infinitely many", "anchors": ["ciscoconfparse/models_cisco.py:BaseIOSIntfLine"]}
{"id": "C219", "title": "The attributes of NX-OS, IOS-XR and ASA interfaces depend on their block only", "statement": "The same for the attributes of NX-OS interfaces (with their HSRP groups) and vPC domains, of IOS-XR interfaces and of ASA interfaces.", "quantifier": "all interface blocks, all pairs of configurations that have them", "why_tests_cant": "configurations are infinitely many", "anchors": ["ciscoconfparse/models_nxos.py:BaseNXOSIntfLine", "ciscoconfparse/models_iosxr.py:BaseIOSXRIntfLine", "ciscoconfparse/models_asa.py:BaseASAIntfLine"]}
{"id": "C220", "title": "Searches answer block by block", "statement": "Take a block: an unindented line and indented lines below it, no banner or macro among them, with anything before it and anything behind it that does not go on with indented lines. What find_objects, find_parent_objects, find_parent_objects_wo_child, find_objects_w_all_children and find_objects_w_missing_children find inside the block is what they find if the block is the whole configuration, in the same order. So does find_child_objects if the configuration has no banners and macros.", "quantifier": "all blocks, all configurations that have them, all regular expressions, recursive or not", "why_tests_cant": "configurations and regular expressions are infinitely many", "anchors": ["ciscoconfparse/ciscoconfparse.py:CiscoConfParse.find_objects", "ciscoconfparse/ciscoconfparse.py:CiscoConfParse.find_parent_objects", "ciscoconfparse/ciscoconfparse.py:CiscoConfParse.find_parent_objects_wo_child", "ciscoconfparse/ciscoconfparse.py:CiscoConfParse.find_child_objects"]}
{"id": "C221", "title": "Edits elsewhere do not change how a block is read", "statement": "Take a configuration with a block (an unindented line and indented lines below it) and change something outside of the block, then commit. Deleting another line with its children, or inserting a line after any line outside the block, leaves the block's lines together, with the same texts, children and descendants as before. In general, after any edits and a commit, a block that stands among the lines has the children and descendants it has in every other configuration.", "quantifier": "all configurations, all blocks in them, all lines outside of the blocks, all inserted texts", "why_tests_cant": "configurations and edits are infinitely many", "anchors": ["ciscoconfparse/ccp_abc.py:BaseCfgLine.delete", "ciscoconfparse/ccp_abc.py:BaseCfgLine.insert_after", "ciscoconfparse/ciscoconfparse.py:CiscoConfParse.atomic", "ciscoconfparse/ciscoconfparse.py:ConfigList.insert_after"]}
{"id": "C222", "title": "Insertions and deletions can be undone", "statement": "Inserting a line after another, committing, deleting the new line and committing again gives back the configuration: the same lines with the same children and descendants. Likewise deleting a line without children, committing, inserting it again after the line that preceded it, and committing.", "quantifier": "all configurations, all lines in them, all inserted texts", "why_tests_cant": "configurations and edits are infinitely many", "anchors": ["ciscoconfparse/ccp_abc.py:BaseCfgLine.delete", "ciscoconfparse/ccp_abc.py:BaseCfgLine.insert_after", "ciscoconfparse/ciscoconfparse.py:CiscoConfParse.atomic", "ciscoconfparse/ciscoconfparse.py:ConfigList.insert_after"]}
{"id": "C223", "title": "IPv4 and IPv6 objects are different", "statement": "An IPv4 object is never equal to an IPv6 object, and neither is ever in a network of the other family; asking gives False and does not raise.", "quantifier": "all pairs of an IPv4 and an IPv6 object", "why_tests_cant": "the addresses are too many to enumerate", "anchors": ["ciscoconfparse/ccp_util.py:IPv4Obj.__eq__", "ciscoconfparse/ccp_util.py:IPv6Obj.__eq__", "ciscoconfparse/ccp_util.py:IPv4Obj.__contains__", "ciscoconfparse/ccp_util.py:IPv6Obj.__contains__", "ciscoconfparse/ccp_util.py:IPv6Obj.__hash__"]}
{"id": "C224", "title": "Lists of addresses of both families can be sorted", "statement": "< on IPv4 and IPv6 objects is a strict order by network number, prefix length and address, > is its converse, equal objects are not less than each other, and sorted() of a mixed list gives the same objects in that order.", "quantifier": "all IPv4 and IPv6 objects, all lists of them", "why_tests_cant": "lists and addresses are infinitely many", "anchors": ["ciscoconfparse/ccp_util.py:IPv4Obj.__lt__", "ciscoconfparse/ccp_util.py:IPv6Obj.__lt__", "ciscoconfparse/ccp_util.py:IPv4Obj.__gt__", "ciscoconfparse/ccp_util.py:IPv6Obj.__gt__"]}
{"id": "C225", "title": "An empty IPv6 object behaves like an empty IPv4 object", "statement": "IPv6Obj(None) is equal to empty objects only, can be put in a set, contains nothing but empty objects and is in nothing else.", "quantifier": "all IPv6 objects, empty or not", "why_tests_cant": "the addresses are too many to enumerate", "anchors": ["ciscoconfparse/ccp_util.py:IPv6Obj.__init__", "ciscoconfparse/ccp_util.py:IPv6Obj.__eq__", "ciscoconfparse/ccp_util.py:IPv6Obj.__contains__", "ciscoconfparse/ccp_util.py:IPv6Obj.__hash__"]}
{"id": "C226", "title": "A range has the members of its result type", "statement": "CiscoRange(text, result_type=t) gives integers for int, interfaces for None and CiscoIOSInterface, IOS-XR interfaces for CiscoIOSXRInterface, numbers for float and texts for str; the empty text gives an empty range, and a text with two commas in a row is rejected, whatever the type.", "quantifier": "all texts and all result types", "why_tests_cant": "the texts are infinitely many", "anchors": ["ciscoconfparse/ccp_util.py:CiscoRange.__init__", "ciscoconfparse/ccp_util.py:CiscoRange.parse_strings", "ciscoconfparse/ccp_util.py:CiscoRange.parse_floats", "ciscoconfparse/ccp_util.py:CiscoRange.parse_cisco_interfaces"]}
{"id": "C227", "title": "hash_children compares descendants", "statement": "Two lines have the same hash_children if and only if their descendants have the same texts.", "quantifier": "all pairs of lines, of one configuration or of two", "why_tests_cant": "configurations are infinitely many", "anchors": ["ciscoconfparse/ccp_abc.py:BaseCfgLine.hash_children", "ciscoconfparse/ccp_abc.py:BaseCfgLine.__hash__", "ciscoconfparse/ccp_abc.py:BaseCfgLine.all_children"]}
{"id": "C228", "title": "The diff word of a line belongs to its side", "statement": "diff_word accepts exactly the words of the line's diff_side, and at any time the word of a line is empty or one of its side.", "quantifier": "all sequences of assignments to diff_side and diff_word", "why_tests_cant": "sequences of assignments are infinitely many", "anchors": ["ciscoconfparse/ccp_abc.py:BaseCfgLine.diff_word", "ciscoconfparse/ccp_abc.py:BaseCfgLine.diff_side"]}
{"id": "C229", "title": "The order of the blocks does not matter", "statement": "If a configuration consists of blocks that each start with an unindented line, a search finds in it what it finds in each block alone, block after block; so if the blocks are put in another order, the same texts are found, each as often as before.", "quantifier": "all lists of blocks, all orders of them, all searches for lines, parents and children, and all expressions", "why_tests_cant": "configurations, orders and expressions are infinitely many", "anchors": ["ciscoconfparse/ciscoconfparse.py:CiscoConfParse.find_objects", "ciscoconfparse/ciscoconfparse.py:CiscoConfParse.find_parent_objects", "ciscoconfparse/ciscoconfparse.py:CiscoConfParse.find_parent_objects_wo_child", "ciscoconfparse/ciscoconfparse.py:CiscoConfParse.find_child_objects", "ciscoconfparse/ciscoconfparse.py:CiscoConfParse.find_objects_w_all_children", "ciscoconfparse/ciscoconfparse.py:CiscoConfParse.find_objects_w_missing_children"]}
{"id": "C230", "title": "Moving blocks makes no diff", "statement": "If two configurations consist of blocks that each start with an unindented line, a line that HDiff shows with + is in a block that only the second has, and a line shown with - is in a block that only the first has; so if both have the same blocks, in whatever order and however often, no line is shown with + or -.", "quantifier": "all pairs of lists of blocks", "why_tests_cant": "configurations and orders are infinitely many", "anchors": ["ciscoconfparse/ciscoconfparse.py:HDiff", "ciscoconfparse/ciscoconfparse.py:HDiff.unified_diffs", "ciscoconfparse/ciscoconfparse.py:HDiff.find_in_before_obj_list"]}
{"id": "C231", "title": "sync_diff asks for nothing when all blocks are there", "statement": "If a configuration has all blocks of the wanted configuration, in whatever order, sync_diff without removals gives no commands; if it has no other blocks either, sync_diff with removals gives none.", "quantifier": "all pairs of lists of blocks and all expressions", "why_tests_cant": "configurations, orders and expressions are infinitely many", "anchors": ["ciscoconfparse/ciscoconfparse.py:CiscoConfParse.sync_diff", "ciscoconfparse/ciscoconfparse.py:HDiff"]}
{"id": "C232", "title": "The diff the other way round", "statement": "HDiff(b, a) shows the same lines as HDiff(a, b), with + for - and - for +.", "quantifier": "all pairs of configurations", "why_tests_cant": "configurations are infinitely many", "anchors": ["ciscoconfparse/ciscoconfparse.py:HDiff", "ciscoconfparse/ciscoconfparse.py:HDiff.unified_diffs", "ciscoconfparse/ciscoconfparse.py:HDiff.find_in_before_obj_list"]}
{"id": "C233", "title": "Diffs compose", "statement": "A line is added from a to c exactly if it is added from a to b and not removed from b to c, or added from b to c and not removed from a to b; the same holds with added and removed exchanged.", "quantifier": "all triples of configurations", "why_tests_cant": "configurations are infinitely many", "anchors": ["ciscoconfparse/ciscoconfparse.py:HDiff", "ciscoconfparse/ciscoconfparse.py:HDiff.dict_diffs", "ciscoconfparse/ciscoconfparse.py:HDiff.compress_dict_diffs"]}
{"id": "C234", "title": "The order of deletions does not matter", "statement": "delete_lines(a) followed by delete_lines(b) leaves the same lines as delete_lines(b) followed by delete_lines(a), and as one delete_lines with an expression that matches what a or b matches; a second delete_lines(a) changes nothing.", "quantifier": "all configurations and all pairs of expressions", "why_tests_cant": "configurations and expressions are infinitely many", "anchors": ["ciscoconfparse/ciscoconfparse.py:CiscoConfParse.delete_lines", "ciscoconfparse/ccp_abc.py:BaseCfgLine.delete"]}
{"id": "C235", "title": "After commit the searches answer as for a configuration parsed afresh", "statement": "Whatever edits were made before commit() (or atomic()), every search (find_objects, find_children, find_all_children, find_blocks, find_parent_objects, find_parent_objects_wo_child, find_objects_w_all_children, find_objects_w_missing_children, find_child_objects, find_children_w_parents, find_lineage, find_object_branches) then finds the same lines as in a CiscoConfParse built from the lines that there are.", "quantifier": "all configurations, all histories of edits, all searches and expressions", "why_tests_cant": "configurations, histories and expressions are infinitely many", "anchors": ["ciscoconfparse/ciscoconfparse.py:CiscoConfParse.commit", "ciscoconfparse/ciscoconfparse.py:CiscoConfParse.atomic", "ciscoconfparse/ciscoconfparse.py:CiscoConfParse.find_objects", "ciscoconfparse/ciscoconfparse.py:CiscoConfParse.find_object_branches", "ciscoconfparse/ciscoconfparse.py:CiscoConfParse.find_lineage"]}
{"id": "C236", "title": "Both configurations can be read off the unified diff", "statement": "unified_diffs() is a header of three lines and then the lines of the diff: those that do not start with + are the lines of before in their order, those that do not start with - are the lines of after in their order (after the first character, with one blank between the words); unified_diffs(header=False) is the same without the header.", "quantifier": "all pairs of configurations", "why_tests_cant": "configurations are infinitely many", "anchors": ["ciscoconfparse/ciscoconfparse.py:HDiff.unified_diffs", "ciscoconfparse/ciscoconfparse.py:HDiff.unified_diff_header", "ciscoconfparse/ciscoconfparse.py:HDiff.unified_diffs_contents"]}
{"id": "C237", "title": "The searches by parent and by child find the two ends of the same links", "statement": "find_objects_w_child(p, c) finds exactly the lines matching p that have below them a line found by find_child_objects(p, c), and find_child_objects(p, c) finds exactly the lines matching c below a line found by find_objects_w_child(p, c), with and without recurse; a line matching p is found by find_objects_wo_child(p, c) iff it is not found by find_objects_w_child(p, c), iff no child of it is found by find_objects_w_parents(p, c).", "quantifier": "all configurations and expressions", "why_tests_cant": "configurations and expressions are infinitely many", "anchors": ["ciscoconfparse/ciscoconfparse.py:CiscoConfParse.find_objects_w_child", "ciscoconfparse/ciscoconfparse.py:CiscoConfParse.find_objects_wo_child", "ciscoconfparse/ciscoconfparse.py:CiscoConfParse.find_objects_w_parents", "ciscoconfparse/ciscoconfparse.py:CiscoConfParse.find_child_objects"]}
{"id": "C238", "title": "The packed form of an address", "statement": "packed of an IPv4Obj (IPv6Obj) is 4 (16) bytes that stand for as_decimal, the most significant byte first; packed addresses compare byte by byte as the addresses compare as numbers, and two are equal iff the addresses are.", "quantifier": "all IPv4 and IPv6 objects", "why_tests_cant": "2^32 and 2^128 addresses", "anchors": ["ciscoconfparse/ccp_util.py:IPv4Obj.packed", "ciscoconfparse/ccp_util.py:IPv6Obj.packed", "ciscoconfparse/ccp_util.py:IPv4Obj.as_decimal", "ciscoconfparse/ccp_util.py:IPv6Obj.as_decimal"]}
{"id": "C239", "title": "The commands of sync_diff as a configuration", "statement": "The commands that sync_diff without remove_lines gives can be parsed as a configuration. Its lines, each with its parents, are exactly the wanted lines that match linespec and are missing, and their parents; each command is a line of the wanted configuration.", "quantifier": "all configurations, all wanted configurations, all linespecs", "why_tests_cant": "the commands repeat parents in front of each line, in an order of their own", "anchors": ["ciscoconfparse/ciscoconfparse.py:CiscoConfParse.sync_diff", "ciscoconfparse/ciscoconfparse.py:HDiff", "ciscoconfparse/ciscoconfparse.py:ConfigList._bootstrap_obj_init_ng"]}
{"id": "C240", "title": "Entering the commands of sync_diff is enough", "statement": "If the commands that sync_diff gave are entered after the configuration, the configuration has its old lines, the wanted lines that were missing and their parents, and no others, and sync_diff with the same arguments asks for nothing more.", "quantifier": "all configurations, all wanted configurations, all linespecs", "why_tests_cant": "two diffs, of configurations that are built from each other", "anchors": ["ciscoconfparse/ciscoconfparse.py:CiscoConfParse.sync_diff", "ciscoconfparse/ciscoconfparse.py:HDiff", "ciscoconfparse/ciscoconfparse.py:ConfigList._bootstrap_obj_init_ng"]}
{"id": "C241", "title": "What linespec and remove_lines choose", "statement": "For a linespec that matches less, sync_diff gives some of the commands, in the same order, and raises only if it did before; without remove_lines it gives some of the commands that it gives with it, and uncfgspec does not matter; a linespec that matches nothing gives no commands.", "quantifier": "all configurations, wanted configurations, hashes, syntaxes and expressions", "why_tests_cant": "pairs of arbitrary expressions", "anchors": ["ciscoconfparse/ciscoconfparse.py:CiscoConfParse.sync_diff"]}
{"id": "C242", "title": "Marks go down in a diff", "statement": "In the result of HDiff all lines below an added line are added, all lines below a removed line are removed, and with a line all its parents are shown.", "quantifier": "all pairs of configurations", "why_tests_cant": "trees of any depth, and pairs of them", "anchors": ["ciscoconfparse/ciscoconfparse.py:HDiff.build_ios_diffs", "ciscoconfparse/ciscoconfparse.py:HDiff.find_in_before_obj_list"]}
{"id": "C243", "title": "Blanks at the ends of lines", "statement": "Two configurations whose lines differ only in white space at their ends are parsed to the same result.", "quantifier": "all pairs of configurations with the same lines up to trailing white space, all options", "why_tests_cant": "any amount of white space on any line", "anchors": ["ciscoconfparse/ciscoconfparse.py:ConfigList._bootstrap_from_text", "ciscoconfparse/ciscoconfparse.py:ConfigList._macro_mark_children"]}
{"id": "C244", "title": "The depth of the indentation does not matter", "statement": "If every line is indented as deep as its level says, and deeper levels are indented more, then list, parents, children and the texts without indentation do not depend on how many blanks there are for a level.", "quantifier": "all configurations without banners, macros and blank lines, all ways to indent", "why_tests_cant": "arbitrary indentation widths for trees of any depth", "anchors": ["ciscoconfparse/ciscoconfparse.py:ConfigList._bootstrap_from_text", "ciscoconfparse/ciscoconfparse.py:ConfigList._build_bootstrap_parent_child"]}
{"id": "C245", "title": "Comments and blank lines do not disturb the tree", "statement": "If a comment or a blank line is added anywhere or taken out, every configuration line keeps its text, its parent and, among the configuration lines, its children.", "quantifier": "all configurations, places and comments or blank lines", "why_tests_cant": "a line may be added at any place of any configuration", "anchors": ["ciscoconfparse/ciscoconfparse.py:ConfigList._bootstrap_from_text", "ciscoconfparse/ciscoconfparse.py:ConfigList._build_bootstrap_parent_child"]}
{"id": "C246", "title": "What the constructor accepts", "statement": "CiscoConfParse(config, syntax=...) accepts the lists and tuples of strings, whose lines it parses, and the names of text files, as str or pathlib.Path, whose lines it parses; it raises FileNotFoundError if there is no such file and another exception for everything else, and for a syntax that is not one of the five.", "quantifier": "all values of config and syntax, all contents of the file system", "why_tests_cant": "all kinds of wrong arguments, and all files", "anchors": ["ciscoconfparse/ciscoconfparse.py:CiscoConfParse.__init__", "ciscoconfparse/ciscoconfparse.py:CiscoConfParse.read_config_file", "ciscoconfparse/ciscoconfparse.py:CiscoConfParse.handle_ccp_brace_syntax", "ciscoconfparse/ciscoconfparse.py:CiscoConfParse.check_ccp_input_good"]}
{"id": "C247", "title": "A commit that raises loses no line", "statement": "If commit() raises, the configuration has the same lines as before, a second commit() raises the same exception, and parents and children are still consistent with each other.", "quantifier": "all configurations, edited in any way before the commit", "why_tests_cant": "needs the state after every exception, for all unfinished edits", "anchors": ["ciscoconfparse/ciscoconfparse.py:CiscoConfParse.commit", "ciscoconfparse/ciscoconfparse.py:CiscoConfParse.atomic", "ciscoconfparse/ciscoconfparse.py:ConfigList.bootstrap_obj_init_ng", "ciscoconfparse/ciscoconfparse.py:ConfigList._macro_mark_children"]}
{"id": "C248", "title": "An insertion that raises changes nothing", "statement": "If insert_before() or insert_after() raises, the configuration is as it was before the call, with atomic=True too.", "quantifier": "all configurations that are parsed and edited, all search terms, new lines and indents", "why_tests_cant": "all arguments for which an exception can come up, and the state after it", "anchors": ["ciscoconfparse/ciscoconfparse.py:CiscoConfParse.insert_before", "ciscoconfparse/ciscoconfparse.py:CiscoConfParse.insert_after", "ciscoconfparse/ciscoconfparse.py:ConfigList.insert_before", "ciscoconfparse/ciscoconfparse.py:ConfigList.insert_after"]}
{"id": "C249", "title": "Options that make no difference", "statement": "The trees of ios, nxos, iosxr and asa are the same if no line begins a macro; a comment delimiter changes nothing if no line begins with it; ignore_blank_lines changes nothing if no line is blank.", "quantifier": "all configurations and all values of syntax (but junos), comment_delimiter and ignore_blank_lines", "why_tests_cant": "all pairs of options over all configurations", "anchors": ["ciscoconfparse/ciscoconfparse.py:CiscoConfParse.__init__", "ciscoconfparse/ciscoconfparse.py:ConfigList.bootstrap_obj_init_ng", "ciscoconfparse/ccp_abc.py:BaseCfgLine.set_comment_bool"]}
{"id": "C250", "title": "A line appended to a family becomes a child", "statement": "obj.append_to_family(s, auto_indent=True) and a commit(): the new line is a child of obj, and every other configuration line has the parent it had.", "quantifier": "all configurations, all lines with or without a family, all texts and indents", "why_tests_cant": "the parent depends on the indents of all lines before it, and the lines below may get a new one", "anchors": ["ciscoconfparse/ccp_abc.py:BaseCfgLine.append_to_family", "ciscoconfparse/ciscoconfparse.py:CiscoConfParse.commit", "ciscoconfparse/ciscoconfparse.py:ConfigList.bootstrap_obj_init_ng"]}
{"id": "C251", "title": "An inserted line adopts exactly the deeper lines that follow it", "statement": "insert_after() or insert_before() and a commit(): the new line hangs below the last less deep configuration line before it. It becomes the parent of exactly those configuration lines after it that are deeper and have no less deep line between; every other configuration line has the parent it had. A comment changes nobody's parent.", "quantifier": "all configurations, all places, all inserted texts, all lines", "why_tests_cant": "an insertion can change the parents of lines far below, and the set of these depends on all lines between", "anchors": ["ciscoconfparse/ciscoconfparse.py:ConfigList.insert_after", "ciscoconfparse/ciscoconfparse.py:ConfigList.insert_before", "ciscoconfparse/ciscoconfparse.py:CiscoConfParse.commit", "ciscoconfparse/ciscoconfparse.py:ConfigList.bootstrap_obj_init_ng"]}
{"id": "C252", "title": "Deleting families leaves the other parents alone", "statement": "obj.delete(), delete_lines(r) or delete_children_matching(r) and a commit(): every configuration line that is left has the parent it had before.", "quantifier": "all configurations, all deleted lines and expressions, all remaining lines", "why_tests_cant": "the parent is computed anew from all lines that are left", "anchors": ["ciscoconfparse/ccp_abc.py:BaseCfgLine.delete", "ciscoconfparse/ccp_abc.py:BaseCfgLine.delete_children_matching", "ciscoconfparse/ciscoconfparse.py:CiscoConfParse.delete_lines", "ciscoconfparse/ciscoconfparse.py:CiscoConfParse.commit", "ciscoconfparse/ciscoconfparse.py:ConfigList.bootstrap_obj_init_ng"]}
{"id": "C253", "title": "Only the indentation and being a comment decide the tree", "statement": "Two configurations whose lines have, one by one, the same indentation and are comments at the same places have the same parents and children. So replace_lines() with a replacement that keeps the indentation, and a commit(), changes no parent and no child.", "quantifier": "all configurations, all replacements, all lines", "why_tests_cant": "every character of every line could have a part in how the tree is built", "anchors": ["ciscoconfparse/ciscoconfparse.py:ConfigList.bootstrap_obj_init_ng", "ciscoconfparse/ciscoconfparse.py:CiscoConfParse.replace_lines", "ciscoconfparse/ciscoconfparse.py:CiscoConfParse.commit"]}
{"id": "C254", "title": "Lines that follow do not change what was read before", "statement": "The first n lines of a configuration have the texts and the parents that they have when these n lines are read alone, and of the children those among the n lines.", "quantifier": "all configurations, all n", "why_tests_cant": "anything further down could reach back, as the end of a banner or of a macro does", "anchors": ["ciscoconfparse/ciscoconfparse.py:ConfigList.bootstrap_obj_init_ng", "ciscoconfparse/ciscoconfparse.py:CiscoConfParse.__init__"]}
{"id": "C255", "title": "Lines appended one after another are the last children, in this order", "statement": "Appending texts to the family of a line one after another, each time with the depth of its children and followed by a commit(), gives the line the children it had and then these texts in their order.", "quantifier": "all configurations, all lists of texts, all lines", "why_tests_cant": "the tree is built anew after each of any number of steps", "anchors": ["ciscoconfparse/ccp_abc.py:BaseCfgLine.append_to_family", "ciscoconfparse/ciscoconfparse.py:CiscoConfParse.commit", "ciscoconfparse/ciscoconfparse.py:ConfigList.bootstrap_obj_init_ng"]}
{"id": "C256", "title": "Every tree of lines can be written as a configuration and is read back from it", "statement": "If trees of lines are written one line after another, each level indented deeper than the one above it, then the configuration that is read from these lines consists of exactly these trees, in this order, and of no others.", "quantifier": "all trees of any depth and width, all increasing indentations, all options", "why_tests_cant": "the trees may have any shape", "anchors": ["ciscoconfparse/ciscoconfparse.py:ConfigList.bootstrap_obj_init_ng", "ciscoconfparse/ccp_abc.py:BaseCfgLine.children"]}
{"id": "C257", "title": "Walking the tree from the top visits every line once, in order", "statement": "Taking every line that is its own parent and then its all_children, in order, gives the lines of the configuration in their order, each once; all_children of a line are its children, each followed by its all_children.", "quantifier": "all configurations, all lines", "why_tests_cant": "trees of any depth and width", "anchors": ["ciscoconfparse/ccp_abc.py:BaseCfgLine.all_children", "ciscoconfparse/ccp_abc.py:BaseCfgLine.children", "ciscoconfparse/ccp_abc.py:BaseCfgLine.parent", "ciscoconfparse/ciscoconfparse.py:ConfigList.bootstrap_obj_init_ng"]}
{"id": "C258", "title": "Deleting an object takes its subtree out of the tree", "statement": "If trees of lines were written as a configuration and read, then obj.delete() and commit() give the configuration of the same trees without the subtree of this object.", "quantifier": "all trees of any depth and width, all objects, all increasing indentations", "why_tests_cant": "the object may be anywhere in a tree of any shape", "anchors": ["ciscoconfparse/ccp_abc.py:BaseCfgLine.delete", "ciscoconfparse/ciscoconfparse.py:CiscoConfParse.commit", "ciscoconfparse/ciscoconfparse.py:ConfigList.bootstrap_obj_init_ng"]}
{"id": "C259", "title": "append_to_family adds a leaf to the tree", "statement": "If trees of lines were written with a fixed indentation width and read, then obj.append_to_family(text, auto_indent=True) and commit() give the configuration of the same trees with text as a new last child of this object.", "quantifier": "all trees of any depth and width, all objects, all indentation widths, all texts", "why_tests_cant": "the object may be anywhere in a tree of any shape", "anchors": ["ciscoconfparse/ccp_abc.py:BaseCfgLine.append_to_family", "ciscoconfparse/ciscoconfparse.py:CiscoConfParse.commit", "ciscoconfparse/ciscoconfparse.py:ConfigList.bootstrap_obj_init_ng"]}
{"id": "C260", "title": "insert_before adds a leaf to the tree in front of an object", "statement": "If trees of lines were written as a configuration and read, then obj.insert_before(text), text having the indentation of the object, and commit() give the configuration of the same trees with text as a new leaf in front of this object, at the level of this object.", "quantifier": "all trees of any depth and width, all objects, all increasing indentations, all texts", "why_tests_cant": "the object may be anywhere in a tree of any shape", "anchors": ["ciscoconfparse/ccp_abc.py:BaseCfgLine.insert_before", "ciscoconfparse/ciscoconfparse.py:ConfigList.insert_before", "ciscoconfparse/ciscoconfparse.py:CiscoConfParse.commit", "ciscoconfparse/ciscoconfparse.py:ConfigList.bootstrap_obj_init_ng"]}
{"id": "C261", "title": "The repr of an address object identifies it", "statement": "repr() of an IPv4Obj or IPv6Obj holds, between '<IPv4Obj ' or '<IPv6Obj ' and '>', a text from which the constructor makes the same object; so two objects with the same repr() are the same object, and IPv4Obj(None) has a repr() of its own. IPv4-mapped IPv6 addresses, and only they, are shown with a dotted IPv4 address.", "quantifier": "all IPv4Obj and IPv6Obj that a program can make", "why_tests_cant": "2^32 and 2^128 addresses with every prefix length", "anchors": ["ciscoconfparse/ccp_util.py:IPv4Obj.__repr__", "ciscoconfparse/ccp_util.py:IPv6Obj.__repr__", "ciscoconfparse/ccp_util.py:IPv4Obj.__init__", "ciscoconfparse/ccp_util.py:IPv6Obj.__init__"]}
{"id": "C262", "title": "The list of lines changes like a Python list", "statement": "objs.append, objs.extend, +=, *=, objs[k] = v, objs.pop(k), objs.reverse() and objs.clear() change length and elements exactly as for a Python list: new elements come last, a repeated list repeats, assignment and pop touch position k only (counted from the end if k is negative) and raise IndexError if there is none. The sum of two lists of texts has the lines of the left one first.", "quantifier": "all lists of lines and strings of any length, all positions, all factors", "why_tests_cant": "lists of any length and content, any position", "anchors": ["ciscoconfparse/ciscoconfparse.py:ConfigList.extend", "ciscoconfparse/ciscoconfparse.py:ConfigList.append", "ciscoconfparse/ciscoconfparse.py:ConfigList.__iadd__", "ciscoconfparse/ciscoconfparse.py:ConfigList.__imul__", "ciscoconfparse/ciscoconfparse.py:ConfigList.__setitem__", "ciscoconfparse/ciscoconfparse.py:ConfigList.pop", "ciscoconfparse/ciscoconfparse.py:ConfigList.reverse", "ciscoconfparse/ciscoconfparse.py:ConfigList.__add__", "ciscoconfparse/ciscoconfparse.py:ConfigList.__radd__"]}
{"id": "C263", "title": "network_offset of IPv6 objects is the place of the address in its subnet", "statement": "For an IPv6Obj, assigning network_offset = k succeeds exactly when network + k is an address of the subnet; the subnet stays, the address becomes network + k, and reading network_offset gives k.", "quantifier": "all IPv6Obj values, all offsets", "why_tests_cant": "2^128 addresses, 129 prefix lengths, any offset", "anchors": ["ciscoconfparse/ccp_util.py:IPv6Obj.network_offset", "ciscoconfparse/ccp_util.py:IPv6Obj.numhosts"]}
{"id": "C264", "title": "obj.ioscfg is the written subtree of the object", "statement": "For a configuration written from any forest of lines, obj.ioscfg of the line at the root of a subtree has the lines of that subtree in the written order, and nothing else; parsed on its own, it gives that subtree again.", "quantifier": "all forests of any size and depth, all strictly growing indentations, all subtrees", "why_tests_cant": "forests of any size, any subtree", "anchors": ["ciscoconfparse/ccp_abc.py:BaseCfgLine.ioscfg", "ciscoconfparse/ccp_abc.py:BaseCfgLine.all_children", "ciscoconfparse/ciscoconfparse.py:CiscoConfParse.__init__"]}
{"id": "C265", "title": "Lists of lines are compared like Python lists", "statement": "For two lists of lines or of texts, <, <=, > and >= decide by the first elements that are not equal - lines by line number, texts by code points - and by the lengths if there are none.", "quantifier": "all pairs of lists of any length, of lines or texts, after any changes", "why_tests_cant": "pairs of lists of any length and content", "anchors": ["ciscoconfparse/ciscoconfparse.py:ConfigList.__lt__", "ciscoconfparse/ciscoconfparse.py:ConfigList.__le__", "ciscoconfparse/ciscoconfparse.py:ConfigList.__gt__", "ciscoconfparse/ciscoconfparse.py:ConfigList.__ge__", "ciscoconfparse/ccp_abc.py:BaseCfgLine.__lt__", "ciscoconfparse/ccp_abc.py:BaseCfgLine.__gt__", "ciscoconfparse/ccp_abc.py:BaseCfgLine.__eq__"]}
{"id": "C266", "title": "repr of an IOS interface identifies it", "statement": "repr() of a CiscoIOSInterface is <CiscoIOSInterface NAME>, where NAME is read back as the same interface; two interfaces with the same repr() are equal in all parts.", "quantifier": "all interface names that are accepted", "why_tests_cant": "names of any length with any numbers", "anchors": ["ciscoconfparse/ccp_util.py:CiscoIOSInterface.__repr__", "ciscoconfparse/ccp_util.py:CiscoIOSInterface.__str__"]}
{"id": "C267", "title": "The host name of an ASA configuration is the word behind hostname", "statement": "For a line that begins with hostname, the attribute hostname is the second word, and the empty text if the line has no other word.", "quantifier": "all lines that begin with hostname", "why_tests_cant": "lines of any length with any blanks", "anchors": ["ciscoconfparse/models_asa.py:ASAHostnameLine.hostname"]}
{"id": "C268", "title": "Port channels and reset commands", "statement": "is_portchannel_intf is True exactly if the name of the interface, the words behind the first one, contains channel in capital or small letters. build_reset_string() of an interface or an access line has the word default before the words of the line.", "quantifier": "all texts of lines", "why_tests_cant": "lines of any length and spelling", "anchors": ["ciscoconfparse/models_cisco.py:IOSCfgLine.is_portchannel_intf", "ciscoconfparse/models_cisco.py:BaseIOSIntfLine.build_reset_string", "ciscoconfparse/models_cisco.py:IOSAccessLine.build_reset_string"]}
{"id": "C269", "title": "A static IPv6 route says what its command says", "statement": "For a line ipv6 route [vrf V] PREFIX/LENGTH [INTERFACE] [ADDRESS] [nexthop-vrf V] [DISTANCE] [unicast | multicast] [tag N] [track N] [name NAME], in every combination of the optional parts and for every text of the IPv6 addresses, the factory makes a route object; vrf, masklen, next_hop_interface, next_hop_addr, nexthop_vrf, admin_distance (1 if there is none), multicast, tag, tracking_object_name and route_name are what the command says; network is the prefix and network_object the prefix with its length; global_next_hop and permanent are refused.", "quantifier": "all routes: all names, all forms of IPv6 addresses, all numbers, all combinations of parameters", "why_tests_cant": "infinitely many names and addresses and 2^9 combinations", "anchors": ["ciscoconfparse/models_cisco.py:IOSRouteLine", "ciscoconfparse/models_cisco.py:_RE_IPV6_ROUTE", "ciscoconfparse/models_cisco.py:IOSRouteLine.network", "ciscoconfparse/models_cisco.py:IOSRouteLine.nexthop_str", "ciscoconfparse/models_cisco.py:IOSRouteLine.network_object"]}
{"id": "C270", "title": "A static IPv6 route of NXOS says what its command says", "statement": "For a line ipv6 route [vrf V] PREFIX/LENGTH [INTERFACE] [ADDRESS] [nexthop-vrf V] [DISTANCE] [unicast | multicast] [tag N] of an NXOS configuration, in every combination of the optional parts and for every text of the IPv6 addresses, masklen, next_hop_interface, next_hop_addr, admin_distance (the text 1 if there is none) and tag are what the command says; network is the prefix and network_object the prefix with its length; route_name is refused.", "quantifier": "all routes: all names, all forms of IPv6 addresses, all numbers, all combinations of parameters", "why_tests_cant": "infinitely many names and addresses", "anchors": ["ciscoconfparse/models_nxos.py:NXOSRouteLine", "ciscoconfparse/models_nxos.py:_RE_IPV6_ROUTE", "ciscoconfparse/models_nxos.py:NXOSRouteLine.network", "ciscoconfparse/models_nxos.py:NXOSRouteLine.nexthop_str", "ciscoconfparse/models_nxos.py:NXOSRouteLine.network_object"]}
{"id": "C271", "title": "reset() puts the reset command before the interface", "statement": "reset() of an interface object of an IOS, NXOS, IOS XR or Junos configuration puts one line, the word default with the text of the interface, directly before the interface and changes no other line; for ASA it is refused.", "quantifier": "all configurations a program can reach, all interfaces, both values of atomic", "why_tests_cant": "all configurations and histories of edits", "anchors": ["ciscoconfparse/models_cisco.py:BaseIOSIntfLine.reset", "ciscoconfparse/models_nxos.py:BaseNXOSIntfLine.reset", "ciscoconfparse/models_iosxr.py:BaseIOSXRIntfLine.reset", "ciscoconfparse/models_junos.py:BaseJunosIntfLine.reset", "ciscoconfparse/models_asa.py:BaseASAIntfLine.reset", "ciscoconfparse/ccp_abc.py:BaseCfgLine.insert_before"]}
{"id": "C272", "title": "Escaped braces are given back by format", "statement": "safe_escape_curly_braces(text) gives a text from which str.format() makes the text again, whatever braces are in it; escaping a second time changes nothing; a text without braces is left as it is.", "quantifier": "all texts", "why_tests_cant": "texts of any length with any braces", "anchors": ["ciscoconfparse/ccp_abc.py:BaseCfgLine.safe_escape_curly_braces"]}
{"id": "C273", "title": "Diff() compares what it is given", "statement": "Diff(old_config, new_config, syntax) accepts a text, the path of a file, a list, a tuple or None for each configuration; the two configurations that are compared have exactly the lines of the text, of the file or of the list, and none for None. Anything else raises ValueError, and a syntax other than ios raises NotImplementedError.", "quantifier": "all arguments, all texts and lists of lines, all files", "why_tests_cant": "texts and lists of any length", "anchors": ["ciscoconfparse/ciscoconfparse.py:Diff"]}
{"id": "C274", "title": "attribute_sort() sorts numbers and texts by number", "statement": "CiscoRange.attribute_sort(target_list, reverse) returns the same members in the order of the numbers they are or write, or against it with reverse; members with the same number keep their order and the range is unchanged. An empty list, a text that writes no number and a list of numbers with a text in it raise. Without a list the members of the range itself are sorted.", "quantifier": "all lists of int and str, all ranges, both directions", "why_tests_cant": "lists of any length", "anchors": ["ciscoconfparse/ccp_util.py:CiscoRange.attribute_sort"]}
{"id": "C275", "title": "sixtofour and teredo give the embedded IPv4 addresses", "statement": "For an IPv6Obj whose address is a 6to4 address (2002::/16), sixtofour is the IPv4 address in it; for a Teredo address (2001::/32), teredo is the pair of the server and the client; for all other addresses they are None.", "quantifier": "all IPv6Obj instances", "why_tests_cant": "2**128 addresses", "anchors": ["ciscoconfparse/ccp_util.py:IPv6Obj.sixtofour", "ciscoconfparse/ccp_util.py:IPv6Obj.teredo"]}
