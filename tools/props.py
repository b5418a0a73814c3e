import json
P=[]
def p(title, statement, quant, why, anchors):
    P.append(dict(id="C%02d"%(len(P)+1), title=title, statement=statement, quantifier=quant, why_tests_cant=why, anchors=anchors))
U="ciscoconfparse/ccp_util.py"; A="ciscoconfparse/ccp_abc.py"; M="ciscoconfparse/ciscoconfparse.py"; MC="ciscoconfparse/models_cisco.py"
# ---- IP
p("IPv4 containment is address-set inclusion",
  "`b in a` is True exactly when every address of b's network is an address of a's network.",
  "all pairs of non-empty IPv4Obj (any host address, any prefix length 0..32)",
  "2^37 objects squared; the interesting cases are at network boundaries of every prefix length",
  [U+":IPv4Obj.__contains__",U+":IPv4Obj.as_decimal_network",U+":IPv4Obj.as_decimal_broadcast"])
p("IPv4Obj comparison is a strict total order that agrees with ==",
  "For any two IPv4Obj exactly one of a<b, a==b, a>b holds, < is transitive, a<b iff b>a, and sorting puts lower networks first, then shorter masks, then lower hosts; walking a reverse-sorted route table and taking the first route that contains an address gives a longest match.",
  "all pairs/triples of IPv4Obj and all route lists",
  "an order law over all triples, and a longest-match claim over all route tables",
  [U+":IPv4Obj.__lt__",U+":IPv4Obj.__gt__",U+":IPv4Obj.__eq__"])
p("IPv4Obj integer arithmetic is exact, keeps the prefix length and is bounds-checked",
  "a+n (a-n) is the object whose address is n higher (lower) with the same prefix length whenever that address is in 0..2^32-1, and raises otherwise; (a+n)-n == a whenever a+n exists.",
  "all IPv4Obj and all Python integers n (positive, zero, negative)",
  "unbounded integers and 2^37 objects; the failing values are exactly at the ends of the range",
  [U+":IPv4Obj.__add__",U+":IPv4Obj.__sub__"])
p("IPv4 network arithmetic is coherent",
  "network <= ip <= broadcast; network is a multiple of 2^(32-p); broadcast-network+1 = 2^(32-p); the address is in its own network; numhosts is the number of usable host addresses (all addresses but network and broadcast, for p<=30; 2 for /31; 1 for /32).",
  "all IPv4Obj",
  "32-bit space times 33 prefix lengths",
  [U+":IPv4Obj.as_decimal_network",U+":IPv4Obj.as_decimal_broadcast",U+":IPv4Obj.numhosts"])
p("network_offset: what you set is what you read, and it never leaves the subnet",
  "After `o.network_offset = k` succeeds, o stays inside its subnet and reading o.network_offset returns k; k is rejected exactly when network+k is outside the subnet.",
  "all IPv4Obj and all integers k",
  "all offsets of all subnets, incl. network/broadcast offsets and negative ones",
  [U+":IPv4Obj.network_offset"])
p("IPv4 renderings decode back to the same address",
  "as_zeropadded, as_binary_tuple and as_hex_tuple are fixed-width renderings from which as_decimal is recovered, and IPv4Obj(o.as_cidr_addr) == o.",
  "all IPv4Obj", "2^37 objects",
  [U+":IPv4Obj.as_zeropadded",U+":IPv4Obj.as_binary_tuple",U+":IPv4Obj.as_hex_tuple",U+":IPv4Obj.as_cidr_addr",U+":IPv4Obj.__init__"])
p("IPv6 containment is address-set inclusion",
  "`b in a` is True exactly when every address of b's network is an address of a's network.",
  "all pairs of non-empty IPv6Obj", "2^135 objects squared",
  [U+":IPv6Obj.__contains__",U+":IPv6Obj.numhosts"])
p("IPv6Obj order, arithmetic and network bounds obey the same laws as IPv4Obj",
  "Comparison is a strict total order agreeing with ==; +/- n are exact and bounds-checked; network <= ip <= last address of the network.",
  "all IPv6Obj, all integers n", "128-bit space, order laws over triples",
  [U+":IPv6Obj.__lt__",U+":IPv6Obj.__gt__",U+":IPv6Obj.__add__",U+":IPv6Obj.__sub__",U+":IPv6Obj.as_decimal_network_maxint"])
# ---- CiscoRange
p("An integer CiscoRange expands to exactly the described set",
  "CiscoRange(text, result_type=int) for text = comma list of N or A-B holds exactly the integers N and A..B inclusive, once each.",
  "all well-formed range texts of any length, any naturals, overlapping or reversed ranges included",
  "infinitely many texts; duplicates and overlaps combine arbitrarily",
  [U+":CiscoRange.parse_integers"])
p("Integer range compression loses nothing: expand(compress(S)) == S",
  "CiscoRange(r.as_compressed_str(), result_type=int) has the same members as r, for every non-empty set of naturals.",
  "all finite sets of naturals", "infinitely many sets; run boundaries in any pattern",
  [U+":CiscoRange.as_compressed_str",U+":CiscoRange.parse_integers"])
p("Reading a CiscoRange does not change it",
  "as_list() returns the members sorted without duplicates, and calling it any number of times never changes len(), iteration or later results.",
  "all ranges and all numbers of repeated reads", "a history property over read calls",
  [U+":CiscoRange.as_list",U+":CiscoRange.__len__"])
p("CiscoRange append/remove obey set laws",
  "append(v) adds exactly v (error if present), remove(v) removes exactly v (error if absent), order stays sorted; remove undoes append; under any history of successful appends/removes the members are those of the corresponding set.",
  "all int ranges and all finite append/remove histories", "unbounded histories",
  [U+":CiscoRange.append",U+":CiscoRange.remove",U+":CiscoRange.attribute_sort"])
p("CiscoRange + and - are union and difference",
  "x in (a+b) iff x in a or x in b; x in (a-b) iff x in a and x not in b.",
  "all pairs of int ranges", "all pairs of sets",
  [U+":CiscoRange.__add__",U+":CiscoRange.__sub__"])
# ---- interfaces
p("Interface names round-trip",
  "Parsing the rendering of an interface (prefix, slot/card/port, subinterface, channel, class) gives back the same components; rendering is a normal form, so str(CiscoIOSInterface(str(o))) == str(o).",
  "all interfaces with a letter prefix and natural-number components of any size", "infinitely many component values in 2^4 shapes",
  [U+":CiscoIOSInterface.parse_single_interface",U+":CiscoIOSInterface.parse_intf_short",U+":CiscoIOSInterface.parse_intf_long",U+":CiscoIOSInterface.render_as_string",U+":CiscoIOSInterface.number"])
p("Interface equality, hashing and ordering are coherent",
  "Equal interfaces hash equal; == is an equivalence; < is a strict order whose incomparable pairs have equal numbers, comparing never fails.",
  "all pairs/triples of CiscoIOSInterface", "order laws over triples",
  [U+":CiscoIOSInterface.__eq__",U+":CiscoIOSInterface.__lt__",U+":CiscoIOSInterface.__gt__",U+":CiscoIOSInterface.__hash__",U+":CiscoIOSInterface.update_sort_list"])
p("Interface ranges expand to exactly the listed interfaces",
  "CiscoRange('PREFIX s/a-b,c,d-e') contains exactly PREFIX s/i for i in the listed numbers, each once.",
  "all interface range texts over one slot/card", "infinitely many texts",
  [U+":CiscoRange.parse_cisco_interfaces"])
# ---- misc pure
p("Type-7 password decryption inverts Cisco's type-7 encryption",
  "CiscoPassword().decrypt of a type-7 encoding (any salt 0..52) of a non-empty password is that password.",
  "all passwords of 8-bit characters (any length) and all salts", "infinitely many passwords times 53 salts (wrap-around of the key)",
  [M+":CiscoPassword.decrypt"])
p("L4Object port specifications denote the right port set",
  "port_list of 'eq N', 'lt N', 'gt N', 'neq N', 'range A B' is exactly the sorted list of ports in 1..65535 satisfying the relation; invalid specs raise.",
  "all operators and all numbers", "65536^2 ranges",
  [U+":L4Object.__init__"])
p("trunk_vlans_allowed implements the switchport statements",
  "The returned VLAN set is what the device would compute by applying the 'switchport trunk allowed vlan ...' statements in order.",
  "all sequences of allowed/add/except/remove statements", "unbounded statement sequences",
  [MC+":BaseIOSIntfLine.trunk_vlans_allowed"])
# ---- parse tree
p("Parsing keeps every configuration line",
  "The texts of parse.objs, in order, are the input lines with trailing whitespace removed, except that blank lines are dropped when ignore_blank_lines=True (unless inside a banner/macro). No line is lost, duplicated, reordered or altered.",
  "all lists of lines", "infinitely many configurations",
  [M+":CiscoConfParse.__init__",M+":ConfigList.bootstrap_obj_init_ng",A+":BaseCfgLine.text"])
p("Parent is the nearest preceding less-indented configuration line",
  "For IOS-style text without banners/macros/braces, each indented line's parent is the closest earlier non-comment, non-blank line with strictly smaller indent (itself if none); a comment directly below a deeper-indented line is left unattached; unindented lines are their own parents.",
  "all lists of lines with any indentation pattern", "all indentation sequences of any length; an incremental parent cache must never be stale",
  [M+":ConfigList._maintain_bootstrap_parent_cache",M+":ConfigList._build_bootstrap_parent_child",M+":ConfigList._add_child_to_parent"])
p("Parent and children links agree and form a forest",
  "c is listed in p.children exactly once iff c.parent is p and c is not p; children are in line order; a parent always precedes its child, so following parents terminates at a root.",
  "all parsed configurations", "graph invariant over all inputs",
  [M+":ConfigList.bootstrap_obj_init_ng",A+":BaseCfgLine.all_parents",A+":BaseCfgLine.all_children"])
p("Line numbers are positions",
  "After parsing, objs[i].linenum == i for every i.",
  "all parsed configurations", "all inputs incl. whitespace-only lines",
  [M+":ConfigList.bootstrap_obj_init_ng",M+":ConfigList.reassign_linenums"])
p("Comments and blank lines never own configuration",
  "A comment or blank line has no children and is never anybody's parent.",
  "all parsed configurations", "all inputs",
  [A+":BaseCfgLine.is_config_line",A+":BaseCfgLine.set_comment_bool",M+":ConfigList._build_bootstrap_parent_child"])
p("Banner bodies belong to the banner",
  "For a banner line with delimiter d not closed on the same line, exactly the following lines up to and including the first line containing d become its children, whatever their indentation, comments or blanks; lines after the banner are unaffected.",
  "all configurations with a banner, any body text", "all bodies",
  [M+":ConfigList._banner_mark_regex",M+":ConfigList._build_banner_re_ios"])
p("Macro bodies belong to the macro",
  "Lines after 'macro name X' up to and including the first '@' line become its children and blank lines in it are kept.",
  "all configurations with a macro", "all bodies; unterminated macros",
  [M+":ConfigList._macro_mark_children"])
p("commit() of unmodified configuration changes nothing",
  "Re-parsing (commit/atomic) right after parsing keeps the same texts, line numbers and parent/child structure.",
  "all parsed configurations", "all inputs",
  [M+":CiscoConfParse.commit",M+":CiscoConfParse.atomic",M+":ConfigList.bootstrap_obj_init_ng"])
p("Parsing never fails on text",
  "CiscoConfParse(lines) for syntax='ios' returns normally for every list of strings.",
  "all lists of strings", "totality over all inputs",
  [M+":assign_parent_to_closing_braces",M+":ConfigList._macro_mark_children",M+":ConfigList.bootstrap_obj_init_ng"])
# ---- queries
p("find_objects is sound, complete and in order",
  "find_objects(spec) returns exactly the objects whose text matches spec, each once, in configuration order; find_lines returns their texts; has_line_with is True iff it is non-empty.",
  "all configurations and all regexes", "all regex/config pairs",
  [M+":CiscoConfParse.find_objects",M+":CiscoConfParse.find_lines",M+":CiscoConfParse.has_line_with",M+":CiscoConfParse._find_line_OBJ"])
p("find_parent_objects returns exactly the matching parents with a matching child",
  "An object is returned iff it matches parentspec and one of its children (descendants if recurse) matches childspec; no duplicates, in order.",
  "all configurations and all pairs of regexes", "all triples",
  [M+":CiscoConfParse.find_parent_objects"])
p("With-child and without-child partition the matching parents",
  "find_parent_objects(p,c) and find_parent_objects_wo_child(p,c) are disjoint and together are exactly the parents matching p.",
  "all configurations and all regex pairs", "all triples",
  [M+":CiscoConfParse.find_parent_objects",M+":CiscoConfParse.find_parent_objects_wo_child"])
p("find_child_objects is the child-side view of find_parent_objects",
  "x is in find_child_objects(p,c) iff x matches c and its parent (some ancestor if recurse) matches p; there is a child result iff there is a parent result.",
  "all configurations and all regex pairs", "all triples",
  [M+":CiscoConfParse.find_child_objects"])
p("all_children / all_parents are the transitive closures of children / parent",
  "d in o.all_children iff o in d.all_parents iff following parent from d reaches o in >=1 steps; both are sorted by line and duplicate-free.",
  "all parsed configurations", "recursive traversals of arbitrary depth",
  [A+":BaseCfgLine.all_children",A+":BaseCfgLine.all_parents",A+":BaseCfgLine.lineage",A+":BaseCfgLine.geneology"])
p("A family is contiguous and self-contained",
  "For configurations without banners/macros/braces, the descendants of o are lines in o.linenum+1 .. o.family_endpoint and every configuration line in that interval is a descendant of o.",
  "all parsed configurations", "all indentation patterns",
  [A+":BaseCfgLine.family_endpoint",A+":BaseCfgLine.all_children"])
p("find_object_branches enumerates exactly the matching root-to-leaf paths",
  "Each returned branch is a chain o1>o2>...>ok of parent/child links whose i-th element matches the i-th spec; every such chain is returned; works for every branchspec length.",
  "all configurations and all branchspecs", "all depths",
  [M+":CiscoConfParse.find_object_branches"])
p("find_children_w_parents / find_parents_w_child agree with the object queries",
  "The text queries return the texts of the corresponding object queries in order.",
  "all configurations and regex pairs", "all triples",
  [M+":CiscoConfParse.find_children_w_parents",M+":CiscoConfParse.find_parents_w_child",M+":CiscoConfParse.find_parents_wo_child"])
# ---- mutation
p("Deleting an object removes exactly its family",
  "obj.delete() removes obj and all its descendants from the configuration and nothing else; the order and text of other lines is unchanged; line numbers equal positions afterwards.",
  "all configurations and all objects in them", "all trees, all positions",
  [A+":BaseCfgLine.delete"])
p("delete_lines removes only matching families",
  "delete_lines(spec) removes exactly the lines that match or descend from a matching line.",
  "all configurations and regexes", "nested matches in any pattern",
  [M+":CiscoConfParse.delete_lines"])
p("insert_before / insert_after insert next to every match exactly once",
  "After insert_before(spec,new) the text list is the old one with new placed immediately before each matching line and nothing else changed (similarly after).",
  "all configurations, regexes, new texts", "any number of matches, new text that matches too",
  [M+":CiscoConfParse.insert_before",M+":CiscoConfParse.insert_after",M+":ConfigList.insert_before",M+":ConfigList.insert_after"])
p("append_to_family puts the new line at the end of that family only",
  "obj.append_to_family(s) inserts s exactly once, right after obj's last descendant (after obj if it has none).",
  "all configurations and objects", "all trees, repeated texts",
  [A+":BaseCfgLine.append_to_family"])
p("Line numbers stay consistent under every edit history",
  "After any sequence of insert/delete/append/commit operations that succeed, every listed object's linenum is its position.",
  "all operation histories", "unbounded histories",
  [M+":ConfigList.reassign_linenums",A+":BaseCfgLine.delete",M+":ConfigList.insert_before",M+":ConfigList.insert_after"])
p("Replacement edits only matching lines",
  "replace_lines(spec, repl) leaves the number of lines and every non-matching (or excluded) line unchanged.",
  "all configurations, regexes and substitution functions", "all inputs",
  [M+":CiscoConfParse.replace_lines",A+":BaseCfgLine.re_sub"])
p("Object equality identifies lines of a configuration",
  "Two objects of one configuration compare equal only if they are the same line.",
  "all configurations, all pairs of lines", "a key-collision property over all pairs of line numbers and texts",
  [A+":BaseCfgLine.__eq__",A+":BaseCfgLine.__hash__"])
p("uncfgtext is the inverse command",
  "uncfgtext of 'X' is 'no X' and of 'no X' is 'X' at the same indentation; applying it twice returns the original command up to spacing.",
  "all lines", "all strings",
  [A+":BaseCfgLine.uncfgtext"])
# ---- junos
p("Junos brace conversion indents by nesting depth",
  "For a brace-structured Junos configuration, convert_junos_to_ios emits each statement at 4*depth spaces with braces and semicolons removed.",
  "all brace trees of any depth and width", "unbounded nesting",
  [M+":convert_junos_to_ios",M+":parse_line_braces"])
p("The Junos parse tree is the brace tree",
  "After parsing with syntax='junos', each statement's parent is the statement owning its enclosing brace.",
  "all brace trees", "unbounded nesting",
  [M+":CiscoConfParse.handle_ccp_brace_syntax",M+":convert_junos_to_ios",M+":ConfigList.bootstrap_obj_init_ng"])
p("Closing braces are matched with their opening line",
  "In brace text parsed line by line, each closing-brace line's parent is the line that opened the block; unbalanced closing raises.",
  "all balanced brace sequences", "unbounded nesting",
  [M+":assign_parent_to_closing_braces"])
# ---- diff
p("HDiff of identical configurations is empty and reports only true changes",
  "No +/- lines for equal configurations; every '+' line comes from after and has no counterpart path in before; every '-' line comes from before and has no counterpart path in after.",
  "all pairs of configurations", "all pairs",
  [M+":HDiff"])
p("Saving and re-reading a configuration is lossless",
  "CiscoConfParse(file written by save_as) has the same line texts as the original.",
  "all configurations", "all texts, line terminators",
  [M+":CiscoConfParse.save_as",M+":CiscoConfParse.read_config_file"])
p("fix_repeated_words cancels double negation and terminates",
  "For 'no' repeated k times in front of a command, the result has k mod 2 copies of the word (pairs cancel), the command and indentation are kept, and applying it again changes nothing.",
  "all strings", "all strings",
  [U+":fix_repeated_words"])
# ---- more queries
p("Family queries return whole families once, in order",
  "find_children(spec) returns the matching lines with their children and find_all_children(spec) the matching lines with all their descendants, each line once, in configuration order, even when matches are nested.",
  "all configurations and regexes", "nested and overlapping families of any depth",
  [M+":CiscoConfParse.find_children",M+":CiscoConfParse.find_all_children"])
p("find_objects_w_all_children and find_objects_w_missing_children are complementary",
  "A matching parent is in the first iff every spec of the list has a matching child, in the second iff some spec has none; each matching parent is in exactly one.",
  "all configurations, parent specs and lists of child specs", "lists of any length, all trees",
  [M+":CiscoConfParse.find_objects_w_all_children",M+":CiscoConfParse.find_objects_w_missing_children"])
p("A list of specs asks for a conjunction",
  "find_parent_objects([p,c1,..,cn]) returns exactly the parents matching p that have a matching child for every ci; find_child_objects([p,c1,..,cn]) returns the children matching one of them under such parents.",
  "all configurations and lists of specs", "lists of any length",
  [M+":CiscoConfParse.find_parent_objects",M+":CiscoConfParse.find_child_objects"])
p("lineage and geneology are the path through the tree",
  "geneology is the ancestors in order followed by the line; lineage is ancestors, line and descendants in order; find_lineage succeeds iff exactly one line matches.",
  "all configurations and lines", "trees of any depth",
  [A+":BaseCfgLine.lineage",A+":BaseCfgLine.geneology",M+":CiscoConfParse.find_lineage"])
p("find_blocks returns the matching lines, their siblings and all their ancestors",
  "find_blocks(spec) returns exactly the matching lines, the other children of their parents, and the ancestors of all those, each once and in order.",
  "all configurations and regexes", "trees of any depth",
  [M+":CiscoConfParse.find_blocks"])
p("siblings are the lines with the same parent and indent",
  "x is in obj.siblings iff x has the same parent as obj and the same indent; obj is its own sibling.",
  "all configurations and non-root lines", "all indentation patterns",
  [A+":BaseCfgLine.siblings"])
# ---- more edits
p("append_line and prepend_line add the given line",
  "append_line(t) makes t the last line and prepend_line(t) makes t the first line; every other line stays as it was.",
  "all configurations, edit histories and texts", "all histories and texts",
  [M+":CiscoConfParse.append_line",M+":CiscoConfParse.prepend_line",M+":ConfigList.insert"])
p("Inserting next to an object puts one line next to that object only",
  "obj.insert_before(t) (obj.insert_after(t)) adds one line with text t directly before (after) obj and leaves every other line as it was; insert_after_child inserts once after each matching child.",
  "all configurations, edit histories, objects and texts", "other lines may contain the object's text",
  [A+":BaseCfgLine.insert_before",A+":BaseCfgLine.insert_after",M+":CiscoConfParse.insert_after_child"])
p("commit re-establishes the tree after any edits",
  "After any sequence of edits, commit() keeps the line texts and gives every line the line number, indent and parent that parsing those texts would give it.",
  "all configurations and edit histories", "histories of any length",
  [M+":CiscoConfParse.commit",M+":CiscoConfParse.atomic",M+":ConfigList._bootstrap_from_text"])
p("replace_children replaces exactly the matching children of matching parents",
  "replace_children(p, c, r) replaces the text of exactly the lines that match c and are children of a line that matches p (for replace_all_children: descendants); everything else stays as it was.",
  "all configurations, regexes and replacements", "overlapping families, all trees",
  [M+":CiscoConfParse.replace_children",M+":CiscoConfParse.replace_all_children",A+":BaseCfgLine.re_sub"])
p("delete_children_matching removes exactly the matching children with their families",
  "obj.delete_children_matching(r) removes exactly the children of obj that match r, and everything below them.",
  "all configurations, objects and regexes", "families of any size",
  [A+":BaseCfgLine.delete_children_matching"])
p("The object list behaves like a list of lines",
  "objs.insert(k, t) makes t line k and shifts the later lines; del objs[k] removes line k and re-parses; out-of-range deletion raises IndexError; indices count from the end when negative.",
  "all configurations, edit histories, indices and texts", "all histories and indices",
  [M+":ConfigList.insert",M+":ConfigList.__delitem__"])
p("No part of an accepted interface name is silently dropped or moved",
  "When CiscoIOSInterface(name) is accepted, str() of the result is the name up to whitespace: no digit group, separator or sign of the name disappears or changes its place.",
  "all interface names",
  "all texts, not only well-formed ones",
  [U+":CiscoIOSInterface.parse_single_interface", U+":CiscoIOSInterface.parse_intf_short", U+":CiscoIOSInterface.parse_intf_long"])

p("HDiff reports every change, and every line once",
  "Every line (with its parents) that only one of the two configurations has is reported with + or -, every line that both have is reported without a sign, and no line with the same parents is reported twice.",
  "all pairs of configurations, all syntaxes", "all pairs",
  [M+":HDiff",M+":HDiff.compress_dict_diffs"])
p("HDiff keeps the order of the lines",
  "The kept and removed lines are reported in the order of before, the added lines in the order of after, each below its own parent.",
  "all pairs of configurations", "all pairs, any number of families",
  [M+":HDiff.compress_dict_diffs",M+":HDiff.dict_diffs"])
p("sync_diff of a compliant configuration is empty",
  "If the wanted lines are the present lines, sync_diff returns no commands, whatever linespec and uncfgspec are.",
  "all configurations, expressions and syntaxes", "all configurations",
  [M+":CiscoConfParse.sync_diff"])
p("sync_diff returns exactly the commands for the differences",
  "sync_diff returns a command for every line matching linespec that is missing and, if remove_lines, a 'no' command (or the positive form of a 'no' line) for every such line that is too much, and nothing else; it does not raise.",
  "all configurations, wanted lines and expressions", "all pairs, all expressions",
  [M+":CiscoConfParse.sync_diff",U+":fix_repeated_words"])
p("The commands of sync_diff can be entered as they are",
  "Every command for an indented line is preceded by the commands of its parents.",
  "all configurations, wanted lines and expressions", "all pairs",
  [M+":CiscoConfParse.sync_diff"])
p("The header of the unified diff counts the changes",
  "The line '@@ -a,b +c,d @@' gives the position of the first removed (added) line and the number of removed (added) lines of the diff below it, in this order.",
  "all pairs of configurations", "all pairs, repeated lines",
  [M+":HDiff.unified_diff_header"])

p("Typed search returns the first match or the default",
  "obj.re_match_iter_typed(rx, group, result_type, default) converts the group of the first match among the line and its descendants in order (its children with recurse=False) and returns the default without a match; an invalid expression raises; with groupdict the result has exactly the keys of groupdict, all with the default if nothing matches.",
  "all configurations, lines, expressions of the modelled regular expression language, groups and conversions", "all expressions and trees",
  [A+":BaseCfgLine.re_match_iter_typed",A+":BaseCfgLine.get_typed_dict"])
p("Numeric interface attributes are the configured numbers",
  "manual_mtu, manual_ip_mtu, manual_mpls_mtu, manual_bandwidth, manual_delay, manual_speed, manual_clock_rate, manual_holdqueue_in/out, manual_carrierdelay and manual_arp_timeout are the number in the first line of the interface that consists of the keywords and a number; the documented default (0, or -1) without such a line; the has_... attributes say whether there is one.",
  "all configurations and lines", "all texts of the lines, all blanks between words, any nesting",
  [MC+":BaseIOSIntfLine.manual_mtu",MC+":BaseIOSIntfLine.manual_bandwidth",MC+":BaseIOSIntfLine.manual_delay"])
p("Textual interface attributes are the configured words",
  "description, manual_encapsulation, manual_duplex, the access groups and vrf are the text (word) behind their keywords in the first line of the interface that has them, and empty otherwise.",
  "all configurations and lines", "all texts",
  [MC+":BaseIOSIntfLine.description",MC+":BaseIOSIntfLine.ipv4_accessgroup_in",MC+":BaseIOSIntfLine.vrf"])
p("Interface flags are true exactly if the line is there",
  "is_shutdown, has_mpls, has_manual_speed, has_no_icmp_unreachables, has_no_icmp_redirects, has_no_ip_proxyarp, has_ip_pim_sparse_mode, ... are true exactly if the interface has the corresponding line; 'no shutdown' does not count as shutdown.",
  "all configurations and lines", "all texts",
  [MC+":BaseIOSIntfLine.is_shutdown",MC+":BaseIOSIntfLine.has_no_icmp_redirects",MC+":BaseIOSIntfLine.has_ip_pim_sparse_mode"])
p("The IPv4 address attributes are the configured address and agree with each other",
  "ipv4_addr and ipv4_netmask are the address and mask of the first line 'ip address A M' (not secondary), empty for dhcp/negotiated; ipv4_addr_object is IPv4Obj(A/M).",
  "all configurations and lines", "all texts, any order of primary and secondary lines",
  [MC+":BaseIOSIntfLine.ipv4_addr",MC+":BaseIOSIntfLine.ipv4_netmask",MC+":BaseIOSIntfLine.ipv4_addr_object"])
p("Switch port attributes follow the switchport lines",
  "is_switchport is true exactly if a child of the interface starts with switchport; access_vlan and native_vlan are the configured numbers, 1 by default on a switch port and 0 elsewhere; the modes, CDP, port security, trunk encapsulation and DTP attributes are true exactly if the lines are there; none of them raises.",
  "all configurations and interface lines", "all texts",
  [MC+":BaseIOSIntfLine.is_switchport",MC+":BaseIOSIntfLine.access_vlan",MC+":BaseIOSIntfLine.has_dtp"])

p("The HSRP attributes are those of the standby lines",
  "hsrp_ip_addr, hsrp_ip_mask, hsrp_group, hsrp_priority, hsrp_hello_timer, hsrp_hold_timer and hsrp_authentication_md5_keychain are the values of the first 'standby [group] ...' line of the interface that has them and the documented default otherwise (priority 100 with, 0 without an HSRP address); has_ip_hsrp, has_hsrp_usebia, has_hsrp_preempt and has_hsrp_authentication_md5 are true exactly if the line is there; none of them raises.",
  "all configurations and lines", "all texts, with and without a group number, any order",
  [MC+":BaseIOSIntfLine.hsrp_ip_addr",MC+":BaseIOSIntfLine.hsrp_priority",MC+":BaseIOSIntfLine.has_hsrp_preempt"])

p("factory=True gives each line the class it belongs to",
  "With factory=True an IOS line becomes an interface object exactly if its first word is interface, a route object exactly if it starts with 'ip route ' or 'ipv6 route ', an access line object for line..., a hostname object for hostname..., an AAA object for its three keywords, and an ordinary line otherwise; a line belongs to one of these classes only; the only exception is ValueError, for routes and AAA server groups.",
  "all texts of a line", "all texts, overlapping keywords",
  [M+":config_line_factory",MC+":IOSCfgLine.is_object_for",MC+":IOSRouteLine.is_object_for"])
p("factory=True changes the classes of the objects, not the tree",
  "If CiscoConfParse(lines, factory=True) succeeds, its objects have the same texts, order, parents and children as with factory=False, and the object of each line has the class that the factory gives this line.",
  "all lists of lines and options (empty lines aside if blank lines are ignored)", "all configurations",
  [M+":ConfigList",M+":config_line_factory"])
p("Static route attributes are what the command says",
  "For a static IPv4 route as IOS writes it, with any combination of the optional parameters, vrf, network, netmask, network_object, masklen, next_hop_interface, next_hop_addr, global_next_hop, admin_distance, multicast, route_name, permanent, tracking_object_name and tag are those of the command (or the documented defaults).",
  "all combinations of parameters and all values", "2^11 combinations of parameters with unbounded values",
  [MC+":IOSRouteLine",MC+":_RE_IP_ROUTE"])
p("factory=True accepts what factory=False accepts",
  "A configuration that parses with factory=False also parses with factory=True; a command mentioned inside another line (a description) does not change the class of the line.",
  "all configurations", "all configurations",
  [M+":config_line_factory",MC+":IOSRouteLine",MC+":IOSAaaGroupServerLine",MC+":IOSIntfGlobal.is_object_for"])
p("Route attributes do not depend on spelling",
  "nexthop_str is the next hop of the command; the attributes are the same with several blanks between the words, with the parameters in any order that IOS accepts, for IPv6 routes, and with next hops learned from DHCP.",
  "all static routes", "all spellings",
  [MC+":IOSRouteLine.nexthop_str",MC+":IOSRouteLine.network",MC+":_RE_IPV6_ROUTE"])

p("Host names and access lines are read as they are written",
  "hostname is the second word of the hostname line; for an access line, name is the second word (empty if it is a number), line_range and range_str are the one or two numbers behind the words, and parse_exectimeout gives the numbers of the first exec-timeout line among the line and its children.",
  "all lines and configurations", "all texts and numbers",
  [MC+":IOSHostnameLine.hostname",MC+":IOSAccessLine.name",MC+":IOSAccessLine.line_range",MC+":IOSAccessLine.parse_exectimeout"])
p("Minutes, seconds and three-part numbers of access lines",
  "manual_exectimeout_minutes and manual_exectimeout_seconds are the two numbers of exec-timeout; line_range of 'line s/p/n' has the complete numbers.",
  "all configurations", "all configurations",
  [MC+":IOSAccessLine.manual_exectimeout_minutes",MC+":IOSAccessLine.line_range"])
p("The kind of an interface follows from its line",
  "is_intf, is_subintf, is_loopback_intf, is_ethernet_intf and is_virtual_intf depend only on the words of the interface line in the documented way; portchannel_number is the number of the first channel-group line and -1 otherwise, in_portchannel says that there is one; the flags of global default lines are true exactly for these commands; none of them raises.",
  "all lines and configurations", "all texts",
  [MC+":BaseIOSIntfLine.is_intf",MC+":IOSCfgLine.is_virtual_intf",MC+":IOSCfgLine.portchannel_number",MC+":IOSIntfGlobal"])
p("Names and numbers of interfaces are taken apart correctly",
  "For a line 'interface TYPE[ ]NUMBER words...', port_type is TYPE, interface_number is NUMBER without the subinterface, subinterface_number is NUMBER, name is the rest of the line with single blanks; is_abbreviated_as(v) is true exactly if v is some first letters of TYPE, at most one blank, and NUMBER, without regard to case; interface_object, port and ordinal_list have the numbers of the interface; a line that is no interface has no interface object.",
  "all interface lines (types of letters and hyphens, numbers of any shape, any further words)", "all names and numbers",
  [MC+":BaseIOSIntfLine.interface_object",MC+":BaseIOSIntfLine.port_type",MC+":BaseIOSIntfLine.interface_number",MC+":BaseIOSIntfLine.subinterface_number",MC+":BaseIOSIntfLine.is_abbreviated_as",MC+":BaseIOSIntfLine.ordinal_list"])
p("Classes of interfaces and irregular spellings",
  "interface_object keeps the class of 'interface Serial1/0.25 point-to-point'; the number of an interface does not depend on the number of blanks before the class; interface_number never contains the subinterface.",
  "all interface lines", "all spellings",
  [MC+":BaseIOSIntfLine.interface_object",MC+":BaseIOSIntfLine.interface_number"])

p("IPv6 addresses survive being written and read",
  "IPv6Obj(text) reads every RFC 4291 text of an address (eight groups of one to four hexadecimal digits of either case, or fewer around one '::') as that address, alone, with '/length' or with a blank and the length. as_cidr_addr, as_cidr_net and compressed write the address or network as RFC 5952 recommends (lower case, no needless zeros, the first of the longest runs of two or more zero groups as '::') and the prefix length; exploded, as_hex_tuple and as_binary_tuple write the eight groups with a fixed number of digits. Reading back what as_cidr_addr writes gives an equal object, reading as_cidr_net gives the network, reading exploded gives the address. Two objects are equal exactly if the texts from which their hashes are made agree.",
  "all addresses, all prefix lengths, all texts of every address",
  "There are 2^128 addresses with many texts each; the expression that finds the address has eleven alternatives that are tried in order.",
  [U+":IPv6Obj", U+":_RGX_IPV6ADDR", U+":IPv6Obj.as_cidr_addr", U+":IPv6Obj.exploded"])
p("Only texts of IPv6 addresses are taken for addresses",
  "If IPv6Obj(text) succeeds then the text, with blanks as slash, is a text of the address of the object, with or without one mask length.",
  "all texts",
  "The set of texts is infinite; accepting a wrong text silently gives another address.",
  [U+":IPv6Obj", U+":_RGX_IPV6ADDR"])

p("IPv6 addresses that end with a dotted IPv4 address are read",
  "IPv6Obj accepts a text whose last two groups are written as a dotted IPv4 address (RFC 4291, form 3, with all groups or with one ::), alone, with /length or with a blank and the length, and has the address, the prefix length and the network that the text denotes.",
  "all numbers of groups before and after ::, all groups of one to four hexadecimal digits, all IPv4 addresses, all prefix lengths",
  "2^128 addresses times all positions of :: ; the expression has eleven alternatives of which an earlier one may read a prefix of the text",
  [U+":IPv6Obj", U+":_RGX_IPV6ADDR"])

p("The views of an address agree with its network",
  "netmask has ones exactly in the first prefixlen places, hostmask and inverse_netmask exactly in the others; network is the network of the object; broadcast (IPv4) is its last address; iterating over the object visits every address of the network once in ascending order; int(), as_int and as_hex are the address; as_zeropadded_network is the network with three digits for each octet; is_multicast, is_reserved, is_link_local, is_site_local and is_unspecified hold exactly if all addresses of the network are of that class.",
  "all IPv4 and IPv6 objects a program can obtain",
  "2^32 and 2^128 addresses times all prefix lengths; a class test that looks at one end only passes most tests",
  [U+":IPv4Obj.netmask", U+":IPv4Obj.broadcast", U+":IPv4Obj.__iter__", U+":IPv4Obj.as_hex", U+":IPv6Obj.hostmask", U+":IPv6Obj.is_multicast"])
p("ip_factory accepts exactly the IPv4 texts",
  "ip_factory(text, mode='ipv4') succeeds exactly for a dotted quad, alone or followed by a slash and a mask (digits up to 32, a dotted netmask or a dotted hostmask), and returns the object with that address and prefix length; with stdlib=True it returns that address if the length is 32 and else that network. The default mode chooses IPv6 exactly if the text has a colon; another mode is refused; in the three modes every failure is an AddressValueError.",
  "all texts, all modes", "the texts are infinitely many; the mask is read by two parsers that must agree",
  [U+":ip_factory", U+":_get_ipv4"])
p("ip_factory accepts exactly the IPv6 texts",
  "ip_factory(text, mode='ipv6') succeeds exactly for the texts of an IPv6 address, alone or followed by a slash and a mask length up to 128, and returns the object (with stdlib=True the address or network) with that address and length.",
  "all texts", "the texts are infinitely many; the text is read by two parsers that must agree",
  [U+":ip_factory", U+":_get_ipv6"])
p("IPv4Obj reads exactly these texts",
  "IPv4Obj(text) succeeds exactly if the text without blanks at its ends is a dotted quad alone, a dotted quad, a slash and a mask (digits, netmask or hostmask), or a dotted quad, blanks and a dotted mask; the object has that address, prefix length and network.",
  "all texts", "the set of texts is infinite; accepting a wrong text silently gives another address",
  [U+":IPv4Obj", U+":_RGX_IPV4ADDR_WITH_MASK"])

p("A search with a text finds exactly the lines that have it",
  "find_objects and find_lines with a plain text return exactly the lines that contain it; with exactmatch=True the lines equal to it; with a pattern of characters, escaped characters, ., \\d, \\s, \\S, \\w, each possibly with +, * or ?, and ^ and $ at its ends, exactly the lines with a part of that form at the place the anchors demand (exactmatch: of that form as a whole). In line order, each line once.",
  "all configurations, all plain texts and all patterns of this form", "infinitely many texts and patterns; a greedy search without the right backtracking passes most tests",
  [M+":CiscoConfParse.find_objects", M+":CiscoConfParse.find_lines", M+":CiscoConfParse._find_line_OBJ"])
p("ignore_ws makes runs of blanks equal",
  "With ignore_ws=True a search finds exactly the lines that the specification stands for if every run of blanks in it may be any nonempty run of whitespace in the line; for a plain text with exactmatch=True: the lines with the same words.",
  "all configurations, all plain texts and simple patterns", "infinitely many texts, patterns and spacings",
  [M+":build_space_tolerant_regex", M+":CiscoConfParse.find_objects"])
p("exactmatch demands the whole line for every expression",
  "find_objects(spec, exactmatch=True) returns only lines that the expression matches from the first to the last character.",
  "all configurations, all regular expressions", "the expressions are infinitely many, and the anchors are added to their texts",
  [M+":CiscoConfParse.find_objects", M+":CiscoConfParse._find_line_OBJ"])
p("Searches for parents and children with plain texts",
  "find_parent_objects(p, c) returns exactly the lines that contain p and have a child (recurse=True: a descendant) that contains c; find_parent_objects_wo_child exactly the other lines that contain p; find_child_objects exactly the children (descendants) that contain c of lines that contain p. In line order, each line once.",
  "all configurations (for descendants and find_child_objects without the texts that make two children equal), all plain texts, c not empty", "infinitely many configurations and texts",
  [M+":CiscoConfParse.find_parent_objects", M+":CiscoConfParse.find_parent_objects_wo_child", M+":CiscoConfParse.find_child_objects"])
p("escape_chars makes any text a plain text",
  "With escape_chars=True, find_parent_objects and find_child_objects take their specifications as plain texts whatever characters they contain, also together with ignore_ws=True.",
  "all configurations, all texts", "the special characters may stand anywhere in the texts",
  [M+":CiscoConfParse.find_parent_objects", M+":CiscoConfParse.find_child_objects"])

p("req_cfgspec_all_diff returns the required lines that are missing",
  "req_cfgspec_all_diff(required) returns, in their order, exactly the required lines that are not a line of the configuration; blanks at the ends of lines do not count.",
  "all configurations, all lists of required lines", "infinitely many configurations and requirements; a missing line that is not reported is never configured",
  [M+":CiscoConfParse.req_cfgspec_all_diff"])
p("req_cfgspec_all_diff with ignore_ws compares words",
  "req_cfgspec_all_diff(required, ignore_ws=True) returns, in their order, exactly the required lines for which no line of the configuration has the same words.",
  "all configurations, all lists of required lines", "the texts and their spacings are infinitely many",
  [M+":CiscoConfParse.req_cfgspec_all_diff", M+":build_space_tolerant_regex"])
p("req_cfgspec_excl_diff removes what is not allowed and adds what is missing",
  "req_cfgspec_excl_diff(linespec, uncfgspec, allowed) returns, in line order, for each line that matches linespec and is none of the allowed lines, its ancestors as they are and 'no' with what uncfgspec finds in it, indented as the line; then, in their order, the allowed lines that the configuration does not have. A line in which uncfgspec finds nothing raises an error.",
  "all configurations, all expressions, all lists of allowed lines", "the trees and the overlapping ancestors are infinitely many; a command without its parent is applied to another object",
  [M+":CiscoConfParse.req_cfgspec_excl_diff", M+":CiscoConfParse._unique_OBJ", A+":BaseCfgLine.add_uncfgtext"])
p("child_indent is the indentation of the last child",
  "child_indent of a line is the indentation of its last child, and 0 for a line without children.",
  "all configurations", "the nesting depth is unbounded",
  [A+":BaseCfgLine.child_indent"])
p("Searches from the top of the configuration",
  "CiscoConfParse.re_search_children(rx) returns exactly the matching lines without a parent, with recurse=True exactly all matching lines, in line order. CiscoConfParse.re_match_iter_typed returns the converted group of the first line without a parent that matches, and the default (converted unless untyped_default) if there is none.",
  "all configurations, all expressions, result types and defaults", "infinitely many configurations; the first match may be at any place",
  [M+":CiscoConfParse.re_search_children", M+":CiscoConfParse.re_match_iter_typed"])

p("find_interface_objects finds the interface that a text abbreviates",
  "With factory=True, find_interface_objects(text) returns the first interface line whose name the text abbreviates (a nonempty beginning of the type, capital letters or not, perhaps one blank, and the whole number), and an empty list if there is none. Without factory=True it raises ValueError; with exactmatch=False or a syntax with braces NotImplementedError.",
  "all configurations, all texts", "the configurations, interface names and abbreviations are infinitely many; a wrong abbreviation finds another interface",
  [M+":CiscoConfParse.find_interface_objects", MC+":BaseIOSIntfLine.abbvs"])
p("find_objects_dna finds lines by the name of their class",
  "With factory=True, find_objects_dna(text) with a plain text returns exactly the lines whose class has a name that contains the text, with exactmatch=True exactly the lines of the class with this name, in line order. Without factory=True it raises ValueError.",
  "all configurations, all plain texts", "infinitely many configurations; each line is classified by its own text",
  [M+":CiscoConfParse.find_objects_dna", A+":BaseCfgLine.dna"])

p("Names of IOS XR interfaces are read and written",
  "CiscoIOSXRInterface reads names with slot/card/processor/port (card and processor are any letters and digits), slot/port, and port with an optional subinterface, channel and class, whatever white text is around the name or in front of the numbers; str() gives the same name without that white text.",
  "all prefixes, numbers, words and white texts", "the names are infinitely many; the parser reads them with an expression of nine groups, most of them optional",
  [U+":CiscoIOSXRInterface.parse_single_interface", U+":CiscoIOSXRInterface.parse_intf_long", U+":CiscoIOSXRInterface.parse_intf_short", U+":CiscoIOSXRInterface.render_as_string"])
p("No part of the name of an IOS XR interface is lost",
  "CiscoIOSXRInterface keeps the subinterface, channel and class behind slot/card/processor/port, and reads slot/card/port; str() writes every interface that was read.",
  "all names that the parser accepts", "the names are infinitely many",
  [U+":CiscoIOSXRInterface.parse_intf_long", U+":CiscoIOSXRInterface.number"])
p("IOS XR interfaces compare part by part",
  "Two CiscoIOSXRInterface objects are equal exactly when the prefix and all parts are, and equal ones have the same hash; < is a strict order by slot, card, processor, port, subinterface, channel and class, > is < turned around, the order of numbers is the numerical one, and any two interfaces compare.",
  "all pairs and triples of interfaces", "transitivity and totality range over all triples and pairs",
  [U+":CiscoIOSXRInterface.__eq__", U+":CiscoIOSXRInterface.__lt__", U+":CiscoIOSXRInterface.__gt__", U+":CiscoIOSXRInterface.__hash__", U+":CiscoIOSXRInterface.sort_list"])
p("Copies of IOS XR interfaces",
  "from_dict(as_dict()) of a CiscoIOSXRInterface gives the same interface, and so does the constructor with another interface or with such a dictionary.",
  "all interfaces that the parser returns, all dictionaries", "the interfaces are infinitely many",
  [U+":CiscoIOSXRInterface.from_dict", U+":CiscoIOSXRInterface.as_dict", U+":CiscoIOSXRInterface.check_interface_dict", U+":CiscoIOSXRInterface.update_internal_state"])

MA = "ciscoconfparse/models_asa.py"
p("The dictionaries of an ASA configuration",
  "With syntax='asa', names maps each name to the address on the last name line for it, object_group_network maps each name to the last object-group network line with it, and access_list maps each name to all access-list lines with it, in their order; the dictionaries have no other keys. With another syntax the attributes raise.",
  "all configurations", "the value of a key depends on which of arbitrarily many lines is the last one",
  [M+":ConfigList.names", M+":ConfigList.object_group_network", M+":ConfigList.access_list"])
p("The classes of ASA objects",
  "With factory=True and syntax='asa', each line gets an object of exactly one class, determined by the words that the line begins with; the texts, parents and children are those of factory=False; ValueError is raised only for name and access-list lines, and for a name line exactly if it is not name, an address, one blank and a name.",
  "all lines and all configurations", "the classes are tried one after the other; that the tests exclude each other has to hold for every line",
  [M+":config_line_factory", MA+":ASAName.is_object_for", MA+":ASAObjGroupNetwork.is_object_for", MA+":ASAIntfLine.is_object_for", MA+":ASAName.__init__"])
p("factory=True reads what factory=False reads, for ASA",
  "A configuration that CiscoConfParse(syntax='asa', factory=False) reads is read with factory=True as well.",
  "all configurations", "the constructors of some classes raise, and one such line stops the whole parse",
  [M+":config_line_factory", MA+":ASAName.__init__", MA+":ASAAclLine.__init__"])
p("The networks of an object group",
  "network_strings of an ASA network group is the list of the hosts and networks on its lines, in their order: names are replaced by the addresses of names, a host mask gives a host, description lines give nothing, and a group-object line gives the list of that group at this place; network_count is its length. If a line is of another form, or a group is unknown or contains itself directly or through other groups, an exception is raised.",
  "all configurations, with groups nested to any depth", "the groups refer to each other to any depth and in cycles; the result is defined by recursion over the configuration",
  [MA+":ASAObjGroupNetwork.network_strings", MA+":ASAObjGroupNetwork.network_count", MA+":ASAObjGroupNetwork.name"])
p("Every network group can be expanded",
  "network_strings gives a result for each network group that an ASA accepts.",
  "all configurations", "the forms of the lines are infinitely many",
  [MA+":ASAObjGroupNetwork.network_strings", M+":ConfigList.object_group_network"])
p("The cache of network objects is not visible",
  "networks of an ASA network group is the list of IPv4Obj(s) for s in network_strings, and raises what the first failing one raises, whatever evaluations of networks of whatever groups came before, with or without exceptions.",
  "all configurations and all histories of evaluations", "the cache is shared by all groups of a configuration and its contents depend on the history",
  [MA+":ASAObjGroupNetwork.networks"])

p("The ports of a service object group",
  "name, protocol type and directionality of an ASA service group are those of its line; ports is the list of the L4Objects of its lines, in their order: a port-object line gives one object of the group's protocol with its operator and ports, a service-object line one of its own protocol with the word behind source or destination, tcp-udp gives two objects, a description line none; with any other line ports raises.",
  "all service groups, with any number of lines", "a line is read by an expression with three alternatives that itself contains alternatives with common beginnings (tcp, tcp-udp); that the right one is taken has to hold for every line",
  [MA+":ASAObjGroupService.ports", MA+":ASAObjGroupService.__init__", MA+":_RE_PORTOBJECT"])
p("The ports of every service group can be read",
  "ports gives a result for each service group that an ASA accepts, and it contains exactly the ports that the lines of the group allow.",
  "all service groups", "the forms of the lines and the numbers are unboundedly many",
  [MA+":ASAObjGroupService.ports", U+":L4Object"])

p("The attributes of an ASA access list line",
  "For every ASA access-list line whose object could be created, result_dict raises nothing, and what it says (the name of the list, the action, the number of the protocol or the group of services, the kinds of the source and the destination, the remark, log with its level and interval, disable, the time range) is a reading of the words of the line.",
  "all lines", "the expression has five alternatives and 82 groups, and the attributes are picked from more than sixty of them; each combination of the parts of a line is another case",
  [MA+":ASAAclLine.result_dict", MA+":ASAAclLine.ip_protocol", MA+":ASAAclLine.src_addr_method", MA+":ASAAclLine.dst_addr_method", MA+":_RE_ACLOBJECT"])
p("Which ASA access list lines are accepted",
  "The object for an ASA access-list line is created if and only if the line begins with no blank and its words are those of a remark, an extended list, a standard list or a list for ICMP; for every other line ValueError is raised.",
  "all lines", "the lines are infinitely many, and a line is refused only if each of five alternatives fails in every way",
  [MA+":ASAAclLine.__init__", MA+":_RE_ACLOBJECT"])
p("The attributes of an ASA access list line for ICMP",
  "For each ASA access-list line for ICMP the attributes log, log_interval, log_level, disable and time_range are those the words behind the destination and the type of message say.",
  "all lines for ICMP", "this part of the expression is not anchored at the end of the line: which of several matches is taken decides whether the words are seen",
  [MA+":ASAAclLine.result_dict", MA+":_RE_ACLOBJECT"])

MJ = "ciscoconfparse/models_junos.py"
p("The interfaces of a Junos document",
  "In a parsed Junos document, is_intf is True exactly for the statements directly inside a top level block 'interfaces' and those one level deeper; the name of the former is their statement, the name of the latter that of the interface, a blank and the statement; other lines have no name; is_switchport is True exactly for the interfaces that have a statement with 'family ethernet-switching' inside, at any depth.",
  "all brace documents of any depth", "a statement is found by its ancestors and descendants in a tree of any shape",
  [MJ+":JunosCfgLine.is_intf", MJ+":JunosCfgLine.name", MJ+":JunosCfgLine.is_switchport"])
p("The kinds of Junos interfaces",
  "is_subintf is True for the units of an interface and for no other line; is_loopback_intf, is_ethernet_intf and is_virtual_intf are True for the interfaces whose name says so.",
  "all brace documents", "the names are arbitrary",
  [MJ+":JunosCfgLine.is_subintf", MJ+":JunosCfgLine.is_loopback_intf", MJ+":JunosCfgLine.is_ethernet_intf", MJ+":JunosCfgLine.is_virtual_intf"])
p("The HSRP groups of an interface",
  "hsrp_interfaces lists, in increasing order and once each, the numbers of the groups for which the interface has a 'standby <number> ip' line, and raises nothing.",
  "all interfaces", "lines that mention the words elsewhere are arbitrary; order and absence of repetitions have to hold for any number of groups",
  [MC+":BaseIOSIntfLine.hsrp_interfaces", MC+":HSRPInterfaceGroup.__init__", MC+":HSRPInterfaceGroup.__eq__", MC+":HSRPInterfaceGroup.__hash__"])
p("The attributes of an HSRP group",
  "priority, version, preempt, ip, ipv6, has_ipv6, hello_timer, hold_timer, use_bia and interface_name of a group are what the first line for it, read in small letters, says; without a line they are 100, 1, False, (an error), '', False, 3, 10 and False.",
  "all interfaces, groups and lines", "the lines of other groups and other attributes in front are arbitrary",
  [MC+":HSRPInterfaceGroup.priority", MC+":HSRPInterfaceGroup.version", MC+":HSRPInterfaceGroup.preempt", MC+":HSRPInterfaceGroup.ipv4", MC+":HSRPInterfaceGroup.ipv6", MC+":HSRPInterfaceGroup.hello_timer", MC+":HSRPInterfaceGroup.hold_timer"])
p("The remaining attributes of an HSRP group",
  "preempt_delay is the number in the 'standby <group> preempt delay minimum' line, ip is the address also in a line that ends in 'secondary' and raises ValueError without a line, authentication_md5_keychain is the key chain configured for the group.",
  "all interfaces and groups", "they are claims about every configuration; a test shows one",
  [MC+":HSRPInterfaceGroup.preempt_delay", MC+":HSRPInterfaceGroup.ipv4", MC+":HSRPInterfaceGroup.authentication_md5_keychain", MC+":HSRPInterfaceGroup.has_authentication_md5"])
p("The interfaces an HSRP group tracks",
  "get_hsrp_tracking_interfaces lists the names and decrements of the 'standby <group> track <name> [<decrement>]' lines of the group in their order, with 10 where no decrement is given, and raises nothing; has_hsrp_track tells whether there are any.",
  "all interfaces, groups, names and decrements", "the expression has a lazy part followed by a repeated optional one; where the name ends has to be right for every name",
  [MC+":HSRPInterfaceGroup.get_hsrp_tracking_interfaces", MC+":TrackingInterface.decrement", MC+":TrackingInterface.name", MC+":HSRPInterfaceGroup.has_hsrp_track"])


p("Configurations are equal if they have the same lines",
  "For two configurations whose line numbers are positions (every parse without dropped blank lines, and every history of careful edits), objs == objs2 is True if and only if they have the same lines in the same order.",
  "all pairs of configurations and histories", "the lists have any length, and the comparison goes by the line numbers and texts of objects of different parses",
  [M+":ConfigList.__eq__", M+":ConfigList.__cast", A+":BaseCfgLine.__eq__"])
p("The order of configurations",
  "<, <=, > and >= between two configurations raise nothing; < holds if the lines of the first are the first lines of the second, which has more; > is < the other way round; <= is < or ==, and >= is > or ==.",
  "all pairs of configurations", "an order is a claim about all pairs",
  [M+":ConfigList.__lt__", M+":ConfigList.__le__", M+":ConfigList.__gt__", M+":ConfigList.__ge__", A+":BaseCfgLine.__lt__", A+":BaseCfgLine.__gt__"])
p("Elements, parts, sums and copies of a configuration list",
  "objs[k] is line k, or the one counted from the end, and raises IndexError if there is none; objs[a:b:c] is the list of the selected lines; objs + other, other + objs, objs * k and objs.copy() are the lists of these lines; copy.copy(objs) is a new list of the same objects.",
  "all configurations, indices, slices and operands", "bounds and steps are arbitrary integers",
  [M+":ConfigList.__getitem__", M+":ConfigList.__add__", M+":ConfigList.__radd__", M+":ConfigList.__mul__", M+":ConfigList.copy", M+":ConfigList.__copy__", M+":ConfigList.__init__"])
p("The list finds its own lines",
  "For the object at position k of a configuration, index is k, count is 1, in is True, and remove takes out this line and nothing else; for a string, which is no line object, in is False, and index and remove raise ValueError.",
  "all configurations and lines", "objects compare by number and text together, so that a different line can be taken for the one given",
  [M+":ConfigList.index", M+":ConfigList.count", M+":ConfigList.remove", M+":ConfigList.__iter__", A+":BaseCfgLine.__eq__"])
p("Changes of the list keep it usable",
  "pop, reverse, sort and append change the list like a Python list; afterwards the line numbers are the positions, deleting an object deletes the line of this object, and searches work.",
  "all configurations and changes", "what goes wrong depends on the edits that follow",
  [M+":ConfigList.pop", M+":ConfigList.reverse", M+":ConfigList.sort", M+":ConfigList.append", M+":ConfigList.has_line_with", A+":BaseCfgLine.delete"])
p("The lines at the left margin",
  "config_hierarchy returns the lines that begin without a blank and are no comments, in order, split into those with and those without children; iter_with_comments(b) yields the lines from position b on, iter_no_comments(b) those of them that are no comments; all_parents are the lines with children.",
  "all configurations", "the lines and their tree are arbitrary",
  [M+":ConfigList.config_hierarchy", M+":ConfigList.iter_no_comments", M+":ConfigList.iter_with_comments", M+":ConfigList.all_parents"])
p("config_hierarchy lists the top of the tree",
  "The lines that config_hierarchy returns are those that have no parent and are no comments.",
  "all configurations", "banners, macros and braces give parents to lines that are not indented",
  [M+":ConfigList.config_hierarchy"])

MN="ciscoconfparse/models_nxos.py"
p("Numbers of an NXOS interface",
  "manual_speed, manual_bandwidth, manual_delay, manual_mtu, vpc and fex_associate_chassis_id are the number in the first line of the interface that consists of the keywords and a number, and 0 without such a line; access_vlan and native_vlan likewise, with 1 as the default of a switch port.",
  "all configurations parsed with syntax nxos and all interfaces", "any number of lines, blanks and digits; near misses such as a second word behind the number must not count",
  [MN+":BaseNXOSIntfLine.manual_speed", MN+":BaseNXOSIntfLine.manual_bandwidth", MN+":BaseNXOSIntfLine.manual_mtu", MN+":BaseNXOSIntfLine.vpc", MN+":BaseNXOSIntfLine.access_vlan", MN+":BaseNXOSIntfLine.native_vlan"])
p("Texts of an NXOS interface",
  "description is the text behind the first line's keyword description; the spanning-tree link and port types are the text behind their keywords; vrf is the word behind vrf member.",
  "all configurations parsed with syntax nxos and all interfaces", "the texts are arbitrary, and the shortest ones are the ones that are missed",
  [MN+":BaseNXOSIntfLine.description", MN+":BaseNXOSIntfLine.vrf", MN+":BaseNXOSIntfLine.manual_stp_link_type", MN+":BaseNXOSIntfLine.manual_stp_port_type"])
p("Flags of an NXOS interface",
  "is_switchport is true exactly if the first word of some line of the interface begins with switchport; manual_beacon, has_mpls and has_manual_switch_trunk exactly if some line consists of the keywords; has_manual_disable_cdp exactly if some line starts with no cdp enable.",
  "all configurations parsed with syntax nxos and all interfaces", "any lines and any blanks",
  [MN+":BaseNXOSIntfLine.is_switchport", MN+":BaseNXOSIntfLine.manual_beacon", MN+":BaseNXOSIntfLine.has_mpls", MN+":BaseNXOSIntfLine.has_manual_switch_trunk", MN+":BaseNXOSIntfLine.has_manual_disable_cdp"])
p("Switch port modes, port security and MAC access groups of an NXOS interface",
  "has_manual_switch_access, has_manual_switch_fex_fabric and has_switch_portsecurity are true exactly if some line consists of the keywords; mac_accessgroup_in and mac_accessgroup_out are the word in the first line mac access-group W in (out).",
  "all configurations parsed with syntax nxos and all interfaces", "any lines and any number of blanks between the words",
  [MN+":BaseNXOSIntfLine.has_manual_switch_access", MN+":BaseNXOSIntfLine.has_manual_switch_fex_fabric", MN+":BaseNXOSIntfLine.has_switch_portsecurity", MN+":BaseNXOSIntfLine.mac_accessgroup_in"])
p("The address line of an NXOS interface",
  "ipv4_addr and ipv4_masklength are the address and the length of the first line ip address A/L (or A /L); lines with more words, such as secondary, do not count; without such a line they are empty and 0. With a line ip address dhcp, ipv4_addr raises the exception about dynamic addresses.",
  "all configurations parsed with syntax nxos and all interfaces", "any lines in any order, any blanks; the mask length comes from another expression than the address, and both must read the same line",
  [MN+":BaseNXOSIntfLine.ipv4_addr", MN+":BaseNXOSIntfLine.ipv4_masklength"])
p("Address objects of an NXOS interface",
  "With a valid address line A/L, ipv4_addr_object and ip_network_object are the address A with mask length L, ipv4_netmask is the mask of L and has_no_ipv4 is False; otherwise the objects are 0.0.0.1/32, the netmask is empty and has_no_ipv4 is True; with ip address dhcp they all raise the exception about dynamic addresses.",
  "all configurations parsed with syntax nxos and all interfaces", "2^32 addresses and 33 lengths, plus all texts that only look like an address",
  [MN+":BaseNXOSIntfLine.ipv4_addr_object", MN+":BaseNXOSIntfLine.ip_network_object", MN+":BaseNXOSIntfLine.ipv4_netmask", MN+":BaseNXOSIntfLine.has_no_ipv4"])
p("Membership of an NXOS interface in subnets",
  "in_ipv4_subnet(s) is True exactly if every address of the interface's network is in the subnet; in_ipv4_subnets(ss) exactly if that holds for some member of ss; without an address both are None.",
  "all configurations, interfaces and subnets", "all pairs of networks, and sets of any size including the empty one",
  [MN+":BaseNXOSIntfLine.in_ipv4_subnet", MN+":BaseNXOSIntfLine.in_ipv4_subnets"])
p("Flags of an NXOS interface with an address",
  "has_no_icmp_unreachables, has_no_icmp_redirects, has_no_ip_proxyarp and the three PIM modes are true exactly if the interface has an address and the line; manual_arp_timeout is the number in the first line arp timeout N, or 0, and -1 without an address.",
  "all configurations parsed with syntax nxos and all interfaces", "any lines and any blanks",
  [MN+":BaseNXOSIntfLine.has_no_icmp_unreachables", MN+":BaseNXOSIntfLine.has_no_icmp_redirects", MN+":BaseNXOSIntfLine.has_no_ip_proxyarp", MN+":BaseNXOSIntfLine.has_ip_pim_sparse_mode", MN+":BaseNXOSIntfLine.manual_arp_timeout"])

p("DHCP relay addresses of an NXOS interface",
  "ip_helper_addresses lists, in order, the addresses of the lines ip dhcp relay address A with the VRF of the interface, and has_ip_helper_addresses is true exactly if the list is not empty.",
  "all configurations parsed with syntax nxos and all interfaces", "any number of relay lines, with or without a VRF",
  [MN+":BaseNXOSIntfLine.ip_helper_addresses", MN+":BaseNXOSIntfLine.has_ip_helper_addresses"])
p("VLANs of an NXOS trunk",
  "trunk_vlans_allowed starts with VLANs 1 to 4094 and applies the lines switchport trunk allowed vlan in order: all, none and a list replace the set, except L leaves all VLANs but L, add L and remove L put VLANs in and take them out. Interfaces that are no switchport or are access ports have 0.",
  "all configurations parsed with syntax nxos, all interfaces and all sequences of statements", "histories of statements of any length, any VLAN lists",
  [MN+":BaseNXOSIntfLine.trunk_vlans_allowed", U+":CiscoRange"])

p("The HSRP group of an NXOS interface and its address",
  "hsrp_group is the number of the first child line hsrp N, or empty. If the interface has an address, hsrp_ip_addr is the word behind ip in the first line ip A below a group, group by group, and has_ip_hsrp is true exactly if there is one; without an address they are empty and false. has_hsrp_usebia is true exactly if a line of the interface begins with hsrp use-bia.",
  "all configurations parsed with syntax nxos and all interfaces", "any number of groups, in any order between other lines, with or without an address",
  [MN+":BaseNXOSIntfLine.hsrp_group", MN+":BaseNXOSIntfLine.hsrp_ip_addr", MN+":BaseNXOSIntfLine.has_ip_hsrp", MN+":BaseNXOSIntfLine.has_hsrp_usebia"])
p("The settings of an NXOS HSRP group",
  "hsrp_priority, hsrp_hello_timer, hsrp_hold_timer, hsrp_track and has_hsrp_preempt are those of the group that hsrp_group names: the priority is 100 without a priority line, the timers are in milliseconds whichever unit the line uses.",
  "all configurations parsed with syntax nxos and all interfaces", "any number of groups, each with any settings in any order",
  [MN+":BaseNXOSIntfLine.hsrp_priority", MN+":BaseNXOSIntfLine.hsrp_hello_timer", MN+":BaseNXOSIntfLine.hsrp_hold_timer", MN+":BaseNXOSIntfLine.hsrp_track", MN+":BaseNXOSIntfLine.has_hsrp_preempt"])

p("The vPC peer link of an NXOS interface",
  "is_vpc_peerlink is true exactly if a line vpc peer-link is below the interface.",
  "all configurations parsed with syntax nxos and all interfaces", "any lines, any number of children",
  [MN+":BaseNXOSIntfLine.is_vpc_peerlink"])
p("Storm control, negotiation and encapsulation of an NXOS switchport",
  "has_switch_stormcontrol is true exactly if a storm-control line is below the interface, has_dtp is true exactly if a switchport has no switchport nonegotiate line, and manual_switch_trunk_encap is the encapsulation that is configured.",
  "all configurations parsed with syntax nxos and all interfaces", "any lines, any number of children",
  [MN+":BaseNXOSIntfLine.has_switch_stormcontrol", MN+":BaseNXOSIntfLine.has_dtp", MN+":BaseNXOSIntfLine.manual_switch_trunk_encap"])
p("AAA authentication and authorization lines",
  "list_name, group, level and methods of the lines aaa authentication login and enable and aaa authorization commands and console, of IOS and NXOS, are what the line says: the word behind the keywords (and the level), the word behind group, and the words behind it, one by one.",
  "all these lines with one blank between the words, any names, levels and methods", "any names of any length, any number of methods, with or without a group",
  [MC+":IOSAaaLoginAuthenticationLine", MC+":IOSAaaEnableAuthenticationLine", MC+":IOSAaaCommandsAuthorizationLine", MC+":IOSAaaConsoleAuthorizationLine", MN+":NXOSAaaLoginAuthenticationLine", MN+":NXOSAaaEnableAuthenticationLine", MN+":NXOSAaaCommandsAuthorizationLine", MN+":NXOSAaaConsoleAuthorizationLine"])
p("AAA accounting lines",
  "level, list_name, record_type and group of the lines aaa accounting commands N L R group G and aaa accounting exec L R group G, with R one of none, stop-only and start-stop, are N, L, R and G. On any other line they are 0 and empty.",
  "all lines with one blank between the words", "any words, any number of them",
  [MC+":IOSAaaCommandsAccountingLine", MC+":IOSAaaExecAccountingLine", MN+":NXOSAaaCommandsAccountingLine", MN+":NXOSAaaExecAccountingLine"])
p("AAA server groups",
  "The line aaa group server PROTOCOL GROUP gives this protocol and this group, and any other line raises ValueError. vrf is the word behind the first use-vrf (NXOS) or vrf forwarding, with or without ip before it (IOS). source_interface is the text behind the first source-interface (NXOS) or ip tacacs source-interface (IOS), for texts of three characters or more.",
  "all lines with one blank between the words; all configurations and all groups", "any names, any lines below the group",
  [MC+":IOSAaaGroupServerLine", MN+":NXOSAaaGroupServerLine"])
p("The private servers of an AAA server group",
  "server_private is the set of the words behind server-private in the children of the group.",
  "all configurations and all groups", "any number of servers with any keys and options",
  [MC+":IOSAaaGroupServerLine.server_private", MN+":NXOSAaaGroupServerLine.server_private"])

p("The attributes of an NXOS vPC domain",
  "vpc_domain_id is the number of the line vpc domain N. vpc_role_priority, vpc_system_priority and vpc_auto_recovery_reload_delay are the numbers, and vpc_system_mac the word, of the first line below it that has them, or -1 and the empty text. has_peer_config_check_bypass, has_peer_switch, has_peer_gateway, has_auto_recovery and has_layer3_peer_router are true exactly if an indented line begins with these words.",
  "all configurations parsed with syntax nxos and all domains", "any lines, any number of children, any numbers",
  [MN+":NXOSvPCLine"])
p("ARP synchronisation of an NXOS vPC domain",
  "has_ip_arp_synchronize is true exactly if ip arp synchronize is configured below the domain.",
  "all configurations parsed with syntax nxos and all domains", "any lines, any number of children",
  [MN+":NXOSvPCLine.has_ip_arp_synchronize"])
p("The peer keepalive of an NXOS vPC domain",
  "Every value in vpc_peer_keepalive is the word behind its own keyword on the first peer-keepalive line that has the keyword, or -1 or the empty text if there is none; reading it does not raise an exception.",
  "all configurations parsed with syntax nxos and all domains", "any number and order of parameters, any values, any number of lines",
  [MN+":NXOSvPCLine.vpc_peer_keepalive"])

p("Static routes of NXOS",
  "network, masklen, next_hop_interface, next_hop_addr, tracking_object_name, route_name, tag and admin_distance of an IPv4 route are what the command says, network_object is the network of the route and netmask its mask.",
  "all lines ip route PREFIX/LENGTH [INTERFACE] [ADDRESS] [track N] [name NAME] [tag N] [DISTANCE] with one blank between the words", "any addresses, names and numbers, all combinations of the optional parameters",
  [MN+":NXOSRouteLine"])
p("The next hop of NXOS routes, and routes in other forms",
  "nexthop_str names the interface and the address of the next hop and nothing else, routeinfo says next hop, distance and tracking object, and the attributes of IPv6 routes and of routes with other spacing or another order are what the command says.",
  "all NXOS route lines", "any addresses, names and numbers, all combinations of the optional parameters",
  [MN+":NXOSRouteLine.nexthop_str", MN+":BaseNXOSRouteLine.routeinfo", MN+":NXOSRouteLine.tracking_object_name", MN+":NXOSRouteLine.route_name"])
p("Which object an NXOS line becomes",
  "With factory, every line becomes an object of the class for this kind of line, whatever the other lines are: interfaces, routes, access lines, AAA lines, vPC domains, host names, interface globals; all others become ordinary configuration lines. The only exception is ValueError, for routes and AAA server groups.",
  "all lines", "any text",
  [M+":config_line_factory", M+":ALL_NXOS_FACTORY_CLASSES", MN+":NXOSIntfLine.is_object_for", MN+":NXOSRouteLine.is_object_for"])
p("Every line of an NXOS configuration becomes an object",
  "No line of an NXOS configuration makes the factory raise an exception, and no line becomes an object of a class for another kind of line.",
  "all lines", "any text",
  [M+":config_line_factory", MN+":NXOSRouteLine", MN+":NXOSAaaGroupServerLine", MN+":NXOSIntfGlobal"])
p("Host names, access lines and global defaults of NXOS",
  "hostname is the word behind hostname; name and line_range of an access line are the word behind line and its one or two numbers; the flags of a global default are true exactly if the line begins with its words.",
  "all lines", "any text; for the ranges, lines of letters and numbers",
  [MN+":NXOSHostnameLine.hostname", MN+":NXOSAccessLine.name", MN+":NXOSAccessLine.line_range", MN+":NXOSAccessLine.range_str", MN+":NXOSIntfGlobal"])
p("The exec timeout of NXOS access lines",
  "parse_exectimeout, manual_exectimeout_minutes and manual_exectimeout_seconds give the numbers of the first exec-timeout line below the access line, and line_range the range of lines also with slot numbers.",
  "all configurations parsed with syntax nxos and all access lines", "any lines, any number of children",
  [MN+":NXOSAccessLine.parse_exectimeout", MN+":NXOSAccessLine.manual_exectimeout_minutes", MN+":NXOSAccessLine.manual_exectimeout_seconds"])

p("Attributes of interface objects can be assigned and read back",
  "Assigning a number, the text of a number or None to slot, card, port, subinterface or channel of a CiscoIOSInterface, or a text to prefix, digit_separator or interface_class, makes the attribute read as that value (texts without the white text around them) and leaves all other attributes alone; an assignment that fails raises ValueError, and the values that fail are known exactly.",
  "all objects, all attributes, all values that are None, integers or texts", "numbers of any size, any history of assignments",
  [U+":CiscoIOSInterface.slot", U+":CiscoIOSInterface.card", U+":CiscoIOSInterface.port", U+":CiscoIOSInterface.subinterface", U+":CiscoIOSInterface.channel", U+":CiscoIOSInterface.prefix", U+":CiscoIOSInterface.interface_class", U+":CiscoIOSInterface.digit_separator"])
p("An assigned part shows in the name of the interface",
  "After assigning the port, subinterface, channel, prefix or class of a parsed interface, or the slot or card of one that has a slot, str() is the name with this part replaced, and this name parses to the interface with this part replaced.",
  "all interface names that the parser accepts, all numbers and words", "names and numbers are infinitely many",
  [U+":CiscoIOSInterface.render_as_string", U+":CiscoIOSInterface.number", U+":CiscoIOSInterface.parse_single_interface"])
p("Every accepted assignment leaves an interface that can be written and read back",
  "After any assignment that raises no exception, str() gives a name that parses to the same attributes; every attribute except the prefix and the port can be removed with None.",
  "all interface names that the parser accepts, all attributes and values", "names, numbers and histories are infinitely many",
  [U+":CiscoIOSInterface.render_as_string", U+":CiscoIOSInterface.number", U+":CiscoIOSInterface.digit_separator"])
p("Interfaces survive the trip through a dictionary",
  "from_dict(o.as_dict()) has the attributes of o for every object a program can get by parsing and assigning; the constructor with a parsed interface or with its dictionary gives the same interface; the constructor accepts no dictionary that misses a name, has another number of items or another name.",
  "all parsed interfaces, all histories of assignments, all dictionaries", "any history of assignments",
  [U+":CiscoIOSInterface.as_dict", U+":CiscoIOSInterface.from_dict", U+":CiscoIOSInterface.check_interface_dict", U+":CiscoIOSInterface.update_internal_state"])
p("The constructor copies every interface",
  "CiscoIOSInterface(other) has the attributes of other, for every object that a program can get, also of IOS XR.",
  "all objects reached by parsing and assigning", "any history of assignments",
  [U+":CiscoIOSInterface.update_internal_state", U+":CiscoIOSXRInterface.as_dict"])
p("The numbers of an interface as a list and as a text",
  "number_list has all numbers in front of the subinterface, and slot_card_port_subinterface_channel is the name without its prefix, for every interface.",
  "all names that CiscoIOSInterface and CiscoIOSXRInterface accept", "names are infinitely many",
  [U+":CiscoIOSInterface.number_list", U+":CiscoIOSInterface.slot_card_port_subinterface_channel", U+":CiscoIOSXRInterface.number_list", U+":CiscoIOSXRInterface.slot_card_port_subinterface_channel"])

p("Collapsing networks keeps the addresses and returns the largest networks",
  "list(collapse_addresses(l)) for a sequence of networks of one IP version (IPv4Obj, IPv6Obj or standard-library networks, in any order, with repetitions and overlaps) has exactly the addresses of the networks in l. It consists of exactly the largest networks that fit into these addresses, in ascending order and disjoint. No list of networks with the same addresses is shorter. The result depends only on the set of addresses, and collapsing it again changes nothing.",
  "all finite lists of networks of one version, all addresses", "lists of networks and the addresses in them are infinitely many, and the merging loop re-inserts its own results",
  [U+":collapse_addresses", U+":IPv4Obj.network", U+":IPv6Obj.network"])
p("Which arguments collapse_addresses rejects",
  "An IPv4 and an IPv6 network in one argument always raise TypeError (at the latest when the result is iterated), wherever they stand and however long their prefixes are. A value that is not a network raises ValueError, an empty object AttributeError, an argument that is not a sequence ValueError.",
  "all finite lists with a bad element, all positions of it", "the two lists of the standard library make the outcome depend on prefix lengths and order",
  [U+":collapse_addresses"])

p("Whether an IOS interface lies in a subnet",
  "For an interface whose first line `ip address A M` has a valid address and mask, in_ipv4_subnet(net) is True exactly if every address of the interface's network is an address of net; it is False for None and for the empty IPv4Obj, None for an argument of another type, and False for an interface without an address and for a dynamic address. in_ipv4_subnets(list) is True exactly if this holds for one element of the list, and False for an empty list.",
  "all configurations, all interfaces, all networks and lists of networks", "addresses, masks and lists of networks are infinitely many and the answer is about every address of a network",
  [MC+":BaseIOSIntfLine.in_ipv4_subnet", MC+":BaseIOSIntfLine.in_ipv4_subnets"])
p("The network object of an IOS interface",
  "ip_network_object of an interface with a valid address and mask is the network of that address.",
  "all configurations and interfaces", "configurations are infinitely many",
  [MC+":BaseIOSIntfLine.ip_network_object"])
p("Secondary addresses of an IOS interface",
  "For an interface at the top level whose lines `ip address A M secondary` all have a valid address and mask, ip_secondary_addresses is exactly the set of these addresses, and ip_secondary_networks the set of the same addresses with their prefix lengths. An invalid secondary address raises an exception. has_ip_secondary is True exactly if there is such a line.",
  "all configurations, all interfaces, any number of secondary lines", "the number, order and repetition of secondary lines is unbounded",
  [MC+":BaseIOSIntfLine.ip_secondary_addresses", MC+":BaseIOSIntfLine.ip_secondary_networks", MC+":BaseIOSIntfLine.has_ip_secondary"])
p("Autonegotiation of an IOS interface",
  "has_autonegotiation is True exactly for an ethernet interface whose configuration fixes neither the speed nor the duplex mode.",
  "all configurations and interfaces", "configurations are infinitely many",
  [MC+":BaseIOSIntfLine.has_autonegotiation", MC+":BaseIOSIntfLine.has_manual_speed", MC+":BaseIOSIntfLine.has_manual_duplex"])

p("The IPv6 address object of an IOS interface",
  "If the first line ` ipv6 address A/L ..` of an interface has a valid IPv6 address A and a prefix length L, ipv6_addr_object is the address A with prefix length L and ipv6_masklength is L. Without such a line they are the empty IPv6Obj and 0.",
  "all configurations, all interfaces, every way of writing an IPv6 address", "addresses, their spellings and configurations are infinitely many",
  [MC+":BaseIOSIntfLine.ipv6_addr_object", MC+":BaseIOSIntfLine.ipv6_masklength"])
p("The IPv6 address text of an IOS interface",
  "ipv6_addr is the IPv6 address on the first line ` ipv6 address ..` of the interface, and the empty string if the interface has no address of its own but only dhcp, autoconfig or negotiated.",
  "all configurations and interfaces", "configurations are infinitely many",
  [MC+":BaseIOSIntfLine.ipv6_addr"])

p("The IPv4 address of an ASA interface",
  "ipv4_addr is the dotted quad behind `ip address` on the first line of the interface that has one, ipv4_netmask the second one on the first line that has two. If every address comes with a mask and the first one is valid, ipv4_addr_object is that address with the length of that mask, ipv4_masklength is the length and has_no_ipv4 is False; an interface without an address has the empty object, length 0 and has_no_ipv4 True.",
  "all configurations, all interfaces, all addresses and masks", "configurations and addresses are too many to try",
  [MA+":BaseASAIntfLine.ipv4_addr", MA+":BaseASAIntfLine.ipv4_netmask", MA+":BaseASAIntfLine.ipv4_addr_object", MA+":BaseASAIntfLine.ipv4_masklength", MA+":BaseASAIntfLine.has_no_ipv4"])
p("Subnets of an ASA interface",
  "For an interface with a valid address, in_ipv4_subnet(net) is True exactly if every address of the interface's network is one of net, in_ipv4_subnets exactly if this holds for one element of a non-empty list, and ip_network_object is the network itself. Without an address the first two are None and the last raises ValueError.",
  "all configurations, interfaces and networks", "configurations and networks are too many to try",
  [MA+":BaseASAIntfLine.in_ipv4_subnet", MA+":BaseASAIntfLine.in_ipv4_subnets", MA+":BaseASAIntfLine.ip_network_object"])
p("The standby address of an ASA interface",
  "ipv4_standby_addr is the address behind `standby` on the first line ` ip address A M standby S` of the interface, and ipv4_standby_addr_object is it with the mask of the interface.",
  "all configurations and interfaces", "configurations are infinitely many",
  [MA+":BaseASAIntfLine.ipv4_standby_addr", MA+":BaseASAIntfLine.ipv4_standby_addr_object"])
p("IPv6 addresses of an ASA interface",
  "If the first line ` ipv6 address A/L ..` has a valid address A and prefix length L, ipv6_addr_object is A with length L, ipv6_masklength is L and ipv6_addr is the canonical text of A; without such a line they are the empty object, 0 and the empty string. ipv6_standby_addr is the last word of the first child line that consists of `ipv6 address A standby S`.",
  "all configurations, all interfaces, every way of writing an IPv6 address", "addresses, their spellings and configurations are infinitely many",
  [MA+":BaseASAIntfLine.ipv6_addr_object", MA+":BaseASAIntfLine.ipv6_addr", MA+":BaseASAIntfLine.ipv6_masklength", MA+":BaseASAIntfLine.ipv6_standby_addr"])
p("Numbers and flags of an ASA interface",
  "manual_delay and access_vlan are the number of the first line `delay N`, respectively `switchport access vlan N`, of the interface, and 0 without one. has_manual_speed, is_shutdown, has_manual_switch_trunk and is_switchport are true exactly if the interface has a line `speed N`, a line of one word that begins with shut, the line `switchport mode trunk`, and a line whose first word begins with switchport.",
  "all configurations and interfaces", "configurations are infinitely many",
  [MA+":BaseASAIntfLine.manual_delay", MA+":BaseASAIntfLine.access_vlan", MA+":BaseASAIntfLine.has_manual_speed", MA+":BaseASAIntfLine.is_shutdown", MA+":BaseASAIntfLine.has_manual_switch_trunk", MA+":BaseASAIntfLine.is_switchport"])
p("Description, negotiation and access mode of an ASA interface",
  "description is the text of the description line, has_autonegotiation is true exactly if an Ethernet interface fixes neither speed nor duplex, and has_manual_switch_access is true exactly if the interface has the line `switchport mode access`, however many blanks are between the words.",
  "all configurations and interfaces", "configurations are infinitely many",
  [MA+":BaseASAIntfLine.description", MA+":BaseASAIntfLine.has_autonegotiation", MA+":BaseASAIntfLine.has_manual_duplex", MA+":BaseASAIntfLine.has_manual_switch_access"])
p("Name, kind and ordinals of an ASA interface",
  "For a line `interface KIND N1/../Nk` with an optional blank and an optional subinterface number, name is what stands behind interface, port_type is KIND, ordinal_list is [N1, .., Nk] and port is Nk. is_subintf, is_loopback_intf, is_ethernet_intf and is_virtual_intf follow from the name alone. A line that is no interface has an empty name and no ordinals.",
  "all interface lines, any number of ordinals", "names and numbers are infinitely many",
  [MA+":BaseASAIntfLine.name", MA+":BaseASAIntfLine.port_type", MA+":BaseASAIntfLine.ordinal_list", MA+":BaseASAIntfLine.port", MA+":ASACfgLine.is_intf", MA+":ASACfgLine.is_subintf", MA+":ASACfgLine.is_virtual_intf"])
p("Every attribute of an ASA interface has an answer",
  "Reading an attribute of an ASA interface never raises: has_manual_switch_trunk_encap, has_ip_pim_sparse_mode, port and in_ipv4_subnets give a value for every interface.",
  "all configurations and interfaces", "configurations are infinitely many",
  [MA+":BaseASAIntfLine.has_manual_switch_trunk_encap", MA+":BaseASAIntfLine.has_ip_pim_sparse_mode", MA+":BaseASAIntfLine.port", MA+":BaseASAIntfLine.in_ipv4_subnets"])

p("A range is a sequence of its members",
  "For an integer range r that iterates over m0, .., m(n-1): len(r) is n; r[k] and r[k-n] are mk and any other index raises IndexError; `x in r`, r.index(x), r.count(x) and reversed(r) agree with the iteration; del r[k] and r.pop(k) remove just mk and keep the order of the others, pop returns it; clear() leaves nothing; two ranges are equal exactly if they iterate over the same members, and equal non-empty ranges hash alike; the text between the brackets of str(r), read as a range, has the same members.",
  "all integer ranges of any length, all indices and values", "ranges, indices and values are infinitely many",
  [U+":CiscoRange.__getitem__", U+":CiscoRange.__delitem__", U+":CiscoRange.__iter__", U+":CiscoRange.__len__", U+":CiscoRange.__eq__", U+":CiscoRange.__hash__", U+":CiscoRange.__str__"])
p("A range is a mutable sequence",
  "r[k] = v makes v the k-th member, reverse() reverses the members, a slice r[a:b] reads the members a to b, every range has a hash and as_set() gives the set of its members.",
  "all integer ranges, positions and values", "ranges and values are infinitely many",
  [U+":CiscoRange.__setitem__", U+":CiscoRange.as_set", U+":CiscoRange.insert", U+":CiscoRange.__hash__"])
p("Extending a range is all or nothing",
  "r.extend(values) with distinct integers that are not in r adds them all, sorted; if it raises because a value is already a member, the range is as before.",
  "all integer ranges, all lists of integers", "ranges and lists are infinitely many",
  [U+":CiscoRange.append"])

MX="ciscoconfparse/models_iosxr.py"
p("IOS-XR interface addresses come from the first address line",
  "ipv4_addr and ipv4_netmask of an IOS-XR interface are the address and the mask of its first indented line `ipv4 address A M` with two dotted quads and nothing else, and empty without one; an interface with a line `ipv4 address dhcp` raises the exception about dynamic addresses when its address is read.",
  "all configurations, all interfaces of them", "configurations and orders of lines are infinitely many",
  [MX+":BaseIOSXRIntfLine.ipv4_addr", MX+":BaseIOSXRIntfLine.ipv4_netmask"])
p("IOS-XR address objects are the configured addresses",
  "ipv4_addr_object and ip_network_object hold the address and prefix length of the first address line if both are valid, the default 0.0.0.1/32 otherwise; has_no_ipv4 is true exactly in the latter case (or if the line says 0.0.0.1/32), ipv4_masklength is the length, or 0; with DHCP all of them raise.",
  "all configurations, all interfaces, all addresses and masks", "2^32 addresses times 33 masks times all configurations",
  [MX+":BaseIOSXRIntfLine.ipv4_addr_object", MX+":BaseIOSXRIntfLine.ip_network_object", MX+":BaseIOSXRIntfLine.has_no_ipv4", MX+":BaseIOSXRIntfLine.ipv4_masklength"])
p("IOS-XR interfaces tell which subnets they are in",
  "in_ipv4_subnet(net) is true exactly if every address of the interface's network is in net, None without an address; in_ipv4_subnets(nets) is true exactly if one of the nets has it, for every collection of nets.",
  "all configurations, interfaces, networks and collections of networks", "networks and collections are infinitely many",
  [MX+":BaseIOSXRIntfLine.in_ipv4_subnet", MX+":BaseIOSXRIntfLine.in_ipv4_subnets"])
p("IOS-XR interfaces have the name and number of their line",
  "For a line `interface`, a type and a number slot/card/processor/port, slot/port or port[.sub], with or without a blank between them, name is the type followed by the number, port the last number, port_type the type, interface_number the number without subinterface, subinterface_number all of it, and is_abbreviated_as accepts exactly the beginnings of the type (in any case) followed by the number, with a blank between or without. Other lines have no name.",
  "all lines, types and numbers", "types and numbers are infinitely many",
  [MX+":BaseIOSXRIntfLine.name", MX+":BaseIOSXRIntfLine.port", MX+":BaseIOSXRIntfLine.interface_object", MX+":BaseIOSXRIntfLine.is_abbreviated_as"])
p("IOS-XR subinterfaces keep their number in the name",
  "The names of two interfaces with different lines are different: name is the type and the whole number of the line, also for slot/card/processor/port.sub and slot/card/port.",
  "all interface lines", "numbers are infinitely many",
  [MX+":BaseIOSXRIntfLine.name", U+":CiscoIOSXRInterface.parse_single_interface"])
p("ordinal_list of an IOS-XR interface holds its numbers",
  "ordinal_list holds the parts of the interface number between the slashes, in order and without subinterface, for every interface.",
  "all interface lines", "numbers are infinitely many",
  [MX+":BaseIOSXRIntfLine.ordinal_list", MX+":BaseIOSXRIntfLine.interface_number"])
p("Numbers and flags of IOS-XR interfaces come from the first line that sets them",
  "manual_bandwidth, manual_delay, manual_holdqueue_in/out, manual_clock_rate, manual_mtu, manual_mpls_mtu, manual_ip_mtu, manual_speed, manual_carrierdelay, xconnect_vc, portchannel_number, access_vlan and native_vlan are the number of the first line of the interface with these keywords, a fixed default without one; is_shutdown, has_mpls, has_manual_speed, has_manual_disable_cdp, is_switchport and has_manual_switch_trunk are true exactly if the interface has the line, with any blanks between the words.",
  "all configurations, all interfaces of them", "configurations and orders of lines are infinitely many",
  [MX+":BaseIOSXRIntfLine.manual_mtu", MX+":BaseIOSXRIntfLine.access_vlan", MX+":BaseIOSXRIntfLine.is_shutdown", MX+":BaseIOSXRIntfLine.manual_carrierdelay"])
p("Descriptions, negotiation and switch ports of IOS-XR interfaces are those of the configuration",
  "description is the text behind the keyword, has_autonegotiation tells whether speed and duplex are negotiated, has_manual_switch_access, has_switch_portsecurity, has_switch_stormcontrol, has_dtp, manual_switch_trunk_encap and the MAC access groups are those of the lines of the interface, with any blanks between the words.",
  "all configurations, all interfaces of them", "configurations and blanks are infinitely many",
  [MX+":BaseIOSXRIntfLine.description", MX+":BaseIOSXRIntfLine.has_autonegotiation", MX+":BaseIOSXRIntfLine.has_dtp", MX+":BaseIOSXRIntfLine.has_switch_stormcontrol"])
p("vrf of an IOS-XR interface is its routing instance",
  "vrf is the name in the line `vrf NAME` of the interface and empty without one; has_vrf tells whether there is one.",
  "all configurations, all interfaces of them", "configurations and names are infinitely many",
  [MX+":BaseIOSXRIntfLine.vrf", MX+":BaseIOSXRIntfLine.has_vrf"])
p("HSRP attributes of IOS-XR interfaces come from the standby lines",
  "On an interface with an address line, hsrp_ip_addr, hsrp_ip_mask and hsrp_priority are those of the first standby line that sets them, with or without a group number (priority 100 without one, 0 without HSRP); without an address line they are empty and 0. hsrp_group, the timers, the key chain and has_hsrp_usebia are those of the first line that sets them.",
  "all configurations, all interfaces without DHCP", "configurations and orders of lines are infinitely many",
  [MX+":BaseIOSXRIntfLine.hsrp_ip_addr", MX+":BaseIOSXRIntfLine.hsrp_priority", MX+":BaseIOSXRIntfLine.hsrp_group", MX+":BaseIOSXRIntfLine.hsrp_hello_timer"])
p("has_hsrp_preempt of an IOS-XR interface tells whether it preempts",
  "has_hsrp_preempt is true exactly if the interface has a line `standby [group] preempt`.",
  "all configurations, all interfaces of them", "configurations are infinitely many",
  [MX+":BaseIOSXRIntfLine.has_hsrp_preempt"])
p("IP flags and access groups of IOS-XR interfaces are those of the configuration",
  "has_no_icmp_unreachables, has_no_icmp_redirects, has_no_ip_proxyarp, the PIM modes, manual_arp_timeout and the IPv4 access groups in and out are those of the lines of the interface, also with DHCP and with any blanks.",
  "all configurations, all interfaces of them", "configurations and blanks are infinitely many",
  [MX+":BaseIOSXRIntfLine.has_no_icmp_redirects", MX+":BaseIOSXRIntfLine.manual_arp_timeout", MX+":BaseIOSXRIntfLine.ipv4_accessgroup_in"])
p("VLANs of an IOS-XR trunk are those its lines leave",
  "trunk_vlans_allowed is the set that the lines `switchport trunk allowed vlan` (all, none, a list, add, except, remove) leave, in order; 0 for a port that is no trunk.",
  "all configurations, all histories of such lines", "histories of lines are infinitely many",
  [MX+":BaseIOSXRIntfLine.trunk_vlans_allowed"])

p("has_child_with tells whether a child matches",
  "o.has_child_with(rx) is true exactly if rx matches the text of a child of o, with all_children exactly if it matches the text of a descendant; a line is found by find_parent_objects(p, rx) exactly if p matches it and has_child_with(rx) is true.",
  "all configurations, all lines of them, all expressions", "configurations and expressions are infinitely many",
  [A+":BaseCfgLine.has_child_with", M+":CiscoConfParse.find_parent_objects"])
p("is_parent, is_child and geneology_text describe the place of a line",
  "is_parent is true exactly if the line has children, is_child exactly if its parent is another line (so exactly if another line has it among its children), and geneology_text is the texts of all its ancestors from the oldest down, followed by its own.",
  "all configurations, all lines of them", "configurations are infinitely many",
  [A+":BaseCfgLine.is_parent", A+":BaseCfgLine.is_child", A+":BaseCfgLine.geneology_text"])
p("add_child makes a line a child once",
  "o.add_child(c) returns True exactly if c was not a child of o (no text of the configuration starts with a digit); c is then the last child of o and no other line's links change. A second call changes nothing and returns False. Afterwards exactly o and the ancestors of o have c and its descendants as further descendants.",
  "all configurations, all pairs of lines", "configurations are infinitely many",
  [A+":BaseCfgLine.add_child"])
p("add_child and add_parent keep parents and children in agreement",
  "After o.add_child(c), o is the parent of c; after c.add_parent(o), c is among the children of o.",
  "all configurations, all pairs of lines", "configurations are infinitely many",
  [A+":BaseCfgLine.add_child", A+":BaseCfgLine.add_parent"])
p("NX-OS interfaces have the name and numbers of their line",
  "For a line `interface`, a type and a number [slot/[card/]]port[.sub][:channel], with or without blanks between them, name is the type followed by the number and port the port; port_type is the type, interface_number the number without subinterface, subinterface_number all of it, ordinal_list the numbers between the slashes, and is_abbreviated_as accepts exactly the beginnings of the type (in any case) followed by the number, with a blank between or without. Lines that are not interface lines raise when name or port is read and have no numbers.",
  "all lines, types and numbers", "types and numbers are infinitely many",
  [MN+":BaseNXOSIntfLine.name", MN+":BaseNXOSIntfLine.ordinal_list", MN+":BaseNXOSIntfLine.interface_number", MN+":BaseNXOSIntfLine.is_abbreviated_as"])
p("Kinds of NX-OS interfaces follow their names",
  "is_ethernet_intf is true exactly if a word behind `interface` has `thernet` behind some letter or the next word begins with mgmt; is_loopback_intf, is_subintf and is_virtual_intf follow the second word in the same way (loopback, vlan, tunnel, port-channel in any case), is_portchannel_intf is true exactly if the type has `channel` in it, in any case; portchannel_number is the number of the first channel-group line, -1 without one, and intf_in_portchannel tells whether there is one.",
  "all lines, all configurations", "lines and configurations are infinitely many",
  [MN+":NXOSCfgLine.is_ethernet_intf", MN+":NXOSCfgLine.is_virtual_intf", MN+":NXOSCfgLine.is_portchannel_intf", MN+":NXOSCfgLine.portchannel_number"])
p("has_autonegotiation of an NX-OS interface tells whether speed and duplex are negotiated",
  "has_autonegotiation is true exactly for Ethernet and management interfaces without a fixed speed and without a fixed duplex mode.",
  "all configurations, all interfaces of them", "configurations are infinitely many",
  [MN+":BaseNXOSIntfLine.has_autonegotiation", MN+":BaseNXOSIntfLine.has_manual_duplex"])

p("HSRP groups compare by interface and number",
  "Two HSRP groups are equal exactly if they have the same group number and their interface lines have the same words behind `interface`; this is an equivalence relation, and equal groups have equal hashes.",
  "all configurations, all interfaces and group numbers of them", "configurations are infinitely many",
  [MC+":HSRPInterfaceGroup.__eq__", MC+":HSRPInterfaceGroup.__hash__"])
p("Tracked interfaces can be compared and printed",
  "Two tracked interfaces are equal exactly if interface, group, decrement and weighting are the same; each has a text.",
  "all tracked interfaces", "names and numbers are infinitely many",
  [MC+":TrackingInterface.__eq__", MC+":TrackingInterface.__str__"])
p("check_valid_ipaddress accepts exactly the texts of addresses",
  "check_valid_ipaddress(s) gives the text without blanks around it and the family 4 or 6 for every text of an IPv4 or IPv6 address, and raises ValueError for every other text.",
  "all texts", "texts are infinitely many",
  [U+":check_valid_ipaddress"])
p("Port objects are equal exactly if they stand for the same ports",
  "Two L4Objects are equal exactly if they have the same protocol and the same set of ports, however the ports were written.",
  "all protocols and all port specifications", "port specifications are infinitely many",
  [U+":L4Object.__eq__", U+":L4Object.__init__"])
p("A regular-expression wrapper searches once for its current expression",
  "After any history of calls on a wrapper that was built without a text, a search raises exactly if there was a search since the last expression was assigned; otherwise it gives the answer of the current expression, which is the last one that was assigned and compiles.",
  "all engines, expressions, texts and histories of calls", "histories are infinitely many",
  [U+":__ccp_re__.s", U+":__ccp_re__.regex"])
p("captured of a regular-expression wrapper has the groups of the match",
  "After a search, captured has the groups of the match in order and the named groups, each converted to the type given for it, and nothing without a match; the flags given at construction stay in force.",
  "all engines, expressions, texts and histories of calls", "histories are infinitely many",
  [U+":__ccp_re__.captured", U+":__ccp_re__.__init__"])
p("HDiff compares lists, files and parsed configurations alike",
  "Arguments of HDiff that stand for the same lines (a list, the name of a file with these lines, a parsed configuration with these lines) give the same comparison.",
  "all configurations and all kinds of arguments", "configurations are infinitely many",
  [M+":HDiff.__init__"])

p("IOS-XR interface objects show what was assigned",
  "After any history of assignments to the attributes of a CiscoIOSXRInterface, every attribute that can be read is the last value that was accepted for it, as a number or as text according to the attribute; a value that is not accepted raises the exception of its kind and changes nothing.",
  "all interface objects, all histories of assignments with values of all kinds", "histories are infinitely many",
  [U+":CiscoIOSXRInterface.slot", U+":CiscoIOSXRInterface.card", U+":CiscoIOSXRInterface.port", U+":CiscoIOSXRInterface.prefix"])
p("Assigning an IOS-XR attribute to itself changes nothing",
  "Reading an attribute of a CiscoIOSXRInterface right after assigning a value gives this value back.",
  "all interface objects, attributes and values", "values are infinitely many",
  [U+":CiscoIOSXRInterface.slot", U+":CiscoIOSXRInterface.card", U+":CiscoIOSXRInterface.processor"])
p("The name of an IOS-XR interface follows the assigned numbers",
  "After assigning slot, card, processor or port, the name of the interface is the type followed by the numbers in effect.",
  "all interface objects and histories of assignments", "histories are infinitely many",
  [U+":CiscoIOSXRInterface.render_as_string", U+":CiscoIOSXRInterface.number"])
p("IOS-XR interfaces survive a dictionary round trip",
  "from_dict(as_dict()) of a CiscoIOSXRInterface, after any history of assignments, gives an object with the same attributes.",
  "all interface objects and histories of assignments", "histories are infinitely many",
  [U+":CiscoIOSXRInterface.as_dict", U+":CiscoIOSXRInterface.from_dict"])
p("A block of a configuration is read the same wherever it stands",
  "Take a block: an unindented line and indented lines below it, no banner or macro among them. In every configuration that has this block, whatever stands before it, and whatever stands behind it that does not go on with indented lines, the lines of the block have the same texts, children and descendants (counted from its first line). If the block has no comments, the first line and its descendants are exactly the block.",
  "all blocks, all pairs of configurations that have them, all parser options", "configurations are infinitely many, in size and depth",
  [M+":ConfigList._bootstrap_from_text", A+":BaseCfgLine.all_children"])
p("The attributes of an IOS interface depend on its block only",
  "Every attribute of an IOS interface that is read from its lines (numbers, texts, switchport and VLAN settings, addresses, subnets, access lists, HSRP settings and groups) is the same in all configurations that have the same block of lines for the interface.",
  "all interface blocks, all pairs of configurations that have them", "configurations are infinitely many",
  [MC+":BaseIOSIntfLine"])
p("The attributes of NX-OS, IOS-XR and ASA interfaces depend on their block only",
  "The same for the attributes of NX-OS interfaces (with their HSRP groups) and vPC domains, of IOS-XR interfaces and of ASA interfaces.",
  "all interface blocks, all pairs of configurations that have them", "configurations are infinitely many",
  [MN+":BaseNXOSIntfLine", MX+":BaseIOSXRIntfLine", MA+":BaseASAIntfLine"])

p("Searches answer block by block",
  "Take a block: an unindented line and indented lines below it, no banner or macro among them, with anything before it and anything behind it that does not go on with indented lines. What find_objects, find_parent_objects, find_parent_objects_wo_child, find_objects_w_all_children and find_objects_w_missing_children find inside the block is what they find if the block is the whole configuration, in the same order. So does find_child_objects if the configuration has no banners and macros.",
  "all blocks, all configurations that have them, all regular expressions, recursive or not", "configurations and regular expressions are infinitely many",
  [M+":CiscoConfParse.find_objects", M+":CiscoConfParse.find_parent_objects", M+":CiscoConfParse.find_parent_objects_wo_child", M+":CiscoConfParse.find_child_objects"])

p("Edits elsewhere do not change how a block is read",
  "Take a configuration with a block (an unindented line and indented lines below it) and change something outside of the block, then commit. Deleting another line with its children, or inserting a line after any line outside the block, leaves the block's lines together, with the same texts, children and descendants as before. In general, after any edits and a commit, a block that stands among the lines has the children and descendants it has in every other configuration.",
  "all configurations, all blocks in them, all lines outside of the blocks, all inserted texts", "configurations and edits are infinitely many",
  [A+":BaseCfgLine.delete", A+":BaseCfgLine.insert_after", M+":CiscoConfParse.atomic", M+":ConfigList.insert_after"])

p("Insertions and deletions can be undone",
  "Inserting a line after another, committing, deleting the new line and committing again gives back the configuration: the same lines with the same children and descendants. Likewise deleting a line without children, committing, inserting it again after the line that preceded it, and committing.",
  "all configurations, all lines in them, all inserted texts", "configurations and edits are infinitely many",
  [A+":BaseCfgLine.delete", A+":BaseCfgLine.insert_after", M+":CiscoConfParse.atomic", M+":ConfigList.insert_after"])


p("IPv4 and IPv6 objects are different",
  "An IPv4 object is never equal to an IPv6 object, and neither is ever in a network of the other family; asking gives False and does not raise.",
  "all pairs of an IPv4 and an IPv6 object", "the addresses are too many to enumerate",
  [U+":IPv4Obj.__eq__", U+":IPv6Obj.__eq__", U+":IPv4Obj.__contains__", U+":IPv6Obj.__contains__", U+":IPv6Obj.__hash__"])
p("Lists of addresses of both families can be sorted",
  "< on IPv4 and IPv6 objects is a strict order by network number, prefix length and address, > is its converse, equal objects are not less than each other, and sorted() of a mixed list gives the same objects in that order.",
  "all IPv4 and IPv6 objects, all lists of them", "lists and addresses are infinitely many",
  [U+":IPv4Obj.__lt__", U+":IPv6Obj.__lt__", U+":IPv4Obj.__gt__", U+":IPv6Obj.__gt__"])
p("An empty IPv6 object behaves like an empty IPv4 object",
  "IPv6Obj(None) is equal to empty objects only, can be put in a set, contains nothing but empty objects and is in nothing else.",
  "all IPv6 objects, empty or not", "the addresses are too many to enumerate",
  [U+":IPv6Obj.__init__", U+":IPv6Obj.__eq__", U+":IPv6Obj.__contains__", U+":IPv6Obj.__hash__"])


p("A range has the members of its result type",
  "CiscoRange(text, result_type=t) gives integers for int, interfaces for None and CiscoIOSInterface, IOS-XR interfaces for CiscoIOSXRInterface, numbers for float and texts for str; the empty text gives an empty range, and a text with two commas in a row is rejected, whatever the type.",
  "all texts and all result types", "the texts are infinitely many",
  [U+":CiscoRange.__init__", U+":CiscoRange.parse_strings", U+":CiscoRange.parse_floats", U+":CiscoRange.parse_cisco_interfaces"])
p("hash_children compares descendants",
  "Two lines have the same hash_children if and only if their descendants have the same texts.",
  "all pairs of lines, of one configuration or of two", "configurations are infinitely many",
  [A+":BaseCfgLine.hash_children", A+":BaseCfgLine.__hash__", A+":BaseCfgLine.all_children"])
p("The diff word of a line belongs to its side",
  "diff_word accepts exactly the words of the line's diff_side, and at any time the word of a line is empty or one of its side.",
  "all sequences of assignments to diff_side and diff_word", "sequences of assignments are infinitely many",
  [A+":BaseCfgLine.diff_word", A+":BaseCfgLine.diff_side"])


p("The order of the blocks does not matter",
  "If a configuration consists of blocks that each start with an unindented line, a search finds in it what it finds in each block alone, block after block; so if the blocks are put in another order, the same texts are found, each as often as before.",
  "all lists of blocks, all orders of them, all searches for lines, parents and children, and all expressions",
  "configurations, orders and expressions are infinitely many",
  [M+":CiscoConfParse.find_objects", M+":CiscoConfParse.find_parent_objects", M+":CiscoConfParse.find_parent_objects_wo_child", M+":CiscoConfParse.find_child_objects", M+":CiscoConfParse.find_objects_w_all_children", M+":CiscoConfParse.find_objects_w_missing_children"])


p("Moving blocks makes no diff",
  "If two configurations consist of blocks that each start with an unindented line, a line that HDiff shows with + is in a block that only the second has, and a line shown with - is in a block that only the first has; so if both have the same blocks, in whatever order and however often, no line is shown with + or -.",
  "all pairs of lists of blocks", "configurations and orders are infinitely many",
  [M+":HDiff", M+":HDiff.unified_diffs", M+":HDiff.find_in_before_obj_list"])
p("sync_diff asks for nothing when all blocks are there",
  "If a configuration has all blocks of the wanted configuration, in whatever order, sync_diff without removals gives no commands; if it has no other blocks either, sync_diff with removals gives none.",
  "all pairs of lists of blocks and all expressions", "configurations, orders and expressions are infinitely many",
  [M+":CiscoConfParse.sync_diff", M+":HDiff"])


p("The diff the other way round",
  "HDiff(b, a) shows the same lines as HDiff(a, b), with + for - and - for +.",
  "all pairs of configurations", "configurations are infinitely many",
  [M+":HDiff", M+":HDiff.unified_diffs", M+":HDiff.find_in_before_obj_list"])
p("Diffs compose",
  "A line is added from a to c exactly if it is added from a to b and not removed from b to c, or added from b to c and not removed from a to b; the same holds with added and removed exchanged.",
  "all triples of configurations", "configurations are infinitely many",
  [M+":HDiff", M+":HDiff.dict_diffs", M+":HDiff.compress_dict_diffs"])


p("The order of deletions does not matter",
  "delete_lines(a) followed by delete_lines(b) leaves the same lines as delete_lines(b) followed by delete_lines(a), and as one delete_lines with an expression that matches what a or b matches; a second delete_lines(a) changes nothing.",
  "all configurations and all pairs of expressions", "configurations and expressions are infinitely many",
  [M+":CiscoConfParse.delete_lines", A+":BaseCfgLine.delete"])

p("After commit the searches answer as for a configuration parsed afresh",
  "Whatever edits were made before commit() (or atomic()), every search (find_objects, find_children, find_all_children, find_blocks, find_parent_objects, find_parent_objects_wo_child, find_objects_w_all_children, find_objects_w_missing_children, find_child_objects, find_children_w_parents, find_lineage, find_object_branches) then finds the same lines as in a CiscoConfParse built from the lines that there are.",
  "all configurations, all histories of edits, all searches and expressions", "configurations, histories and expressions are infinitely many",
  [M+":CiscoConfParse.commit", M+":CiscoConfParse.atomic", M+":CiscoConfParse.find_objects", M+":CiscoConfParse.find_object_branches", M+":CiscoConfParse.find_lineage"])

p("Both configurations can be read off the unified diff",
  "unified_diffs() is a header of three lines and then the lines of the diff: those that do not start with + are the lines of before in their order, those that do not start with - are the lines of after in their order (after the first character, with one blank between the words); unified_diffs(header=False) is the same without the header.",
  "all pairs of configurations", "configurations are infinitely many",
  [M+":HDiff.unified_diffs", M+":HDiff.unified_diff_header", M+":HDiff.unified_diffs_contents"])

p("The searches by parent and by child find the two ends of the same links",
  "find_objects_w_child(p, c) finds exactly the lines matching p that have below them a line found by find_child_objects(p, c), and find_child_objects(p, c) finds exactly the lines matching c below a line found by find_objects_w_child(p, c), with and without recurse; a line matching p is found by find_objects_wo_child(p, c) iff it is not found by find_objects_w_child(p, c), iff no child of it is found by find_objects_w_parents(p, c).",
  "all configurations and expressions", "configurations and expressions are infinitely many",
  [M+":CiscoConfParse.find_objects_w_child", M+":CiscoConfParse.find_objects_wo_child", M+":CiscoConfParse.find_objects_w_parents", M+":CiscoConfParse.find_child_objects"])

p("The packed form of an address",
  "packed of an IPv4Obj (IPv6Obj) is 4 (16) bytes that stand for as_decimal, the most significant byte first; packed addresses compare byte by byte as the addresses compare as numbers, and two are equal iff the addresses are.",
  "all IPv4 and IPv6 objects", "2^32 and 2^128 addresses",
  [U+":IPv4Obj.packed", U+":IPv6Obj.packed", U+":IPv4Obj.as_decimal", U+":IPv6Obj.as_decimal"])

p("The commands of sync_diff as a configuration",
  "The commands that sync_diff without remove_lines gives can be parsed as a configuration. Its lines, each with its parents, are exactly the wanted lines that match linespec and are missing, and their parents; each command is a line of the wanted configuration.",
  "all configurations, all wanted configurations, all linespecs", "the commands repeat parents in front of each line, in an order of their own",
  [M+":CiscoConfParse.sync_diff", M+":HDiff", M+":ConfigList._bootstrap_obj_init_ng"])
p("Entering the commands of sync_diff is enough",
  "If the commands that sync_diff gave are entered after the configuration, the configuration has its old lines, the wanted lines that were missing and their parents, and no others, and sync_diff with the same arguments asks for nothing more.",
  "all configurations, all wanted configurations, all linespecs", "two diffs, of configurations that are built from each other",
  [M+":CiscoConfParse.sync_diff", M+":HDiff", M+":ConfigList._bootstrap_obj_init_ng"])

p("What linespec and remove_lines choose",
  "For a linespec that matches less, sync_diff gives some of the commands, in the same order, and raises only if it did before; without remove_lines it gives some of the commands that it gives with it, and uncfgspec does not matter; a linespec that matches nothing gives no commands.",
  "all configurations, wanted configurations, hashes, syntaxes and expressions", "pairs of arbitrary expressions",
  [M+":CiscoConfParse.sync_diff"])
p("Marks go down in a diff",
  "In the result of HDiff all lines below an added line are added, all lines below a removed line are removed, and with a line all its parents are shown.",
  "all pairs of configurations", "trees of any depth, and pairs of them",
  [M+":HDiff.build_ios_diffs", M+":HDiff.find_in_before_obj_list"])

p("Blanks at the ends of lines",
  "Two configurations whose lines differ only in white space at their ends are parsed to the same result.",
  "all pairs of configurations with the same lines up to trailing white space, all options", "any amount of white space on any line",
  [M+":ConfigList._bootstrap_from_text", M+":ConfigList._macro_mark_children"])
p("The depth of the indentation does not matter",
  "If every line is indented as deep as its level says, and deeper levels are indented more, then list, parents, children and the texts without indentation do not depend on how many blanks there are for a level.",
  "all configurations without banners, macros and blank lines, all ways to indent", "arbitrary indentation widths for trees of any depth",
  [M+":ConfigList._bootstrap_from_text", M+":ConfigList._build_bootstrap_parent_child"])
p("Comments and blank lines do not disturb the tree",
  "If a comment or a blank line is added anywhere or taken out, every configuration line keeps its text, its parent and, among the configuration lines, its children.",
  "all configurations, places and comments or blank lines", "a line may be added at any place of any configuration",
  [M+":ConfigList._bootstrap_from_text", M+":ConfigList._build_bootstrap_parent_child"])

p("What the constructor accepts",
  "CiscoConfParse(config, syntax=...) accepts the lists and tuples of strings, whose lines it parses, and the names of text files, as str or pathlib.Path, whose lines it parses; it raises FileNotFoundError if there is no such file and another exception for everything else, and for a syntax that is not one of the five.",
  "all values of config and syntax, all contents of the file system", "all kinds of wrong arguments, and all files",
  [M+":CiscoConfParse.__init__", M+":CiscoConfParse.read_config_file", M+":CiscoConfParse.handle_ccp_brace_syntax", M+":CiscoConfParse.check_ccp_input_good"])

p("A commit that raises loses no line",
  "If commit() raises, the configuration has the same lines as before, a second commit() raises the same exception, and parents and children are still consistent with each other.",
  "all configurations, edited in any way before the commit", "needs the state after every exception, for all unfinished edits",
  [M+":CiscoConfParse.commit", M+":CiscoConfParse.atomic", M+":ConfigList.bootstrap_obj_init_ng", M+":ConfigList._macro_mark_children"])
p("An insertion that raises changes nothing",
  "If insert_before() or insert_after() raises, the configuration is as it was before the call, with atomic=True too.",
  "all configurations that are parsed and edited, all search terms, new lines and indents", "all arguments for which an exception can come up, and the state after it",
  [M+":CiscoConfParse.insert_before", M+":CiscoConfParse.insert_after", M+":ConfigList.insert_before", M+":ConfigList.insert_after"])

p("Options that make no difference",
  "The trees of ios, nxos, iosxr and asa are the same if no line begins a macro; a comment delimiter changes nothing if no line begins with it; ignore_blank_lines changes nothing if no line is blank.",
  "all configurations and all values of syntax (but junos), comment_delimiter and ignore_blank_lines", "all pairs of options over all configurations",
  [M+":CiscoConfParse.__init__", M+":ConfigList.bootstrap_obj_init_ng", A+":BaseCfgLine.set_comment_bool"])

p("A line appended to a family becomes a child",
  "obj.append_to_family(s, auto_indent=True) and a commit(): the new line is a child of obj, and every other configuration line has the parent it had.",
  "all configurations, all lines with or without a family, all texts and indents", "the parent depends on the indents of all lines before it, and the lines below may get a new one",
  [A+":BaseCfgLine.append_to_family", M+":CiscoConfParse.commit", M+":ConfigList.bootstrap_obj_init_ng"])

p("An inserted line adopts exactly the deeper lines that follow it",
  "insert_after() or insert_before() and a commit(): the new line hangs below the last less deep configuration line before it. It becomes the parent of exactly those configuration lines after it that are deeper and have no less deep line between; every other configuration line has the parent it had. A comment changes nobody's parent.",
  "all configurations, all places, all inserted texts, all lines", "an insertion can change the parents of lines far below, and the set of these depends on all lines between",
  [M+":ConfigList.insert_after", M+":ConfigList.insert_before", M+":CiscoConfParse.commit", M+":ConfigList.bootstrap_obj_init_ng"])

p("Deleting families leaves the other parents alone",
  "obj.delete(), delete_lines(r) or delete_children_matching(r) and a commit(): every configuration line that is left has the parent it had before.",
  "all configurations, all deleted lines and expressions, all remaining lines", "the parent is computed anew from all lines that are left",
  [A+":BaseCfgLine.delete", A+":BaseCfgLine.delete_children_matching", M+":CiscoConfParse.delete_lines", M+":CiscoConfParse.commit", M+":ConfigList.bootstrap_obj_init_ng"])

p("Only the indentation and being a comment decide the tree",
  "Two configurations whose lines have, one by one, the same indentation and are comments at the same places have the same parents and children. So replace_lines() with a replacement that keeps the indentation, and a commit(), changes no parent and no child.",
  "all configurations, all replacements, all lines", "every character of every line could have a part in how the tree is built",
  [M+":ConfigList.bootstrap_obj_init_ng", M+":CiscoConfParse.replace_lines", M+":CiscoConfParse.commit"])

p("Lines that follow do not change what was read before",
  "The first n lines of a configuration have the texts and the parents that they have when these n lines are read alone, and of the children those among the n lines.",
  "all configurations, all n", "anything further down could reach back, as the end of a banner or of a macro does",
  [M+":ConfigList.bootstrap_obj_init_ng", M+":CiscoConfParse.__init__"])

p("Lines appended one after another are the last children, in this order",
  "Appending texts to the family of a line one after another, each time with the depth of its children and followed by a commit(), gives the line the children it had and then these texts in their order.",
  "all configurations, all lists of texts, all lines", "the tree is built anew after each of any number of steps",
  [A+":BaseCfgLine.append_to_family", M+":CiscoConfParse.commit", M+":ConfigList.bootstrap_obj_init_ng"])

p("Every tree of lines can be written as a configuration and is read back from it",
  "If trees of lines are written one line after another, each level indented deeper than the one above it, then the configuration that is read from these lines consists of exactly these trees, in this order, and of no others.",
  "all trees of any depth and width, all increasing indentations, all options", "the trees may have any shape",
  [M+":ConfigList.bootstrap_obj_init_ng", A+":BaseCfgLine.children"])

p("Walking the tree from the top visits every line once, in order",
  "Taking every line that is its own parent and then its all_children, in order, gives the lines of the configuration in their order, each once; all_children of a line are its children, each followed by its all_children.",
  "all configurations, all lines", "trees of any depth and width",
  [A+":BaseCfgLine.all_children", A+":BaseCfgLine.children", A+":BaseCfgLine.parent", M+":ConfigList.bootstrap_obj_init_ng"])

p("Deleting an object takes its subtree out of the tree",
  "If trees of lines were written as a configuration and read, then obj.delete() and commit() give the configuration of the same trees without the subtree of this object.",
  "all trees of any depth and width, all objects, all increasing indentations", "the object may be anywhere in a tree of any shape",
  [A+":BaseCfgLine.delete", M+":CiscoConfParse.commit", M+":ConfigList.bootstrap_obj_init_ng"])

p("append_to_family adds a leaf to the tree",
  "If trees of lines were written with a fixed indentation width and read, then obj.append_to_family(text, auto_indent=True) and commit() give the configuration of the same trees with text as a new last child of this object.",
  "all trees of any depth and width, all objects, all indentation widths, all texts", "the object may be anywhere in a tree of any shape",
  [A+":BaseCfgLine.append_to_family", M+":CiscoConfParse.commit", M+":ConfigList.bootstrap_obj_init_ng"])


p("insert_before adds a leaf to the tree in front of an object",
  "If trees of lines were written as a configuration and read, then obj.insert_before(text), text having the indentation of the object, and commit() give the configuration of the same trees with text as a new leaf in front of this object, at the level of this object.",
  "all trees of any depth and width, all objects, all increasing indentations, all texts", "the object may be anywhere in a tree of any shape",
  [A+":BaseCfgLine.insert_before", M+":ConfigList.insert_before", M+":CiscoConfParse.commit", M+":ConfigList.bootstrap_obj_init_ng"])


p("The repr of an address object identifies it",
  "repr() of an IPv4Obj or IPv6Obj holds, between '<IPv4Obj ' or '<IPv6Obj ' and '>', a text from which the constructor makes the same object; so two objects with the same repr() are the same object, and IPv4Obj(None) has a repr() of its own. IPv4-mapped IPv6 addresses, and only they, are shown with a dotted IPv4 address.",
  "all IPv4Obj and IPv6Obj that a program can make", "2^32 and 2^128 addresses with every prefix length",
  [U+":IPv4Obj.__repr__", U+":IPv6Obj.__repr__", U+":IPv4Obj.__init__", U+":IPv6Obj.__init__"])


p("The list of lines changes like a Python list",
  "objs.append, objs.extend, +=, *=, objs[k] = v, objs.pop(k), objs.reverse() and objs.clear() change length and elements exactly as for a Python list: new elements come last, a repeated list repeats, assignment and pop touch position k only (counted from the end if k is negative) and raise IndexError if there is none. The sum of two lists of texts has the lines of the left one first.",
  "all lists of lines and strings of any length, all positions, all factors", "lists of any length and content, any position",
  [M+":ConfigList.extend", M+":ConfigList.append", M+":ConfigList.__iadd__", M+":ConfigList.__imul__", M+":ConfigList.__setitem__", M+":ConfigList.pop", M+":ConfigList.reverse", M+":ConfigList.__add__", M+":ConfigList.__radd__"])


p("network_offset of IPv6 objects is the place of the address in its subnet",
  "For an IPv6Obj, assigning network_offset = k succeeds exactly when network + k is an address of the subnet; the subnet stays, the address becomes network + k, and reading network_offset gives k.",
  "all IPv6Obj values, all offsets", "2^128 addresses, 129 prefix lengths, any offset",
  [U+":IPv6Obj.network_offset", U+":IPv6Obj.numhosts"])

p("obj.ioscfg is the written subtree of the object",
  "For a configuration written from any forest of lines, obj.ioscfg of the line at the root of a subtree has the lines of that subtree in the written order, and nothing else; parsed on its own, it gives that subtree again.",
  "all forests of any size and depth, all strictly growing indentations, all subtrees", "forests of any size, any subtree",
  [A+":BaseCfgLine.ioscfg", A+":BaseCfgLine.all_children", M+":CiscoConfParse.__init__"])


p("Lists of lines are compared like Python lists",
  "For two lists of lines or of texts, <, <=, > and >= decide by the first elements that are not equal - lines by line number, texts by code points - and by the lengths if there are none.",
  "all pairs of lists of any length, of lines or texts, after any changes", "pairs of lists of any length and content",
  [M+":ConfigList.__lt__", M+":ConfigList.__le__", M+":ConfigList.__gt__", M+":ConfigList.__ge__", A+":BaseCfgLine.__lt__", A+":BaseCfgLine.__gt__", A+":BaseCfgLine.__eq__"])


p("repr of an IOS interface identifies it",
  "repr() of a CiscoIOSInterface is <CiscoIOSInterface NAME>, where NAME is read back as the same interface; two interfaces with the same repr() are equal in all parts.",
  "all interface names that are accepted", "names of any length with any numbers",
  [U+":CiscoIOSInterface.__repr__", U+":CiscoIOSInterface.__str__"])

p("The host name of an ASA configuration is the word behind hostname",
  "For a line that begins with hostname, the attribute hostname is the second word, and the empty text if the line has no other word.",
  "all lines that begin with hostname", "lines of any length with any blanks",
  [MA+":ASAHostnameLine.hostname"])

p("Port channels and reset commands",
  "is_portchannel_intf is True exactly if the name of the interface, the words behind the first one, contains channel in capital or small letters. build_reset_string() of an interface or an access line has the word default before the words of the line.",
  "all texts of lines", "lines of any length and spelling",
  [MC+":IOSCfgLine.is_portchannel_intf", MC+":BaseIOSIntfLine.build_reset_string", MC+":IOSAccessLine.build_reset_string"])

p("A static IPv6 route says what its command says",
  "For a line ipv6 route [vrf V] PREFIX/LENGTH [INTERFACE] [ADDRESS] [nexthop-vrf V] [DISTANCE] [unicast | multicast] [tag N] [track N] [name NAME], in every combination of the optional parts and for every text of the IPv6 addresses, the factory makes a route object; vrf, masklen, next_hop_interface, next_hop_addr, nexthop_vrf, admin_distance (1 if there is none), multicast, tag, tracking_object_name and route_name are what the command says; network is the prefix and network_object the prefix with its length; global_next_hop and permanent are refused.",
  "all routes: all names, all forms of IPv6 addresses, all numbers, all combinations of parameters", "infinitely many names and addresses and 2^9 combinations",
  [MC+":IOSRouteLine", MC+":_RE_IPV6_ROUTE", MC+":IOSRouteLine.network", MC+":IOSRouteLine.nexthop_str", MC+":IOSRouteLine.network_object"])

p("A static IPv6 route of NXOS says what its command says",
  "For a line ipv6 route [vrf V] PREFIX/LENGTH [INTERFACE] [ADDRESS] [nexthop-vrf V] [DISTANCE] [unicast | multicast] [tag N] of an NXOS configuration, in every combination of the optional parts and for every text of the IPv6 addresses, masklen, next_hop_interface, next_hop_addr, admin_distance (the text 1 if there is none) and tag are what the command says; network is the prefix and network_object the prefix with its length; route_name is refused.",
  "all routes: all names, all forms of IPv6 addresses, all numbers, all combinations of parameters", "infinitely many names and addresses",
  [MN+":NXOSRouteLine", MN+":_RE_IPV6_ROUTE", MN+":NXOSRouteLine.network", MN+":NXOSRouteLine.nexthop_str", MN+":NXOSRouteLine.network_object"])

p("reset() puts the reset command before the interface",
  "reset() of an interface object of an IOS, NXOS, IOS XR or Junos configuration puts one line, the word default with the text of the interface, directly before the interface and changes no other line; for ASA it is refused.",
  "all configurations a program can reach, all interfaces, both values of atomic", "all configurations and histories of edits",
  [MC+":BaseIOSIntfLine.reset", MN+":BaseNXOSIntfLine.reset", MX+":BaseIOSXRIntfLine.reset", MJ+":BaseJunosIntfLine.reset", MA+":BaseASAIntfLine.reset", A+":BaseCfgLine.insert_before"])

p("Escaped braces are given back by format",
  "safe_escape_curly_braces(text) gives a text from which str.format() makes the text again, whatever braces are in it; escaping a second time changes nothing; a text without braces is left as it is.",
  "all texts", "texts of any length with any braces",
  [A+":BaseCfgLine.safe_escape_curly_braces"])

p("Diff() compares what it is given",
  "Diff(old_config, new_config, syntax) accepts a text, the path of a file, a list, a tuple or None for each configuration; the two configurations that are compared have exactly the lines of the text, of the file or of the list, and none for None. Anything else raises ValueError, and a syntax other than ios raises NotImplementedError.",
  "all arguments, all texts and lists of lines, all files", "texts and lists of any length",
  [M+":Diff"])

p("attribute_sort() sorts numbers and texts by number",
  "CiscoRange.attribute_sort(target_list, reverse) returns the same members in the order of the numbers they are or write, or against it with reverse; members with the same number keep their order and the range is unchanged. An empty list, a text that writes no number and a list of numbers with a text in it raise. Without a list the members of the range itself are sorted.",
  "all lists of int and str, all ranges, both directions", "lists of any length",
  [U+":CiscoRange.attribute_sort"])

p("sixtofour and teredo give the embedded IPv4 addresses",
  "For an IPv6Obj whose address is a 6to4 address (2002::/16), sixtofour is the IPv4 address in it; for a Teredo address (2001::/32), teredo is the pair of the server and the client; for all other addresses they are None.",
  "all IPv6Obj instances", "2**128 addresses",
  [U+":IPv6Obj.sixtofour", U+":IPv6Obj.teredo"])

with open("/verif/properties.jsonl","w") as f:
    for x in P: f.write(json.dumps(x)+"\n")
print(len(P))
