{
 "C01": "For every pair of objects reachable through the public API.",
 "C02": "Order laws for every reachable object; trichotomy with == for objects that never had a negative network_offset assigned (C02_trichotomy_fails shows why the condition is needed); longest match for every route table.",
 "C03": "Addition is exact. Subtraction rejects the result 255.255.255.255 (C03_sub_fails), so it and the round trip carry that exception.",
 "C04": "",
 "C05": "Holds for k >= 0 up to the broadcast offset, which can be set but not read back on /0../30; negative offsets are accepted (C05_offset_fails).",
 "C06": "Also the three mask notations build the same object.",
 "C07": "True answers are always right; False is wrong for /127 and /128 members near the top of a /126 or shorter network (C07_contains_fails).",
 "C08": "Subtraction has the same all-ones exception as IPv4 (C08_sub_fails).",
 "C09": "For integer ranges written with any blanks around commas and dashes.",
 "C10": "Both directions: expanding the compressed text gives the set back, and the compressed text is the canonical one.",
 "C11": "Repeated reads agree; as_list on an object whose text lists duplicates is the exception shown by C11_as_list_doubles_fails.",
 "C12": "Single operations and every history of append/remove calls.",
 "C13": "Union and difference are exact; r - r with the same object skips members while iterating (C13_sub_self_fails).",
 "C17": "Every non-empty password of 8-bit characters and every two-digit salt. The bare salt raises (C17_empty_raises).",
 "C18": "eq, bare, lt, gt are exact; names have the IANA numbers; 'range' does not check the bounds, 'neq N' denotes [N], and the table exchanges ftp and ftp-data (three _fails theorems).",
 "C44": "Exact result for both directions at any indentation; twice is the identity up to spacing unless the command starts with two 'no'.",
 "C50": "Parity for any number of words, any blanks; a pair in front of a one-character command is kept (C50_short_command_fails). Termination and idempotence for all inputs.",
 "C20": "Exact set of kept lines for every option and input; the claim fails only because empty strings are removed before parsing even inside a banner (C20_fails). C20_no_loss: no non-blank line is ever lost, duplicated or reordered.",
 "C21": "Holds. C21_parent is stronger than the property: it fixes the parent of every line of every configuration, including banners, macros and braces.",
 "C22": "Order, acyclicity and root proved for all configurations; exact agreement proved without banners, macros and closing braces; three witnesses show where it fails otherwise. C22_children says exactly what the children are in all cases.",
 "C23": "Line numbers are the input positions; they are positions in objs unless a blank line was dropped (C23_fails).",
 "C24": "No children: proved for all (delimiters other than b, s, m). Never a parent: proved unless the comment ends with an opening brace (C24_fails).",
 "C25": "Parent, keeping, order and completeness of the body proved for all; 'exactly' fails because an indented body line is appended twice (C25_twice_fails).",
 "C26": "Holds for all macros of a configuration that parses (an unterminated macro makes parsing fail, see C28).",
 "C27": "Commit always succeeds; texts are unchanged and a second commit is the identity unless a macro has no name; the tree is the same unless a comment stands directly below a dropped blank line (witnesses for both exceptions).",
 "C28": "Exact condition for success proved; two witnesses of failing text.",
 "C43": "Proved for texts that do not start with a digit; witness otherwise. Python's string hash is taken to be injective.",
 "C29": "For every regex (an arbitrary function on texts).",
 "C30": "C30_children and C30_recurse give the exact result for every spec; it is the claimed one for specs that match their own text and no empty string (C30_parents_partial); C30_fails: the literal-substring shortcut returns parents whose children do not match.",
 "C31": "Holds for every configuration and spec, with and without recurse.",
 "C32": "Exact result for every spec; claimed one for normal specs; C32_fails: empty matches are dropped on the child side only.",
 "C33": "Soundness, order and completeness up to == for all configurations; exact when no text starts with a digit; agreement without banners, macros, closing braces; two witnesses otherwise.",
 "C34": "Proved for the configurations the property names, all indentation patterns.",
 "C35": "C35_rows gives all rows (with the None padding) for two or more levels; one level always raises (C35_single_fails) and flags are ignored for the first level (C35_flags_fails).",
 "C36": "Parent-side queries agree by definition; find_children_w_parents agrees with the recursive object query, not with find_objects_w_parents (C36_fails).",
 "C51": "Proved for configurations in which no text starts with a digit (then == identifies lines, C43); with digits a line can be lost (C51_digit_fails).",
 "C52": "Partition for all specs. The meaning of the two results for specs that match their own text and no empty string; else a literal occurrence also counts (C52_literal_fails).",
 "C53": "The code returns the union of the parents, not the intersection, and only the last spec's children; exact behaviour proved, witnesses for both.",
 "C54": "For configurations in which no text starts with a digit; with digits ancestors can be lost (C54_digit_fails). find_lineage for all.",
 "C55": "For configurations in which no text starts with a digit; with digits lines can be lost (C55_digit_fails).",
 "C56": "Without banners, macros and closing braces; a closing brace is not its own sibling (C56_brace_fails).",
 "C37": "Exact effect of delete() for every reachable configuration in which line numbers are positions and the family is still listed and has no text with a leading digit; holds right after a parse that dropped no line of blanks. Witnesses: gaps left by dropped blank lines, stale children, inserted objects.",
 "C38": "Exact effect when the families of the matching lines are disjoint; witness for nested matches (an unrelated line is deleted).",
 "C39": "ConfigObjs.insert_before/after: exact for all reachable configurations. CiscoConfParse.insert_*: exact number of copies; it is the claimed one only with one match (witness C39_twice_fails). C39_line_before: insert_before of a line object with a line object; C39_line_after_fails: insert_after refuses every line object with TypeError.",
 "C40": "Exact when the text of the family's last line, as a regex, matches only that line; witness otherwise.",
 "C41": "By induction over all edit histories in which each edit inserts at one place at most; witness when one object is inserted at two places.",
 "C42": "Exact when no replacement is blank; witnesses for blank results (whole family deleted) and the stale indent.",
 "C57": "prepend_line: exact without factory, always TypeError with it; append_line ignores its argument (C57_append_any, C57_append_fails).",
 "C58": "Exact when the text of the object (or of the one matching child), as a regex, matches only that line; witnesses otherwise.",
 "C59": "For every state, reachable or not, with no line of blanks that the parser drops (C59_blank_fails shows one dropped).",
 "C60": "Exact for replacements that are never blank and parents without common children (with excludespec: no matching parent below another); soundness (C60_*_sound) without those restrictions; replace_all_children stops after two levels (C60_depth_fails).",
 "C61": "For disjoint, listed families without leading digits and regexes that match their own text; C61_parse_partial derives all of that for a fresh parse without banners, macros and closing braces. C61_gap_fails: after a blank line was dropped by the parse the object's number and place differ, and the wrong child is deleted.",
 "C62": "Any reachable configuration and index. insert without factory (with it: TypeError, C62_factory_fails). del for configurations without blank lines that the parser drops (C62_blank_fails).",
 "C45": "For documents written one item per line (statements, `t {`, `}`, `} t {`, `t { }`, # comments, blank lines; any spacing, any depth and width). Blocks written on one line, text behind `}` and `}}` are handled wrongly (the _fails theorems).",
 "C46": "Same documents; block headers must not look like comments to the parser. Parents, children and the listed lines are exactly those of the brace tree.",
 "C47": "parent = matching opening line, for text of any nesting; an unmatched closing brace raises ValueError; balanced text parses. `} else {` pushes without popping, so one brace too many goes unnoticed (C47_else_fails).",
 "C14": "All prefixes of letters, hyphens and inner blanks, all natural numbers, all 2^4 and more shapes; white text around the parts. Also: the parser returns only such interfaces, so rendering is a normal form for every accepted name.",
 "C15": "== , hash and < for all interfaces (C15_lt gives the order itself, C15_typeError exactly when comparing fails). Comparing fails when the first different part is missing on one side (C15_lt_fails); the prefix is not looked at (C15_prefix_fails).",
 "C16": "Range texts of any length over one slot/card, white text behind commas, class word of letters. A hyphen in prefix or class is not accepted (C16_hyphen_fails); channels and subinterfaces behind a comma fail; `1/1,2/5` keeps slot 1 (C16_slot_fails).",
 "C63": "Fails: a fourth number, double separators and repeated signs are dropped, a name without port takes its subinterface number as port, and channel/subinterface change places. For well-formed names C14_parse and C14_name give the positive result.",
 "C19": "Statement lines with any spacing and any valid VLAN lists, among other lines. The result is the device's for plain statements followed by add/remove without return, and for one except with changes. Re-adding, a second plain list, statements behind a remove, and except behind a list give other sets than the device (the _fails theorems): the code sorts statements by kind.",
 "C49": "Reading back succeeds and loses no non-blank line, for texts without line terminators inside; exact when no blank line is kept and no banner is left open; line terminators make no difference. Witnesses: an empty line is added with ignore_blank_lines=False or at an open banner, blank banner lines are lost, a carriage return inside a text splits it.",
 "C48": "Equal configurations: fully proved for every configuration, hash and syntax (C48_identical*). The rest is proved for ios/nxos, texts without a leading digit and hashes without collisions among the texts; it fails when a line compares equal to its parent (C48_digits_fails).",
 "C64": "Proved for ios/nxos, texts without a leading digit and hashes without collisions. For asa and iosxr nothing is ever reported (C64_syntax_fails).",
 "C65": "Proved: kept and removed lines come in the order of before. Fails: added siblings come out reversed; with a repeated parent a removed child is shown below another line.",
 "C66": "Proved for every configuration, expression, hash and syntax.",
 "C67": "Exact description for ios/nxos without leading digits and hash collisions. Fails: AttributeError when uncfgspec does not match; no commands at all for asa.",
 "C68": "Proved for added lines; removal commands come without their parents (C68_remove_fails).",
 "C69": "Proved for configurations without repeated paths (counts and positions); fails with repeated lines, and the two numbers are in the wrong order.",
 "C70": "Proved for every expression of the modelled regex language (Re), every tree and every conversion.",
 "C71": "Proved for every configuration whose lines contain no newline, including carrier-delay in seconds or milliseconds and xconnect_vc.",
 "C72": "description, encapsulation and duplex for every configuration; access groups and vrf for lines without double blanks (C72_blanks_fails is the witness that the restriction is needed).",
 "C73": "shutdown, mpls and speed for every configuration; the flags that need an address for lines without double blanks. Fails with double blanks and without an address.",
 "C74": "ipv4_addr, ipv4_netmask and the object are characterised for every configuration; they agree if no address line has words behind the mask, and disagree with a secondary line first (C74_secondary_fails).",
 "C75": "is_switchport, modes, CDP and port security for every interface line; VLANs if they are numbers. Fails: 'switchport access vlan dynamic' raises, trunk encapsulation as routers print it is missed, has_dtp is false on every interface.",
 "C76": "Address, mask, group, timers, key chain and use-bia for every configuration whose lines contain no newline; the priority for standby lines with a group number. Fails: has_hsrp_preempt looks for use-bia; hsrp_priority raises TypeError without a group number.",
 "C77": "Proved for every text; the classes are described in the specification Spec.Kind by the words with which the line begins.",
 "C78": "Proved for every list of lines (with ignore_blank_lines, for lists without empty strings, which factory=True does not drop).",
 "C79": "Proved for every combination of the optional parameters and all values, for the order of parameters in the IOS syntax and single blanks between the words (which is what IOS writes); other spellings are C81.",
 "C80": "Partial: holds for configurations without routes and AAA server groups. False otherwise: 'ip route static bfd ...' and 'aaa group server radius' raise ValueError; a description mentioning 'spanning-tree portfast default' makes the line an interface global.",
 "C81": "Partial: nexthop_str holds with an address. False: nexthop_str of an interface route ends with a blank; 'dhcp' is read as an interface; two blanks before the next hop make it an interface; 'tag 5 name x' loses the name; IPv6 routes in a VRF have no network.",
 "C82": "Full. line_range is for numbers without slashes (those are C83). Words are split as by str.split().",
 "C83": "False of the code: the minutes and seconds properties raise on every input; three-part numbers lose all but the last part.",
 "C84": "Full. is_ethernet_intf looks at all words behind 'interface', the theorem says so. Letters other than ASCII have no upper and lower case in the model.",
 "C85": "Full, for single blanks in front of the words behind the number; interface_object without a class. Other spellings are C86.",
 "C86": "False of the code: the class is glued to the number and lost; a second blank stays in the number; 1/0.25:3 keeps its subinterface in interface_number.",
 "C87": "Full. Addresses whose last two groups are a dotted IPv4 address are the subject of C89.",
 "C88": "Proved: some part of an accepted text is a text of the address. False of the code: the expression is searched for anywhere in the text and not anchored, so '12345::1', '1:2:3:4:5:6:7:8:9' and '1::2::3' are accepted with other addresses, and of several mask lengths the last one counts.",
 "C89": "Proved for texts of up to 43 characters. False of the code for longer ones: six full groups and a dotted quad take 45 characters, and the constructor rejects texts over 43.",
 "C90": "Proved for all objects. Class tests as in Python before 3.13 (mapped addresses not special).",
 "C91": "Proved for all texts.",
 "C92": "Proved for the texts without '%'. False otherwise: texts of more than 43 characters are refused (C92_long_fails) and the mask length after a zone is lost (C92_zone_fails).",
 "C93": "Proved for all texts: exact characterization.",
 "C94": "Proved for all configurations, texts and patterns of the form in Query/TextSpec.lean.",
 "C95": "Proved for patterns whose blanks are not escaped and not followed by +, * or ?, and for plain texts with exactmatch (same words). False otherwise: a blank followed by + raises re.error (C95_repeat_fails) and a set of characters with a blank gains a + (C95_set_fails).",
 "C96": "Proved for the simple patterns. False with an alternative on top level: a|b becomes ^a|b$ (C96_alternative_fails).",
 "C97": "Proved. recurse and find_child_objects under the hypothesis that children differ in more than digits (see C30, C32).",
 "C98": "Proved for find_child_objects, and for find_parent_objects if no line has a backslash. False otherwise: the test for a substring uses the escaped text (C98_backslash_fails), and with ignore_ws the \\s+ is escaped too (C98_ws_fails).",
 "C99": "Proved for required lines that have a letter. A line without letters is always returned (C99_letters_fails).",
 "C100": "Proved for required lines that are plain texts with a letter and without blanks at the ends. False otherwise: an indented required line is never found (C100_indent_fails), special characters are not escaped (C100_special_fails).",
 "C101": "Proved for violators that have a parent whose children are indented equally and for which the second expression does not find a text that begins with 'no'. False otherwise: C101_no_fails, C101_top_fails.",
 "C102": "Proved without banners, macros and closing braces. False for banners (C102_banner_fails).",
 "C103": "Proved.",
 "C104": "Proved if every line that begins with 'interface' is an interface line with a type and a number. False otherwise: a line such as 'interfaces all' before the interface raises AttributeError (C104_other_fails).",
 "C105": "Proved.",
 "C106": "All prefixes, numbers, words of letters and digits and white texts.",
 "C107": "Fails: text behind slot/card/processor/port is dropped (for all names and all texts that do not go on with a letter or digit), so two subinterfaces are the same interface; slot/card/port is read with the card as port and the port as processor, and str() raises ValueError.",
 "C108": "Equality, hashes, the strict order by texts and exactly when comparing raises TypeError are proved for all interfaces; totality for slot/card/processor/port. Fails: numbers are compared as texts (10 before 9); interfaces with different parts raise TypeError.",
 "C109": "The dictionary round trip is proved for everything that the parser returns, and C109_only says which dictionaries from_dict accepts. Fails: the constructor refuses every dictionary, because the check knows 8 keys without the processor and the update needs the processor; so it also refuses other interfaces. The value types of dictionaries are None, integers and texts.",
 "C110": "Asa/Model.lean models the three dictionary attributes of ConfigList with their regular expressions; 'the last line' is specified by line numbers.",
 "C111": "All ten classes of ALL_ASA_FACTORY_CLASSES, in their order, with the real tests. lower() is modelled for ASCII letters only. Which access-list lines ASAAclLine refuses is not characterised.",
 "C112": "C112_fails: a name line with two blanks in front of the name, which names (C110) accepts, makes the whole parse raise ValueError with factory=True. Proved for configurations without access lists whose name lines have a single blank there.",
 "C113": "network_strings is modelled by recursion over the number of nested calls that Python's stack has room for, so that the theorems speak about every stack size; Spec.Expands is an inductive specification. The name of a group that is expanded must be on a line with single blanks (C114).",
 "C114": "C114_object_fails: 'network-object object x', the usual form on an ASA, raises NotImplementedError. C114_blank_fails: object_group_network finds a group whose line is indented or has two blanks, but the object made for such a line is not an ASAObjGroupNetwork, so the expansion raises AttributeError.",
 "C115": "The cache is explicit state, shared by all groups; Spec.Cache are its reachable contents. IPv4Obj values are immutable in the model: a caller who changes a returned object would change the cached one.",
 "C116": "Lines without a newline character (the lines of a parse).",
 "C117": "Proved for port-object lines with numbers; it fails for service-object lines with an operator before the port, for ports of one character, and for group-object lines.",
 "C118": "The specification (Asa/AclSpec.lean) is a grammar over the words of the line. Where a line has two readings (a name that looks like a mask, or two object groups of which the first may be for ports), the attributes are those of one of them.",
 "C119": "Words behind the destination of a standard list, and words behind the destination of a list for ICMP, are not looked at by the code, so any may follow; the specification says so (Target, IcmpTarget).",
 "C120": "Proved for every line whose destination is not any4. For every line for ICMP with destination any4 the words behind it are lost (C120_any4_fails): the expression tries any first and is not anchored at the end.",
 "C121": "Over the brace documents of Junos/Spec: is_intf, name, is_switchport for every line of every document. Hypothesis: no top level statement begins with a digit (objects are compared by line number and text).",
 "C122": "Proved: units are subinterfaces, interfaces without 'unit' in the name are not. Missing: 'no other line' is false, every statement with 'unit' in it or in the name is one (C122_any_fails), and the other kinds are never True for a line inside a block (C122_kinds_fails).",
 "C123": "Proved for interfaces where every line with 'standby <number> ip' in it has a number as its second word; otherwise (a description, 'no standby 1 ip') ValueError is raised (C123_raises_fails, for all such lines).",
 "C124": "Each attribute in terms of the first line whose words, in small letters, begin with those of the attribute; hold_timer for interfaces where no other line of the group has msec as its last word but one.",
 "C125": "None of it holds: preempt_delay is always 0, ip is 'secondary', without a line ip never gets to raise ValueError (RecursionError at every depth), no group has a key chain.",
 "C126": "Proved for names of two characters or more and one blank behind 'standby'. A name of one character without decrement (standby 1 track 5) raises ValueError (C126_short_fails).",
 "C127": "all pairs of configurations whose line numbers are positions; Python's string hash is taken to be injective (as for C43)",
 "C128": "< and > proved for all such pairs, >= when one configuration begins with the other; refuted: objs <= objs is False for every configuration, and >= raises TypeError for every pair that differs at a common place",
 "C129": "single elements and copy.copy proved; refuted for all: no slice is ever a list with lines, slices that select a line, sums, multiples and copy() raise ValueError for every non-empty configuration",
 "C130": "proved when no line starts with a digit; strings proved for all; refuted by a configuration in which remove takes out another line",
 "C131": "the lists are proved; refuted for all configurations: after pop of any line but the last the numbers behind it are off by one and deleting a leaf deletes the next line or raises, after reverse the numbers are wrong, after append(text) searches raise",
 "C132": "",
 "C133": "proved for lines outside banners, macros and closing braces; refuted for all flush lines in banners, and for indented lines without a parent",
 "C134": "",
 "C135": "proved for texts of at least two characters and tidy lines (vrf); refuted for all one-character texts",
 "C136": "",
 "C137": "proved for lines without two blanks in a row; refuted with two blanks behind switchport",
 "C138": "",
 "C139": "the address 0.0.0.1/32, which the code uses for a missing one, counts as missing in has_no_ipv4 and ipv4_netmask",
 "C140": "proved for at least one subnet and every address but 0.0.0.1; refuted for the empty set in every configuration (unbound local) and for 0.0.0.1/24",
 "C141": "proved for lines without two blanks in a row; refuted: in every interface with an address the PIM properties raise re.error",
 "C142": "Partial: proved for interfaces in a VRF whose first line with the text vrf member is vrf member V. C142_no_vrf_fails: without such a line, any relay line makes both properties raise UnboundLocalError, for every interface; the documented example is one (C142_doc_fails).",
 "C143": "Partial: proved for histories of all, none, lists, except N, remove N and add N to the empty set. C143_add_fails: once the set is not empty, every add statement raises an exception; C143_list_fails: every except or remove statement with a comma or hyphen raises ValueError. Both hold for every interface and every history before the statement.",
 "C144": "Groups are the child lines hsrp N; addresses are looked up below each group in turn.",
 "C145": "Partial: the priority of the first group if it is set and not 100, the timers of the first group, track and preempt of the last group. C145_priority_fails: without a priority other than 100 the result is None; C145_timers_fails: without a group both timers raise UnboundLocalError; C145_preempt_fails: a preempt line of an earlier group is lost when a later group has none.",
 "C146": "Partial: without a vpc peer-link line the result is empty. C146_peerlink_fails: every interface with the line raises IndexError, because the expression has no group 1.",
 "C147": "Partial: storm control is found only in lines that are the one word storm-control; has_dtp is decided by the first child. C147_storm_fails, C147_dtp_fails and C147_encap_fails.",
 "C148": "Partial: lines with a group and one method. C148_methods_fails: several methods are always one text; C148_last_fails: without methods the group loses its last character, which becomes the method; C148_local_fails: without the word group everything is empty.",
 "C149": "The canonical lines and every other single-blank line.",
 "C150": "The group line for single-blank lines; vrf and source_interface for every parsed configuration.",
 "C151": "Partial: servers with something behind them. C151_private_fails: the expression wants a blank behind the server, so a configuration whose server-private lines have nothing behind the server has no servers.",
 "C152": "The number for every line without blanks at its ends; the others for every parsed configuration.",
 "C153": "Partial: the text ip arp synchronize anywhere in a line counts. C153_arp_fails: no ip arp synchronize also gives true.",
 "C154": "Partial: where no word other than the keyword ends with the keyword. C154_timeout_fails: hold-timeout N before timeout is read as the timeout; C154_no_fails: no peer-keepalive destination A gives the destination A. C154_total: no exception as long as the values behind tos-byte are numbers.",
 "C155": "The canonical IPv4 form with every combination of the optional parameters.",
 "C156": "Partial: next hops with an address. C156_nexthop_fails: over an interface alone nexthop_str ends with a blank; C156_ipv6_fails: every IPv6 route raises KeyError for tracking_object_name and routeinfo and NotImplementedError for route_name; C156_text_fails: two blanks before the next hop, another order.",
 "C157": "All lines, for all classes.",
 "C158": "Partial: lines that are no routes and no AAA server groups. C158_word_fails: every line that begins with ip route and goes on without a blank raises ValueError; C158_refused_fails; C158_global_fails: a description that contains the words of a global default becomes one.",
 "C159": "The expressions are those of IOS.",
 "C160": "Partial: parse_exectimeout as a list. C160_minutes_fails: minutes and seconds always raise an exception; C160_range_fails: ranges with slots.",
 "C161": "All attributes and all values (None, integers, texts).",
 "C162": "All parts; slot and card for interfaces with a slot.",
 "C163": "The part that holds is C162. C163_slot_fails: a slot on an interface without one gives a name with None between the numbers; C163_card_fails: str() raises ValueError; C163_port_fails: str() raises ValueError or ends the interpreter; C163_negative_fails: the name is read as another interface; C163_separator_fails: None never removes the separator.",
 "C164": "Objects reached by any sequence of assignments.",
 "C165": "Partial: objects with a port, a card only with a slot, a separator with a slot. C165_card_fails: the card is lost; C165_error_fails: exceptions; C165_xr_fails: no IOS XR interface can be copied.",
 "C166": "Partial: no subinterface and no channel, or a card and a subinterface. C166_tail_fails: all other interfaces raise ValueError; C166_xr_fails: the processor is lost.",
 "C167": "Proved for all lists of networks of one version. The algorithm of the standard library (ranges, summaries, merging loop, final pass) is modelled step by step rather than assumed; the merging loop is proved with an invariant over its stack and dictionary, the maximality by induction over the prefix length.",
 "C168": "Proved for all lists; the generator is consumed in the model, so an error raised during iteration is an error of the call.",
 "C169": "in_ipv4_subnet proved in full. in_ipv4_subnets proved for lists with at least one non-empty object; for the others it raises UnboundLocalError (C169_empty_fails, for every interface).",
 "C170": "Fails for every interface (C170_network_fails): the property reads an attribute ipv4_mask which no class has and the exception is swallowed, so the result is always the empty object.",
 "C171": "Proved. KidsNoDigits says that no line that is a child of another begins with a digit; equality of line objects compares line number and text glued together, so `all_children` could otherwise drop a line.",
 "C172": "Proved with `a duplex line` in place of `a fixed duplex mode`; `duplex auto` counts as fixed (C172_duplex_auto_fails).",
 "C173": "Proved. The prefix length is written with at most three digits; longer ones run into the length limit of the address parser.",
 "C174": "Proved: the text up to the first slash, so the address when a prefix length follows it at once; empty when a dynamic line is present. Fails otherwise (C174_addr_fails): for `fe80::1 link-local` the keyword is part of the result, and a dynamic line hides a static address.",
 "C175": "Proved. An address without a mask on its own line would be combined with the mask of another line; the theorem about the object asks that each address has its mask.",
 "C176": "Proved, for non-empty lists (for [] see C182).",
 "C177": "Proved for lines without two blanks next to each other (C177_standby_partial). Fails otherwise: the expression allows one blank before standby only (C177_blanks_fails).",
 "C178": "Proved. The prefix length is written with at most three digits.",
 "C179": "Proved.",
 "C180": "Proved as far as it holds (C180_*_partial). Fails (C180_fails): a description of one letter is lost, `duplex auto` counts as a fixed duplex, two blanks after switchport hide the access mode.",
 "C181": "Proved. The kinds of is_virtual_intf have to be written with just the capitals of the code: Port-channel is not virtual.",
 "C182": "Fails: has_manual_switch_trunk_encap always raises AttributeError, in_ipv4_subnets([]) raises UnboundLocalError (C182_raises_fails), has_ip_pim_sparse_mode raises re.error for every interface with an address (C182_pim_fails), port raises IndexError for every interface line without a digit (C182_port_fails).",
 "C183": "Proved. The methods inherited from collections.abc.MutableSequence are modelled from the standard library. str round trip for natural numbers, the only ones a range text can denote.",
 "C184": "as_set(int) and as_set() of an empty range are right (C184_as_set_partial). Fails: assignment stores nothing (C184_setitem_fails, C184_setitem_silent_fails), so reverse() does nothing (C184_reverse_fails); as_set() raises TypeError for every non-empty range (C184_as_set_fails); slices, insert and the hash of an empty range raise (C184_unsupported_fails).",
 "C185": "Proved for new members (C185_extend_partial). Fails (C185_extend_fails): with a member among the values it raises and keeps the values before that one.",
 "C186": "Proved.",
 "C187": "Proved.",
 "C188": "Partial: proved for interfaces with a valid address other than 0.0.0.1 and for collections that are not empty. C188_empty_fails: an empty collection raises UnboundLocalError; C188_one_fails: for 0.0.0.1 with any mask the answer is None.",
 "C189": "Proved for the forms named in the statement (C189_name, C189_parts, C189_none).",
 "C190": "Fails: C190_sub_fails, for every slot/card/processor/port.sub the name is that of the main interface; C190_three_fails, for every slot/card/port reading the name raises ValueError. C190_bundle_partial: port.sub keeps its number.",
 "C191": "Partial: proved for numbers without letters. C191_management_fails: a letter in the card or the processor (0/RP0/CPU0/0) raises ValueError, for every such interface.",
 "C192": "Proved.",
 "C193": "Partial: descriptions and duplex values of at least two letters, single blanks. C193_switch_fails and C193_fails: storm control with an argument and DTP are never seen, the trunk encapsulation only with the keyword cut to encap (and then the whole line is the answer), one-letter descriptions are lost, `duplex auto` counts as fixed.",
 "C194": "Fails (C194_vrf_fails): every interface with a line `vrf NAME` raises IndexError, since the second group of an expression with one group is read. C194_vrf_partial: without one, vrf is empty.",
 "C195": "Proved.",
 "C196": "Fails (C196_preempt_fails): has_hsrp_preempt looks for use-bia, so it is false for every interface without that line.",
 "C197": "Partial: single blanks, no DHCP. C197_dhcp_fails: with DHCP every one of these attributes raises; C197_lines_fails: two blanks hide a line, and `ipv4 access-group A ingress` is not seen.",
 "C198": "Partial, as C143 for NXOS: the code is the same text. C198_add_fails and C198_list_fails are universal.",
 "C199": "Partial: proved for expressions that match their own text and never the empty string, with all_children also no child's text starting with a digit; the connection with find_parent_objects holds for every expression (C199_find). C199_literal_fails: a child that contains the text of the expression counts although the expression does not match it.",
 "C200": "Partial: is_parent fully proved; is_child and geneology_text when no text starts with a digit (and for the children list, without brace lines). C200_digit_fails: a line that compares equal to its parent is no child.",
 "C201": "Proved. C201_twice and C201_descendants hold for every state.",
 "C202": "Fails in both directions for every configuration (C202_child_fails, C202_parent_fails): each call sets one link only. C202_both_partial: both calls together link the lines in both directions.",
 "C203": "Proved (C203_name, C203_parts, C203_ordinals, C203_none).",
 "C204": "Proved.",
 "C205": "Partial: what counts as fixed duplex is any value of at least two letters. C205_duplex_auto_fails: `duplex auto` counts as fixed.",
 "C206": "Proved (C206_eq, C206_equivalence, C206_hash).",
 "C207": "Partial: tracked interfaces with different names are different and equal data give equal hashes. C207_same_fails: comparing two of the same name, also one with itself, raises AttributeError, and so does printing one.",
 "C208": "Partial: exact for IPv4 texts (C208_v4_partial). C208_v6_fails: every IPv6 text raises ValueError.",
 "C209": "Proved.",
 "C210": "Proved. The engine of Python (compile and search) is a parameter; the statement holds for each.",
 "C211": "Partial: proved for wrappers built without a text. C211_target_fails: built with a text, captured is empty and a search raises. C211_flags_fails: assigning the same expression drops the flags.",
 "C212": "Partial: lists and files, with blank lines kept. C212_object_fails: a parsed configuration is never compared, RequirementFailure is raised.",
 "C213": "Proved (C213_number, C213_text, C213_words, C213_error).",
 "C214": "Partial: texts come back unchanged (C214_same_partial). C214_integer_fails: an integer assigned to slot, card or processor is read back as a text.",
 "C215": "Partial: proved for objects with all numbers (C215_name_partial, C215_assign_partial). C215_none_fails: a slot assigned to an interface with one number makes a name with the word None in it.",
 "C216": "Proved.",
 "C217": "Proved. There is no condition on what stands before the block, not even that its banners end. Parents are not part of the claim: below an open banner the parent of the block's first line is the banner.",
 "C218": "Proved for the modelled attributes that are read from the interface and its descendants. Not among them: ip_secondary_addresses and ip_secondary_networks, which start from the parent of the interface line.",
 "C219": "Proved for the modelled attributes.",
 "C220": "Proved. The condition about banners and macros of the second part is needed because a banner above can be the parent of the block's first line.",
 "C221": "The general part and the part about insertion are proved. The part about deletion (C221_delete_partial) needs configuration lines only, no banners, macros or closing braces, and deleted lines that do not start with a digit. C221_comment_fails: with comments it is false. A comment below the deleted line is not among its children, stays, and becomes a child of the interface before.",
 "C222": "C222_insert_partial and C222_delete_partial: for configurations without blank lines, banners, macros and closing braces, and inserted or deleted lines that do not start with a digit. An inserted line must be a comment, or be followed by a configuration line that is not deeper, or by nothing. C222_adopt_fails: otherwise it becomes the parent of the deeper line and takes it along when it is deleted.",
 "C223": "C223_eq_partial: an IPv6 object with an address of more than 32 bits or a prefix longer than 32 differs from every IPv4 object. C223_eq_fails: every IPv4 object is equal to the IPv6 object with the same number and prefix length; != disagrees and the hashed texts differ. C223_in_partial, C223_in_fails, C223_raise_fails: when `in` gives True, False or ValueError.",
 "C224": "C224_order, C224_total and C224_sorted hold for all regular objects. C224_eq_partial: equal objects of one family are not less than each other. C224_eq_fails: every IPv4 object with a nonzero network is equal to an IPv6 object that is also less.",
 "C225": "C225_eq_partial: equality. C225_fails: the hash raises AttributeError and `in` raises ValueError or gives True.",
 "C226": "C226_all for every type; C226_types_partial for None, CiscoIOSInterface, str (which gives interfaces, not texts) and int. C226_float_fails and C226_xr_fails: every text but the empty one raises an error.",
 "C227": "C227_exact_partial: same hash_children iff the descendants have the same line numbers and texts, if no child's text starts with a digit; Python's hash is taken to be injective. C227_fails: so two lines of one configuration that have children never have the same.",
 "C228": "C228_word, C228_side and C228_fits_partial: right after the word is assigned the marks agree. C228_stale_fails: assigning the side afterwards leaves the word.",
 "C229": "C229_blocks and C229_order, for blocks without banners and macros (C217), each of which parses alone.",
 "C230": "C230_plus_partial, C230_minus_partial, C230_order_partial under the hypotheses of C48 (no unindented line starts with a digit, no hash collision, ios or nxos), for blocks without banners, macros and closing braces. C230_digits_fails: a line with a leading digit makes a moved block show up.",
 "C231": "C231_present_partial and C231_order_partial under the hypotheses of C230. C231_digits_fails.",
 "C232": "C232_mirror_partial and C232_count_partial, under the hypotheses of C48 (no unindented line starts with a digit, no hash collision, ios or nxos). The order of the lines is not compared.",
 "C233": "C233_compose_partial, under the hypotheses of C48 for each of the three pairs.",
 "C234": "C234_delete_partial and C234_again_partial, if no line belongs to the families of two matching lines, there are no blank lines and no text in these families starts with a digit. C234_nested_fails: if one expression matches a child of a line that the other matches, the order matters.",
 "C235": "C235_fresh_partial, C235_branches_partial and C235_lineage_partial, if no line is blank (or blank lines are kept). C235_macro_fails: a blank line inserted into a macro is kept and found after commit, but a new parse drops it.",
 "C236": "C236_before_partial, if no line of before occurs twice with the same parents; C236_after_partial gives the lines of after up to their order; both under the hypotheses of C48. C236_repeat_fails: a repeated line appears only once. C236_order_fails: the added lines of a parent come in the reverse order.",
 "C237": "C237_links_partial and C237_without_partial, for a childspec that matches its own text and never the empty string (as in C30), if no child starts with a digit. C237_star_fails: with the childspec x* a parent is found and no child.",
 "C238": "C238_v4, C238_v6, C238_order4 and C238_order6.",
 "C239": "C239_lines_partial and C239_nothing_else_partial: wanted configurations that consist of blocks (C217) without comments, blank lines, banners, macros and closing braces, written with single blanks, under the hypotheses of C48. C239_banner_fails: the commands for a banner are not that banner.",
 "C240": "C240_lines_partial and C240_again_partial: wanted configurations as in C239, configurations of blocks, without remove_lines. C240_indent_fails: a first line that is indented is asked for again. C240_remove_fails: the same with remove_lines, as removals come without parents.",
 "C241": "C241_linespec, C241_remove and C241_none, for all inputs.",
 "C242": "C242_add_partial, C242_remove_partial and C242_parents_partial, under the hypotheses of C48 (no text starts with a digit, no hash collisions, ios or nxos).",
 "C243": "C243_same_partial, for all configurations and options; missing: with ignore_blank_lines, lines that are blank, and lines that are just 'macro name' (C243_blank_fails and C243_macro_fails: refuted).",
 "C244": "C244_tree_partial, for all strictly increasing indentations; missing: banners and macros, which are only recognised at the left margin (C244_macro_fails: refuted).",
 "C245": "C245_parent_partial and C245_children_partial, without banners and macros; a comment may end a banner (C245_banner_fails), and comments themselves may get another parent (C245_comment_fails).",
 "C246": "C246_lines, C246_file and C246_only, and which exceptions refuse lists with other elements (C246_other, C246_line); a pathlib.Path is always refused (C246_path_fails), and for Junos a tuple if blank lines are kept (C246_tuple_fails). With the filter for blank lines any sequence of strings is accepted, and objects without text in it are dropped.",
 "C247": "C247_agree, C247_lines, C247_brace and C247_again for the lines and the exception. The tree is left inconsistent when a macro without end is committed (C247_tree_fails): the parents and children that the macro pass has changed so far stay as they are.",
 "C248": "C248_agree, C248_same_partial (without atomic) and C248_atomic_partial; with atomic=True the new line stays when the commit after the insertion raises (C248_atomic_fails).",
 "C249": "C249_syntax, C249_delimiters and C249_blank; the example beside them shows that no condition can be dropped.",
 "C250": "C250_append_partial for the default width of one blank, without banners, macros and closing braces and under the condition of C40 that the last line of the family is found by its text; C250_put is the part about the tree, for every place and text with an indent that fits. With a wider indent than that of the children the new line becomes a child of the last child (C250_width_fails).",
 "C251": "C251_put_partial and C251_comment_partial for configurations without banners, macros, closing braces and blank lines; in a macro the new line hangs below the macro whatever its indent is (C251_macro_fails).",
 "C252": "C252_removed for every set of lines that is closed under children; C252_delete_partial, C252_delete_lines_partial and C252_delete_children_partial under the conditions of C37, C38 and C61, without banners, macros, closing braces and blank lines. A comment can get a parent that it did not have (C252_comment_fails); with recurse=False the children go to another line (C252_recurse_fails).",
 "C253": "C253_parse_partial, C253_replaced_partial and C253_replace_lines_partial without banners, macros, closing braces and blank lines. When a line becomes a comment its children go to another line (C253_comment_fails).",
 "C254": "C254_prefix_partial without banners, macros, closing braces and blank lines; a macro without its end cannot be read alone (C254_macro_fails).",
 "C255": "C255_last_partial for one step and C255_history_partial for any number of them (each step reads the lines of the commit before), for configurations without comments, blank lines, banners, macros and closing braces, for texts put behind the last line of the family as C40 says. A deeper text becomes a child of the last child (C255_depth_fails).",
 "C256": "C256_read_partial and C256_unique_partial, for texts that are no comments, start and end without white space, and for lines that are no banners, macros or closing braces. Below a comment nothing hangs (C256_comment_fails) and trailing white space is lost (C256_space_fails).",
 "C257": "C257_walk_partial and C257_below_partial, for configurations without comments, blank lines, banners, macros and closing braces. A comment is visited behind the lines that follow it (C257_comment_fails, C257_below_fails).",
 "C258": "C258_delete_partial, with the trees and the conditions of C256, if no text of the family starts with a digit (see C43). delete(recurse=False) moves the children to another line (C258_recurse_fails).",
 "C259": "C259_append_partial, with the trees and the conditions of C256, if the text of the last line of the family, taken as a regular expression, matches that line only (see C40; else C259_twice_fails) and no text of the family starts with a digit (see C43).",
 "C260": "C260_before_partial, with the trees and the conditions of C256, if the text of the line, taken as a regular expression, matches that line only (see C40). insert_after(text) takes the children of the line away from it (C260_after_fails).",
 "C261": "C261_v4 and C261_v6 (the text is read back as the object), C261_inj4 and C261_inj6 (the same repr is the same object). IPv6Obj(None) is not covered. Objects with a negative network_offset assigned are excluded (see C05).",
 "C262": "C262_extend, C262_append, C262_repeat, C262_set, C262_pop, C262_reverse, for any list; C262_sum_partial and C262_times_partial for sums and multiples, when all elements are texts without blank lines, banners and macros (with line objects sums raise, see C129_sum_fails). Line numbers are not kept up to date (see C131).",
 "C263": "C263_offset_partial for offsets >= 0, with the reading back for every address but the last one of a /0../126. C263_offset_fails shows both gaps in the code: the last offset can be set but not read (the comparison is with numhosts, which leaves out two addresses), and a negative offset is accepted although it leaves the subnet.",
 "C264": "C264_subtree_partial (the lines) and C264_again_partial (read again), for forests without comments, banners, macros and closing braces; C264_comment_fails shows that a comment written inside is left out.",
 "C265": "C265_texts_partial for <, > and >= on lists of texts; C265_lines_partial for < and > on lists of lines (two lines are equal if line number and text, written one after the other, are). C265_le_fails: <= is written with <, so that no list of texts is <= itself. C265_mixed_fails: a line and a text cannot be compared. On lines >= raises TypeError (C128_ge_fails).",
 "C266": "C266_repr and C266_identifies, for every interface that the parser returns.",
 "C267": "C267_hostname; the regular expression is run by the model of re.",
 "C268": "C268_channel and C268_reset; letters are lowered for ASCII only.",
 "C269": "C269_route and C269_class hold for every route. C269_network_partial needs a route without VRF: C269_vrf_every_fails shows that network is empty and network_object None for every route in a VRF whose name has no slash and is not vrf, because the expression for network does not skip the name of the VRF. An interface is one word; C269_interface_fails shows what becomes of a name with a blank before its number.",
 "C270": "C270_route holds for every route. C270_network_partial needs a route without VRF: C270_vrf_every_fails shows that network is empty and network_object None for every route in a VRF whose name has no slash and is not vrf, because the expression for network does not skip the name of the VRF.",
 "C271": "The property is false: C271_reset_fails shows that reset() raises TypeError for every interface, because insert_before has no parameter atomic. C271_insert_partial and C271_one_partial say what the same call does without that keyword; C271_other_fails shows that the command is also put before other lines that hold the text of the interface. The call of a Python function is modelled by its parameters, the number of its arguments and its keywords.",
 "C272": "C272_twice and C272_same hold for every text. C272_format_partial needs a text without doubled braces: C272_mixed_fails shows that a text with one doubled brace is not escaped at all, so that format() fails or gives an other text. str.format() without arguments is specified in Misc.Spec.format; every exception of a replacement field is written as ValueError.",
 "C273": "What the library hier_config does with the configurations is not modelled; lines are the lines of str.splitlines(). C273_lines_partial needs lists of single lines whose last one is not empty: C273_last_fails shows the others, because the lines are joined. C273_refused holds for all arguments. C273_file_fails shows that the text of a file is given to the library as a text for the old and as a list for the new configuration. A list with items that are no texts is not modelled.",
 "C274": "For lists of int and str; lists of interfaces, of floats and of anything else are not modelled here. C274_self_fails proves that without a list nothing is sorted: the range keeps its order.",
 "C275": "C275_object_fails proves that both attributes raise AttributeError for every object, because they are asked of the IPv6Network, which has neither; C275_address_partial proves that the attributes of the IPv6Address would be right."
}