# What is modelled

Generated by `tools/coverage.py` from the citations in the Lean sources: a function
counts as modelled when a definition or lemma cites lines inside it.  A method of another
platform also counts when its code is that of a modelled method of `models_cisco.py`, and so
is the code of all methods it uses (`tools/identical.py` compares the syntax trees).

## ccp_util.py: 183 of 256 functions

Modelled:

* `junos_unsupported` (451-469): Edit/Model, Edit/Reset
* `fix_repeated_words` (522-540): Diff/Model, Misc/Words
* `__ccp_re__.__init__` (574-599): Misc/CcpRe
* `__ccp_re__.regex (setter)` (615-622): Misc/CcpRe
* `__ccp_re__.s` (625-641): Misc/CcpRe
* `__ccp_re__.captured` (649-692): Misc/CcpRe
* `_get_ipv4` (696-732): IP/Views
* `_get_ipv6` (736-773): IP/Views
* `ip_factory` (777-835): IP/Views
* `collapse_addresses` (838-866): IP/Collapse
* `IPv4Obj.__init__` (884-1089): IP/Model
* `IPv4Obj.__repr__` (1167-1171): IP/Views
* `IPv4Obj.__eq__` (1175-1197): IP/Mixed, IP/Model
* `IPv4Obj.__ne__` (1201-1206): IP/Mixed
* `IPv4Obj.__gt__` (1210-1240): IP/Mixed, IP/Model
* `IPv4Obj.__lt__` (1244-1278): IP/Mixed, IP/Model
* `IPv4Obj.__int__` (1282-1287): IP/Views
* `IPv4Obj.__index__` (1291-1296): IP/Views
* `IPv4Obj.__add__` (1300-1313): IP/Model
* `IPv4Obj.__sub__` (1317-1330): IP/Model
* `IPv4Obj.__contains__` (1334-1361): IP/Mixed, IP/Model
* `IPv4Obj.__hash__` (1365-1370): IP/Mixed, IP/Model
* `IPv4Obj.__iter__` (1374-1375): IP/Views
* `IPv4Obj.netmask` (1445-1448): IP/Model, IP/Views
* `IPv4Obj.masklen` (1452-1455): IP/Views
* `IPv4Obj.masklength` (1468-1471): IP/Views
* `IPv4Obj.prefixlen (setter)` (1494-1499): IP/Model
* `IPv4Obj.prefixlength` (1503-1506): IP/Views
* `IPv4Obj.packed` (1526-1529): IP/Packed
* `IPv4Obj.broadcast` (1533-1539): IP/Views
* `IPv4Obj.network` (1543-1550): IP/Views
* `IPv4Obj.network_offset` (1554-1560): IP/Model
* `IPv4Obj.network_offset (setter)` (1564-1588): IP/Model
* `IPv4Obj.hostmask` (1601-1604): IP/Views
* `IPv4Obj.inverse_netmask` (1615-1618): IP/Views
* `IPv4Obj.numhosts` (1628-1640): IP/Model
* `IPv4Obj.as_decimal` (1644-1649): IP/Model
* `IPv4Obj.as_decimal_network` (1653-1658): IP/Model
* `IPv4Obj.as_decimal_broadcast` (1662-1666): IP/Model
* `IPv4Obj.as_int` (1670-1673): IP/Views
* `IPv4Obj.as_zeropadded` (1677-1681): IP/Model
* `IPv4Obj.as_zeropadded_network` (1685-1690): IP/Views
* `IPv4Obj.as_hex` (1694-1697): IP/Views
* `IPv4Obj.as_binary_tuple` (1701-1704): IP/Model
* `IPv4Obj.as_hex_tuple` (1708-1711): IP/Model
* `IPv4Obj.as_cidr_addr` (1715-1718): IP/Model
* `IPv4Obj.as_cidr_net` (1722-1728): IP/Model
* `IPv4Obj.is_multicast` (1732-1735): IP/Views
* `IPv4Obj.is_reserved` (1746-1749): IP/Views
* `IPv6Obj.__init__` (1765-1904): IP/Model, IP/Text6
* `IPv6Obj.__repr__` (1907-1914): IP/Views
* `IPv6Obj.__eq__` (1917-1935): IP/Mixed, IP/Model
* `IPv6Obj.__gt__` (1942-1969): IP/Model
* `IPv6Obj.__lt__` (1972-1999): IP/Model
* `IPv6Obj.__int__` (2002-2007): IP/Views
* `IPv6Obj.__index__` (2010-2015): IP/Views
* `IPv6Obj.__add__` (2018-2031): IP/Model
* `IPv6Obj.__sub__` (2034-2047): IP/Model
* `IPv6Obj.__contains__` (2050-2066): IP/Mixed, IP/Model
* `IPv6Obj.__hash__` (2069-2071): IP/Mixed, IP/Text6
* `IPv6Obj.__iter__` (2074-2075): IP/Views
* `IPv6Obj.is_ipv4_mapped` (2117-2128): IP/Text6
* `IPv6Obj.netmask` (2149-2152): IP/Views
* `IPv6Obj.prefixlen (setter)` (2189-2194): IP/Model
* `IPv6Obj.compressed` (2203-2206): IP/Text6
* `IPv6Obj.exploded` (2209-2212): IP/Text6
* `IPv6Obj.packed` (2215-2218): IP/Packed
* `IPv6Obj.network` (2226-2230): IP/Views
* `IPv6Obj.network_offset` (2234-2240): IP/Model
* `IPv6Obj.network_offset (setter)` (2244-2268): IP/Model
* `IPv6Obj.as_decimal_network` (2271-2278): IP/Model
* `IPv6Obj.as_decimal_broadcast` (2282-2285): IP/Mixed
* `IPv6Obj.as_decimal_network_maxint` (2289-2293): IP/Model
* `IPv6Obj.hostmask` (2296-2299): IP/Views
* `IPv6Obj.inverse_netmask` (2308-2311): IP/Views
* `IPv6Obj.numhosts` (2320-2332): IP/Model
* `IPv6Obj.as_decimal` (2335-2342): IP/Model
* `IPv6Obj.as_int` (2345-2347): IP/Views
* `IPv6Obj.as_binary_tuple` (2350-2354): IP/Text6
* `IPv6Obj.as_hex` (2357-2360): IP/Views
* `IPv6Obj.as_hex_tuple` (2363-2367): IP/Text6
* `IPv6Obj.as_cidr_addr` (2370-2373): IP/Text6
* `IPv6Obj.as_cidr_net` (2376-2382): IP/Text6
* `IPv6Obj.is_multicast` (2385-2388): IP/Views
* `IPv6Obj.is_link_local` (2403-2406): IP/Views
* `IPv6Obj.is_site_local` (2409-2412): IP/Views
* `IPv6Obj.is_unspecified` (2415-2419): IP/Views
* `IPv6Obj.teredo` (2422-2424): IP/Tunnels
* `IPv6Obj.sixtofour` (2427-2429): IP/Tunnels
* `L4Object.__init__` (2448-2507): Misc/L4Pass, Misc/Tools
* `L4Object.__eq__` (2509-2512): Misc/Tools
* `check_valid_ipaddress` (2891-2921): Misc/Tools
* `CiscoIOSInterface.__init__` (2974-3065): Intf/Model, Intf/State
* `CiscoIOSInterface.update_sort_list` (3083-3106): Intf/Model
* `CiscoIOSInterface.update_internal_state` (3109-3151): Intf/State
* `CiscoIOSInterface.parse_single_interface` (3154-3245): Intf/Model
* `CiscoIOSInterface.check_interface_dict` (3248-3266): Intf/State
* `CiscoIOSInterface.parse_intf_short` (3269-3334): Intf/Model
* `CiscoIOSInterface.parse_intf_long` (3337-3453): Intf/Model
* `CiscoIOSInterface.from_dict` (3456-3467): Intf/State
* `CiscoIOSInterface.as_dict` (3470-3481): Intf/State
* `CiscoIOSInterface.__eq__` (3484-3492): Intf/Model
* `CiscoIOSInterface.__gt__` (3495-3500): Intf/Model
* `CiscoIOSInterface.__lt__` (3503-3508): Intf/Model
* `CiscoIOSInterface.__hash__` (3511-3515): Intf/Model
* `CiscoIOSInterface.render_as_string` (3518-3532): Intf/Model, Intf/State
* `CiscoIOSInterface.__repr__` (3540-3542): Intf/State
* `CiscoIOSInterface.prefix` (3551-3555): Intf/State
* `CiscoIOSInterface.prefix (setter)` (3558-3566): Intf/State
* `CiscoIOSInterface.number` (3569-3597): Intf/Model, Intf/State
* `CiscoIOSInterface.number_list` (3606-3618): Intf/State
* `CiscoIOSInterface.digit_separator` (3621-3625): Intf/State
* `CiscoIOSInterface.digit_separator (setter)` (3628-3643): Intf/State
* `CiscoIOSInterface.slot_card_port_subinterface_channel` (3646-3669): Intf/State
* `CiscoIOSInterface.slot` (3672-3679): Intf/State
* `CiscoIOSInterface.slot (setter)` (3682-3692): Intf/State
* `CiscoIOSInterface.card` (3695-3702): Intf/State
* `CiscoIOSInterface.card (setter)` (3705-3715): Intf/State
* `CiscoIOSInterface.port` (3718-3725): Intf/State
* `CiscoIOSInterface.port (setter)` (3728-3738): Intf/State
* `CiscoIOSInterface.subinterface` (3741-3745): Intf/State
* `CiscoIOSInterface.subinterface (setter)` (3748-3758): Intf/State
* `CiscoIOSInterface.channel` (3761-3765): Intf/State
* `CiscoIOSInterface.channel (setter)` (3768-3778): Intf/State
* `CiscoIOSInterface.interface_class` (3781-3788): Intf/State
* `CiscoIOSInterface.interface_class (setter)` (3791-3801): Intf/State
* `CiscoIOSXRInterface.__init__` (3843-3934): Intf/XRModel, Intf/XRState
* `CiscoIOSXRInterface.update_sort_list` (3954-3977): Intf/XRModel
* `CiscoIOSXRInterface.update_internal_state` (3980-4025): Intf/XRModel
* `CiscoIOSXRInterface.parse_single_interface` (4028-4124): Intf/XRModel
* `CiscoIOSXRInterface.check_interface_dict` (4127-4145): Intf/XRModel
* `CiscoIOSXRInterface.parse_intf_short` (4148-4217): Intf/XRModel
* `CiscoIOSXRInterface.parse_intf_long` (4220-4335): Intf/XRModel
* `CiscoIOSXRInterface.from_dict` (4338-4350): Intf/XRModel, Intf/XRState
* `CiscoIOSXRInterface.as_dict` (4353-4365): Intf/XRModel, Intf/XRState
* `CiscoIOSXRInterface.__eq__` (4368-4376): Intf/XRModel
* `CiscoIOSXRInterface.__gt__` (4379-4384): Intf/XRModel
* `CiscoIOSXRInterface.__lt__` (4387-4392): Intf/XRModel
* `CiscoIOSXRInterface.__hash__` (4395-4399): Intf/XRModel
* `CiscoIOSXRInterface.render_as_string` (4402-4416): Intf/XRModel, Intf/XRState
* `CiscoIOSXRInterface.prefix` (4435-4439): Intf/XRState
* `CiscoIOSXRInterface.prefix (setter)` (4442-4450): Intf/XRModel, Intf/XRState
* `CiscoIOSXRInterface.number` (4453-4481): Intf/XRModel, Intf/XRState
* `CiscoIOSXRInterface.number_list` (4490-4502): Intf/State
* `CiscoIOSXRInterface.digit_separator` (4505-4509): Intf/XRState
* `CiscoIOSXRInterface.digit_separator (setter)` (4512-4527): Intf/XRModel, Intf/XRState
* `CiscoIOSXRInterface.slot_card_port_subinterface_channel` (4530-4553): Intf/State
* `CiscoIOSXRInterface.slot` (4556-4563): Intf/XRState
* `CiscoIOSXRInterface.slot (setter)` (4566-4576): Intf/XRModel, Intf/XRState
* `CiscoIOSXRInterface.card` (4579-4586): Intf/XRState
* `CiscoIOSXRInterface.card (setter)` (4589-4599): Intf/XRModel, Intf/XRState
* `CiscoIOSXRInterface.processor` (4602-4609): Intf/XRModel, Intf/XRState
* `CiscoIOSXRInterface.processor (setter)` (4612-4622): Intf/XRModel, Intf/XRState
* `CiscoIOSXRInterface.port` (4625-4632): Intf/XRState
* `CiscoIOSXRInterface.port (setter)` (4635-4645): Intf/XRState
* `CiscoIOSXRInterface.subinterface` (4648-4652): Intf/XRState
* `CiscoIOSXRInterface.subinterface (setter)` (4655-4665): Intf/XRState
* `CiscoIOSXRInterface.channel` (4668-4672): Intf/XRState
* `CiscoIOSXRInterface.channel (setter)` (4675-4685): Intf/XRState
* `CiscoIOSXRInterface.interface_class` (4688-4695): Intf/XRState
* `CiscoIOSXRInterface.interface_class (setter)` (4698-4708): Intf/XRModel, Intf/XRState
* `CiscoRange.__init__` (4764-4810): Intf/Model, Intf/Typed, Range/Model
* `CiscoRange.parse_integers` (4813-4858): Range/Model
* `CiscoRange.parse_strings` (4861-4865): Intf/Typed
* `CiscoRange.parse_floats` (4868-4871): Intf/Typed
* `CiscoRange.parse_cisco_interfaces` (4874-5127): Intf/Model, Intf/Typed
* `CiscoRange.__hash__` (5130-5136): Range/Seq
* `CiscoRange.__eq__` (5139-5144): Range/Seq
* `CiscoRange.__str__` (5147-5150): Range/Seq
* `CiscoRange.__len__` (5162-5165): Range/Seq
* `CiscoRange.__iter__` (5168-5171): Range/Seq
* `CiscoRange.__getitem__` (5174-5182): Range/Seq
* `CiscoRange.__delitem__` (5185-5193): Range/Seq
* `CiscoRange.__setitem__` (5196-5204): Range/Seq
* `CiscoRange.__add__` (5206-5214): Range/Model
* `CiscoRange.__sub__` (5216-5228): Range/Model
* `CiscoRange.attribute_sort` (5231-5262): Range/AttrSort
* `CiscoRange.append` (5277-5315): Range/Model
* `CiscoRange.insert` (5318-5321): Range/Seq
* `CiscoRange.remove` (5324-5388): Range/Model
* `CiscoRange.as_list` (5391-5434): Range/Model
* `CiscoRange.as_set` (5437-5460): Range/Seq
* `CiscoRange.as_compressed_str` (5464-5552): Range/Model

Not modelled: `PythonOptimizeCheck.__init__`, `run_this_posix_command`, `ccp_logger_control`, `configure_loguru`, `as_text_list`, `log_function_call`, `enforce_valid_types`, `__ccp_re__.__repr__`, `__ccp_re__.__str__`, `__ccp_re__.regex`, `__ccp_re__.result`, `IPv4Obj._ipv4_params_dict_DEPERCATED`, `IPv4Obj.__next__`, `IPv4Obj.next`, `IPv4Obj._version`, `IPv4Obj._prefixlen`, `IPv4Obj._max_prefixlen`, `IPv4Obj.get_regex`, `IPv4Obj._ip`, `IPv4Obj.ip`, `IPv4Obj.ipv4`, `IPv4Obj.masklen (setter)`, `IPv4Obj.masklength (setter)`, `IPv4Obj.prefixlen`, `IPv4Obj.prefixlength (setter)`, `IPv4Obj.exploded`, `IPv4Obj.max_int`, `IPv4Obj.version`, `IPv4Obj.is_private`, `IPv6Obj.__ne__`, `IPv6Obj.__next__`, `IPv6Obj.next`, `IPv6Obj.get_regex`, `IPv6Obj._version`, `IPv6Obj._prefixlen`, `IPv6Obj._max_prefixlen`, `IPv6Obj._ip`, `IPv6Obj.ip`, `IPv6Obj.ipv6`, `IPv6Obj.masklen`, `IPv6Obj.masklen (setter)`, `IPv6Obj.masklength`, `IPv6Obj.masklength (setter)`, `IPv6Obj.prefixlen`, `IPv6Obj.prefixlength`, `IPv6Obj.broadcast`, `IPv6Obj.max_int`, `IPv6Obj.version`, `IPv6Obj.is_private`, `IPv6Obj.is_reserved`, `L4Object.__repr__`, `DNSResponse.__init__`, `DNSResponse.__str__`, `DNSResponse.__repr__`, `dns_query`, `dns_lookup`, `dns6_lookup`, `reverse_dns_lookup`, `CiscoIOSInterface.dump_internal_state`, `CiscoIOSInterface.__str__`, `CiscoIOSInterface.name`, `CiscoIOSInterface.number (setter)`, `CiscoIOSInterface.sort_list`, `CiscoIOSInterface.sort_list (setter)`, `CiscoIOSXRInterface.dump_internal_state`, `CiscoIOSXRInterface.__str__`, `CiscoIOSXRInterface.__repr__`, `CiscoIOSXRInterface.name`, `CiscoIOSXRInterface.number (setter)`, `CiscoIOSXRInterface.sort_list`, `CiscoIOSXRInterface.sort_list (setter)`, `CiscoRange.__repr__`, `CiscoRange.member_type`.

## ccp_abc.py: 48 of 68 functions

Modelled:

* `BaseCfgLine.__init__` (59-91): Conf/Model, Diff/Word, Edit/ListModel, Edit/Model
* `BaseCfgLine.__repr__` (100-115): Edit/ListModel
* `BaseCfgLine.__str__` (118-120): Edit/ListModel
* `BaseCfgLine.__len__` (123-125): Conf/Init, Edit/ListModel
* `BaseCfgLine.__hash__` (128-132): Edit/ListModel
* `BaseCfgLine.__getattr__` (135-143): Asa/Model, Cisco/Find, Cisco/HsrpEq, Cisco/Subnet, Edit/ListModel
* `BaseCfgLine.__eq__` (146-157): Conf/Model, Edit/ListModel
* `BaseCfgLine.__gt__` (160-164): Edit/ListModel, Query/Model
* `BaseCfgLine.__lt__` (167-172): Edit/ListModel, Query/Model
* `BaseCfgLine.set_comment_bool` (214-226): Conf/Model
* `BaseCfgLine.calculate_line_id` (236-275): Diff/Model
* `BaseCfgLine.diff_id_list` (278-311): Diff/Model
* `BaseCfgLine.diff_word (setter)` (321-348): Diff/Word
* `BaseCfgLine.diff_side (setter)` (358-369): Diff/Word
* `BaseCfgLine.as_diff_dict` (372-385): Diff/Model
* `BaseCfgLine.text (setter)` (395-427): Conf/Model, Diff/Model, Misc/Words
* `BaseCfgLine.safe_escape_curly_braces` (430-452): Misc/Braces
* `BaseCfgLine.hash_children` (471-477): Query/HashKids
* `BaseCfgLine.family_endpoint` (480-488): Query/Model
* `BaseCfgLine.all_parents` (514-521): Query/Model
* `BaseCfgLine.all_children` (524-531): Query/Model
* `BaseCfgLine.classname` (534-536): Cisco/Find
* `BaseCfgLine.has_children` (539-543): Edit/ListModel, Query/Family
* `BaseCfgLine.is_config_line` (546-554): Conf/Model
* `BaseCfgLine.add_parent` (567-573): Query/Family
* `BaseCfgLine.add_child` (576-588): Query/Family
* `BaseCfgLine.add_uncfgtext` (591-616): Query/Required
* `BaseCfgLine.uncfgtext` (618-652): Misc/Words, Query/Required
* `BaseCfgLine.delete` (667-722): Edit/Model
* `BaseCfgLine.delete_children_matching` (725-777): Edit/Model
* `BaseCfgLine.has_child_with` (780-791): Query/Family
* `BaseCfgLine.insert_before` (794-818): Edit/InsertArgs, Edit/Model, Edit/Reset
* `BaseCfgLine.insert_after` (821-857): Edit/InsertArgs, Edit/Model
* `BaseCfgLine.append_to_family` (860-931): Edit/Model
* `BaseCfgLine.get_typed_dict` (986-1032): Cisco/Typed
* `BaseCfgLine.re_sub` (1035-1094): Edit/Model
* `BaseCfgLine.re_match` (1097-1140): Cisco/Typed, Query/Model
* `BaseCfgLine.re_search` (1143-1171): Query/Model
* `BaseCfgLine.re_search_children` (1174-1191): Query/Model
* `BaseCfgLine.re_match_typed` (1194-1258): Cisco/Typed
* `BaseCfgLine.re_match_iter_typed` (1261-1423): Cisco/Typed
* `BaseCfgLine.ioscfg` (1436-1442): Query/Model
* `BaseCfgLine.lineage` (1445-1455): Query/Model
* `BaseCfgLine.geneology` (1458-1466): Query/Model
* `BaseCfgLine.geneology_text` (1469-1476): Query/Family
* `BaseCfgLine.is_parent` (1479-1481): Query/Family
* `BaseCfgLine.is_child` (1484-1486): Query/Family
* `BaseCfgLine.siblings` (1489-1492): Query/Model

Not modelled: `BaseCfgLine.is_intf`, `BaseCfgLine.is_intf (setter)`, `BaseCfgLine.is_subintf`, `BaseCfgLine.is_subintf (setter)`, `BaseCfgLine.is_switchport`, `BaseCfgLine.is_switchport (setter)`, `BaseCfgLine.index`, `BaseCfgLine.diff_word`, `BaseCfgLine.diff_side`, `BaseCfgLine.text`, `BaseCfgLine.line_id`, `BaseCfgLine.line_id (setter)`, `BaseCfgLine.dna`, `BaseCfgLine.verbose`, `BaseCfgLine._list_reassign_linenums`, `BaseCfgLine.uncfgtext (setter)`, `BaseCfgLine.replace`, `BaseCfgLine.reset`, `BaseCfgLine.build_reset_string`, `BaseCfgLine.is_object_for`.

## ciscoconfparse.py: 113 of 137 functions

Modelled:

* `parse_line_braces` (287-414): Junos/Model
* `cfgobj_from_text` (418-480): Conf/Model
* `build_space_tolerant_regex` (483-502): Query/Text
* `assign_parent_to_closing_braces` (505-548): Conf/Model
* `convert_junos_to_ios` (553-598): Junos/Model
* `CiscoConfParse.__init__` (614-790): Asa/Model, Cisco/Factory, Conf/File, Conf/Init, Conf/Model, Junos/Model
* `CiscoConfParse.handle_ccp_brace_syntax` (793-819): Conf/Init
* `CiscoConfParse.read_config_file` (842-910): Conf/File, Conf/Init
* `CiscoConfParse.openargs` (937-948): Conf/File
* `CiscoConfParse.ioscfg` (951-964): Conf/Model
* `CiscoConfParse.objs` (967-977): Edit/ListModel
* `CiscoConfParse.atomic` (980-993): Conf/Model, Edit/Model, Edit/Raise
* `CiscoConfParse.commit` (996-1008): Conf/Model, Edit/Model, Edit/Raise
* `CiscoConfParse.find_object_branches` (1011-1282): Query/Model
* `CiscoConfParse.find_interface_objects` (1285-1346): Cisco/Find
* `CiscoConfParse.find_objects_dna` (1349-1416): Cisco/Find
* `CiscoConfParse.find_objects` (1419-1469): Query/Text
* `CiscoConfParse.find_lines` (1472-1500): Query/Model, Query/Text
* `CiscoConfParse.find_children` (1503-1555): Query/Model
* `CiscoConfParse.find_all_children` (1558-1633): Query/Model
* `CiscoConfParse.find_blocks` (1636-1756): Query/Model
* `CiscoConfParse.find_objects_w_child` (1759-1785): Query/Names
* `CiscoConfParse.find_parent_objects` (1788-1938): Query/Model, Query/Text
* `CiscoConfParse.find_objects_w_all_children` (1941-2061): Query/Model
* `CiscoConfParse.find_objects_w_missing_children` (2064-2115): Query/Model
* `CiscoConfParse.find_parents_w_child` (2118-2203): Query/Model
* `CiscoConfParse.find_objects_wo_child` (2206-2224): Query/Names
* `CiscoConfParse.find_parent_objects_wo_child` (2227-2336): Query/Model, Query/Text
* `CiscoConfParse.find_parents_wo_child` (2339-2423): Query/Model
* `CiscoConfParse.find_children_w_parents` (2426-2534): Query/Model
* `CiscoConfParse.find_objects_w_parents` (2537-2558): Query/Names
* `CiscoConfParse.find_child_objects` (2561-2730): Query/Model, Query/Text
* `CiscoConfParse.find_lineage` (2733-2759): Query/Model
* `CiscoConfParse.has_line_with` (2762-2772): Query/Model
* `CiscoConfParse.insert_before` (2775-2894): Edit/Model, Edit/Raise
* `CiscoConfParse.insert_after` (2897-3012): Edit/Model, Edit/Raise
* `CiscoConfParse.insert_after_child` (3015-3056): Edit/Model
* `CiscoConfParse.delete_lines` (3059-3068): Edit/Model
* `CiscoConfParse.prepend_line` (3071-3076): Edit/Model
* `CiscoConfParse.append_line` (3079-3107): Edit/Model
* `CiscoConfParse.replace_lines` (3110-3223): Edit/Model
* `CiscoConfParse.replace_children` (3226-3310): Edit/Model
* `CiscoConfParse.replace_all_children` (3313-3345): Edit/Model
* `CiscoConfParse.re_search_children` (3348-3373): Query/Required
* `CiscoConfParse.re_match_iter_typed` (3376-3478): Query/Required
* `CiscoConfParse.req_cfgspec_all_diff` (3481-3550): Query/Required
* `CiscoConfParse.req_cfgspec_excl_diff` (3553-3632): Query/Required
* `CiscoConfParse.sync_diff` (3744-3899): Diff/Model
* `CiscoConfParse.save_as` (3902-3914): Conf/File
* `CiscoConfParse._find_line_OBJ` (3920-3944): Query/Model, Query/Text
* `CiscoConfParse._find_all_child_OBJ` (3955-3967): Edit/Model
* `CiscoConfParse._objects_to_uncfg` (3982-3994): Query/Required
* `Diff.__init__` (3999-4085): Misc/DiffArgs
* `HDiff.__init__` (4114-4274): Diff/Inputs, Diff/Model
* `HDiff.parse_hdiff_configs` (4276-4295): Diff/Inputs, Diff/Model
* `HDiff.build_diff_obj_lists` (4297-4322): Diff/Inputs
* `HDiff.build_diff_obj_list` (4325-4349): Diff/Model
* `HDiff.build_ios_diffs` (4352-4389): Diff/Mark, Diff/Model, Diff/Out
* `HDiff.unified_diff_header` (4392-4444): Diff/Apply, Diff/Model
* `HDiff.unified_diffs` (4447-4463): Diff/Apply
* `HDiff.unified_diffs_contents` (4466-4484): Diff/Model
* `HDiff.dict_diffs` (4510-4545): Diff/Model
* `HDiff.find_in_before_obj_list` (4548-4641): Diff/Mark, Diff/Model
* `HDiff.render_after_obj_diffs` (4644-4685): Diff/Model
* `HDiff.compress_dict_diffs` (4688-4864): Diff/Model
* `ConfigList.__init__` (4879-4990): Asa/Model, Edit/ListModel
* `ConfigList.__iter__` (5001-5003): Edit/ListModel
* `ConfigList.__lt__` (5006-5008): Edit/ListModel
* `ConfigList.__le__` (5011-5013): Edit/ListModel
* `ConfigList.__eq__` (5016-5018): Edit/ListModel
* `ConfigList.__gt__` (5021-5023): Edit/ListModel
* `ConfigList.__ge__` (5026-5028): Edit/ListModel
* `ConfigList.__cast` (5031-5033): Edit/ListModel
* `ConfigList.__getitem__` (5041-5046): Edit/ListModel
* `ConfigList.__setitem__` (5049-5051): Edit/ListModel
* `ConfigList.__delitem__` (5054-5058): Edit/Model
* `ConfigList.__add__` (5061-5067): Edit/ListModel
* `ConfigList.__radd__` (5070-5076): Edit/ListModel
* `ConfigList.__iadd__` (5079-5087): Edit/ListModel
* `ConfigList.__mul__` (5090-5092): Edit/ListModel
* `ConfigList.__imul__` (5096-5099): Edit/ListModel
* `ConfigList.__copy__` (5102-5108): Edit/ListModel
* `ConfigList.append` (5153-5159): Edit/ListModel
* `ConfigList.pop` (5162-5164): Edit/ListModel
* `ConfigList.remove` (5167-5169): Edit/ListModel
* `ConfigList.clear` (5172-5174): Edit/ListModel
* `ConfigList.copy` (5177-5179): Edit/ListModel
* `ConfigList.count` (5182-5184): Edit/ListModel
* `ConfigList.index` (5187-5189): Edit/ListModel
* `ConfigList.reverse` (5192-5194): Edit/ListModel
* `ConfigList.sort` (5197-5199): Edit/ListModel
* `ConfigList.extend` (5202-5207): Edit/ListModel
* `ConfigList.has_line_with` (5210-5219): Edit/ListModel
* `ConfigList.insert_before` (5258-5366): Edit/Model
* `ConfigList.insert_after` (5369-5486): Edit/Model
* `ConfigList.insert` (5489-5523): Edit/Model
* `ConfigList.config_hierarchy` (5526-5543): Edit/ListModel
* `ConfigList._banner_mark_regex` (5546-5644): Conf/Model
* `ConfigList._macro_mark_children` (5647-5672): Conf/Model, Edit/Raise
* `ConfigList._maintain_bootstrap_parent_cache` (5675-5697): Conf/Model
* `ConfigList._build_bootstrap_parent_child` (5699-5733): Conf/Model
* `ConfigList.bootstrap_obj_init_ng` (5736-5831): Asa/Model, Cisco/Factory, Conf/Model, Edit/Raise
* `ConfigList._build_banner_re_ios` (5834-5851): Conf/Model
* `ConfigList._add_child_to_parent` (5854-5890): Conf/Model
* `ConfigList.iter_with_comments` (5893-5897): Edit/ListModel
* `ConfigList.iter_no_comments` (5900-5904): Edit/ListModel
* `ConfigList.reassign_linenums` (5907-5911): Edit/Model
* `ConfigList.all_parents` (5914-5917): Edit/ListModel
* `ConfigList.names` (5930-5943): Asa/Model
* `ConfigList.object_group_network` (5946-5958): Asa/Model
* `ConfigList.access_list` (5961-5978): Asa/Model
* `CiscoPassword.decrypt` (6003-6086): Misc/L4Pass
* `config_line_factory` (6089-6166): Asa/Model, Cisco/Factory, Nxos/Lines

Not modelled: `get_version_number`, `initialize_globals`, `initialize_ciscoconfparse`, `CiscoConfParse.__repr__`, `CiscoConfParse.check_ccp_input_good`, `CiscoConfParse._sequence_nonparent_lines`, `CiscoConfParse._sequence_parent_lines`, `CiscoConfParse._find_sibling_OBJ`, `CiscoConfParse._unique_OBJ`, `Diff.diff`, `Diff.rollback`, `HDiff.sort_lines`, `ConfigList.__repr__`, `ConfigList.__len__`, `ConfigList.__str__`, `ConfigList.__enter__`, `ConfigList.__exit__`, `ConfigList.__getattribute__`, `ConfigList.insert_before_deprecated`, `ConfigList.last_index`, `DiffObject.__init__`, `DiffObject.__repr__`, `CiscoPassword.__init__`, `parse_global_options`.

## models_cisco.py: 193 of 239 functions

Modelled:

* `TrackingInterface.__init__` (68-77): Cisco/HsrpGroup
* `TrackingInterface.__str__` (80-82): Cisco/HsrpEq
* `TrackingInterface.__hash__` (89-97): Cisco/HsrpEq
* `TrackingInterface.__eq__` (100-108): Cisco/HsrpEq
* `TrackingInterface.interface_name` (111-120): Cisco/HsrpGroup
* `TrackingInterface.name` (123-128): Cisco/HsrpGroup
* `TrackingInterface.interface` (131-136): Cisco/HsrpGroup
* `TrackingInterface.decrement` (146-153): Cisco/HsrpGroup
* `TrackingInterface.weighting` (156-164): Cisco/HsrpGroup
* `HSRPInterfaceGroup.__str__` (193-196): Cisco/HsrpGroup
* `HSRPInterfaceGroup.__hash__` (203-206): Cisco/HsrpEq, Cisco/HsrpGroup
* `HSRPInterfaceGroup.__eq__` (209-217): Cisco/HsrpEq, Cisco/HsrpGroup
* `HSRPInterfaceGroup.ipv4` (241-254): Cisco/HsrpGroup
* `HSRPInterfaceGroup.has_ipv6` (257-264): Cisco/HsrpGroup
* `HSRPInterfaceGroup.ipv6` (267-279): Cisco/HsrpGroup
* `HSRPInterfaceGroup.interface_name` (282-287): Cisco/HsrpGroup
* `HSRPInterfaceGroup.get_hsrp_tracking_interfaces` (309-336): Cisco/HsrpGroup
* `HSRPInterfaceGroup.preempt_delay` (348-360): Cisco/HsrpGroup
* `HSRPInterfaceGroup.hello_timer` (363-377): Cisco/HsrpGroup
* `HSRPInterfaceGroup.hold_timer` (380-394): Cisco/HsrpGroup
* `HSRPInterfaceGroup.priority` (397-406): Cisco/HsrpGroup
* `HSRPInterfaceGroup.version` (409-421): Cisco/HsrpGroup
* `HSRPInterfaceGroup.has_hsrp_track` (424-427): Cisco/HsrpGroup
* `HSRPInterfaceGroup.use_bia` (430-437): Cisco/HsrpGroup
* `HSRPInterfaceGroup.preempt` (440-450): Cisco/HsrpGroup
* `HSRPInterfaceGroup.authentication_md5_keychain` (453-465): Cisco/HsrpGroup
* `HSRPInterfaceGroup.has_authentication_md5` (468-473): Cisco/HsrpGroup
* `IOSCfgLine.is_object_for` (537-557): Cisco/Factory
* `IOSCfgLine.is_object_for_hostname` (559-566): Cisco/Factory
* `IOSCfgLine.is_object_for_interface` (568-575): Cisco/Factory
* `IOSCfgLine.is_object_for_aaa_authentication` (577-585): Cisco/Factory
* `IOSCfgLine.is_object_for_aaa_authorization` (587-595): Cisco/Factory
* `IOSCfgLine.is_object_for_aaa_accounting` (597-605): Cisco/Factory
* `IOSCfgLine.is_object_for_ip_route` (607-614): Cisco/Factory
* `IOSCfgLine.is_object_for_ipv6_route` (616-623): Cisco/Factory
* `IOSCfgLine.is_intf` (625-670): Cisco/Factory
* `IOSCfgLine.is_subintf` (672-716): Cisco/Factory
* `IOSCfgLine.is_virtual_intf` (723-728): Cisco/Access
* `IOSCfgLine.is_loopback_intf` (730-769): Cisco/Access
* `IOSCfgLine.is_ethernet_intf` (771-817): Cisco/Access
* `IOSCfgLine.intf_in_portchannel` (819-831): Cisco/Access
* `IOSCfgLine.portchannel_number` (833-845): Cisco/Access
* `IOSCfgLine.is_portchannel_intf` (847-856): Cisco/Access
* `BaseIOSIntfLine._build_abbvs` (902-911): Cisco/Access
* `BaseIOSIntfLine.hsrp_interfaces` (914-926): Cisco/HsrpGroup
* `BaseIOSIntfLine.reset` (929-932): Edit/Reset
* `BaseIOSIntfLine.build_reset_string` (935-938): Cisco/Access, Edit/Reset
* `BaseIOSIntfLine.interface_object` (988-1001): Cisco/Access
* `BaseIOSIntfLine.name` (1004-1048): Cisco/Access
* `BaseIOSIntfLine.port` (1051-1092): Cisco/Access
* `BaseIOSIntfLine.port_type` (1095-1137): Cisco/Access
* `BaseIOSIntfLine.ordinal_list` (1140-1202): Cisco/Access
* `BaseIOSIntfLine.interface_number` (1205-1254): Cisco/Access
* `BaseIOSIntfLine.subinterface_number` (1257-1306): Cisco/Access
* `BaseIOSIntfLine.description` (1309-1318): Cisco/Model
* `BaseIOSIntfLine.manual_bandwidth` (1321-1327): Cisco/Model
* `BaseIOSIntfLine.manual_delay` (1330-1336): Cisco/Model
* `BaseIOSIntfLine.manual_holdqueue_out` (1339-1346): Cisco/Model
* `BaseIOSIntfLine.manual_holdqueue_in` (1349-1356): Cisco/Model
* `BaseIOSIntfLine.manual_encapsulation` (1359-1365): Cisco/Model
* `BaseIOSIntfLine.has_mpls` (1368-1374): Cisco/Model
* `BaseIOSIntfLine.ipv4_addr_object` (1377-1395): Cisco/Model
* `BaseIOSIntfLine.ipv6_addr_object` (1398-1416): Cisco/Addr6
* `BaseIOSIntfLine.has_ip_secondary` (1419-1428): Cisco/Model
* `BaseIOSIntfLine.ip_secondary_addresses` (1431-1444): Cisco/Subnet
* `BaseIOSIntfLine.ip_secondary_networks` (1447-1460): Cisco/Subnet
* `BaseIOSIntfLine.has_no_ipv4` (1463-1467): Cisco/Model
* `BaseIOSIntfLine.ip_network_object` (1491-1500): Cisco/Subnet
* `BaseIOSIntfLine.has_autonegotiation` (1503-1515): Cisco/Subnet
* `BaseIOSIntfLine.has_manual_speed` (1518-1524): Cisco/Model
* `BaseIOSIntfLine.has_manual_duplex` (1527-1533): Cisco/Model
* `BaseIOSIntfLine.has_manual_carrierdelay` (1536-1540): Cisco/Model
* `BaseIOSIntfLine.manual_carrierdelay` (1543-1559): Cisco/Model
* `BaseIOSIntfLine.has_manual_clock_rate` (1562-1565): Cisco/Model
* `BaseIOSIntfLine.manual_clock_rate` (1568-1575): Cisco/Model
* `BaseIOSIntfLine.manual_mtu` (1578-1626): Cisco/Model
* `BaseIOSIntfLine.manual_mpls_mtu` (1629-1637): Cisco/Model
* `BaseIOSIntfLine.manual_ip_mtu` (1640-1648): Cisco/Model
* `BaseIOSIntfLine.manual_speed` (1651-1657): Cisco/Model
* `BaseIOSIntfLine.manual_duplex` (1660-1666): Cisco/Model
* `BaseIOSIntfLine.has_manual_mtu` (1669-1672): Cisco/Model
* `BaseIOSIntfLine.has_manual_mpls_mtu` (1675-1678): Cisco/Model
* `BaseIOSIntfLine.has_manual_ip_mtu` (1681-1684): Cisco/Model
* `BaseIOSIntfLine.is_shutdown` (1687-1693): Cisco/Model
* `BaseIOSIntfLine.has_vrf` (1696-1699): Cisco/Model
* `BaseIOSIntfLine.vrf` (1702-1708): Cisco/Model
* `BaseIOSIntfLine.ipv4_addr` (1717-1737): Cisco/Model
* `BaseIOSIntfLine.ipv4_netmask` (1740-1749): Cisco/Model
* `BaseIOSIntfLine.ipv4_masklength` (1752-1759): Cisco/Model
* `BaseIOSIntfLine.ipv6_addr` (1762-1787): Cisco/Addr6
* `BaseIOSIntfLine.ipv6_masklength` (1790-1797): Cisco/Addr6
* `BaseIOSIntfLine.is_abbreviated_as` (1800-1805): Cisco/Access
* `BaseIOSIntfLine.in_ipv4_subnet` (1808-1879): Cisco/Subnet
* `BaseIOSIntfLine.in_ipv4_subnets` (1882-1895): Cisco/Subnet
* `BaseIOSIntfLine.has_no_icmp_unreachables` (1898-1912): Cisco/Model
* `BaseIOSIntfLine.has_no_icmp_redirects` (1915-1929): Cisco/Model
* `BaseIOSIntfLine.has_no_ip_proxyarp` (1932-1978): Cisco/Model
* `BaseIOSIntfLine.has_ip_pim_dense_mode` (1981-1995): Cisco/Model
* `BaseIOSIntfLine.has_ip_pim_sparse_mode` (1998-2012): Cisco/Model
* `BaseIOSIntfLine.has_ip_pim_sparsedense_mode` (2015-2029): Cisco/Model
* `BaseIOSIntfLine.manual_arp_timeout` (2032-2049): Cisco/Model
* `BaseIOSIntfLine.has_ip_helper_addresses` (2052-2058): Cisco/Model
* `BaseIOSIntfLine.ip_helper_addresses` (2061-2099): Cisco/Model
* `BaseIOSIntfLine.is_switchport` (2102-2108): Cisco/Model, Vlan/Model
* `BaseIOSIntfLine.has_manual_switch_access` (2111-2117): Cisco/Model, Vlan/Model
* `BaseIOSIntfLine.has_manual_switch_trunk_encap` (2120-2123): Cisco/Model
* `BaseIOSIntfLine.manual_switch_trunk_encap` (2126-2133): Cisco/Model
* `BaseIOSIntfLine.has_manual_switch_trunk` (2136-2142): Cisco/Model
* `BaseIOSIntfLine.has_switch_portsecurity` (2145-2156): Cisco/Model
* `BaseIOSIntfLine.has_switch_stormcontrol` (2159-2167): Cisco/Model
* `BaseIOSIntfLine.has_dtp` (2170-2183): Cisco/Model
* `BaseIOSIntfLine.access_vlan` (2186-2198): Cisco/Model
* `BaseIOSIntfLine.trunk_vlans_allowed` (2201-2331): Vlan/Model
* `BaseIOSIntfLine.native_vlan` (2334-2347): Cisco/Model
* `BaseIOSIntfLine.has_manual_disable_cdp` (2352-2359): Cisco/Model
* `BaseIOSIntfLine.has_xconnect` (2364-2367): Cisco/Model
* `BaseIOSIntfLine.xconnect_vc` (2370-2376): Cisco/Model
* `BaseIOSIntfLine.has_ip_hsrp` (2381-2384): Cisco/Model
* `BaseIOSIntfLine.hsrp_ip_addr` (2387-2402): Cisco/Model
* `BaseIOSIntfLine.hsrp_ip_mask` (2405-2421): Cisco/Model
* `BaseIOSIntfLine.hsrp_group` (2424-2434): Cisco/Model
* `BaseIOSIntfLine.hsrp_priority` (2437-2449): Cisco/Model
* `BaseIOSIntfLine.hsrp_hello_timer` (2452-2465): Cisco/Model
* `BaseIOSIntfLine.hsrp_hold_timer` (2468-2481): Cisco/Model
* `BaseIOSIntfLine.has_hsrp_track` (2484-2487): Cisco/Model
* `BaseIOSIntfLine.hsrp_track` (2490-2501): Cisco/Model
* `BaseIOSIntfLine.has_hsrp_usebia` (2504-2515): Cisco/Model
* `BaseIOSIntfLine.has_hsrp_preempt` (2518-2529): Cisco/Model
* `BaseIOSIntfLine.hsrp_authentication_md5_keychain` (2532-2543): Cisco/Model
* `BaseIOSIntfLine.has_hsrp_authentication_md5` (2546-2550): Cisco/Model
* `BaseIOSIntfLine.has_mac_accessgroup_in` (2561-2566): Cisco/Model
* `BaseIOSIntfLine.has_mac_accessgroup_out` (2569-2574): Cisco/Model
* `BaseIOSIntfLine.mac_accessgroup_in` (2577-2585): Cisco/Model
* `BaseIOSIntfLine.mac_accessgroup_out` (2588-2596): Cisco/Model
* `BaseIOSIntfLine.has_ip_accessgroup_in` (2601-2604): Cisco/Model
* `BaseIOSIntfLine.has_ip_accessgroup_out` (2607-2610): Cisco/Model
* `BaseIOSIntfLine.has_ipv4_accessgroup_in` (2613-2616): Cisco/Model
* `BaseIOSIntfLine.has_ipv4_accessgroup_out` (2619-2622): Cisco/Model
* `BaseIOSIntfLine.ipv4_accessgroup_in` (2637-2643): Cisco/Model
* `BaseIOSIntfLine.ipv4_accessgroup_out` (2646-2652): Cisco/Model
* `IOSIntfLine.is_object_for` (2676-2679): Cisco/Factory
* `IOSIntfGlobal.is_object_for` (2698-2706): Cisco/Factory
* `IOSIntfGlobal.has_cdp_disabled` (2708-2713): Cisco/Factory
* `IOSIntfGlobal.has_intf_logging_def` (2715-2720): Cisco/Factory
* `IOSIntfGlobal.has_stp_portfast_def` (2722-2727): Cisco/Factory
* `IOSIntfGlobal.has_stp_portfast_bpduguard_def` (2729-2734): Cisco/Factory
* `IOSIntfGlobal.has_stp_mode_rapidpvst` (2736-2741): Cisco/Factory
* `IOSHostnameLine.is_object_for` (2759-2764): Cisco/Factory
* `IOSHostnameLine.hostname` (2766-2770): Cisco/Factory
* `IOSAccessLine.is_object_for` (2793-2798): Cisco/Factory
* `IOSAccessLine.is_accessline` (2800-2804): Cisco/Factory
* `IOSAccessLine.name` (2806-2813): Cisco/Factory
* `IOSAccessLine.build_reset_string` (2820-2823): Cisco/Factory
* `IOSAccessLine.range_str` (2825-2828): Cisco/Factory
* `IOSAccessLine.line_range` (2830-2840): Cisco/Factory
* `IOSAccessLine.manual_exectimeout_minutes` (2842-2845): Cisco/Access
* `IOSAccessLine.manual_exectimeout_seconds` (2847-2852): Cisco/Access
* `IOSAccessLine.parse_exectimeout` (2854-2861): Cisco/Factory
* `IOSRouteLine.__init__` (2989-3007): Cisco/Factory
* `IOSRouteLine.is_object_for` (3009-3014): Cisco/Factory
* `IOSRouteLine.vrf` (3016-3022): Cisco/Factory
* `IOSRouteLine.network` (3030-3042): Cisco/Factory
* `IOSRouteLine.netmask` (3044-3050): Cisco/Factory
* `IOSRouteLine.masklen` (3052-3059): Cisco/Factory, Cisco/Route6
* `IOSRouteLine.network_object` (3061-3071): Cisco/Factory, Cisco/Route6
* `IOSRouteLine.nexthop_str` (3073-3088): Cisco/Factory
* `IOSRouteLine.next_hop_interface` (3090-3102): Cisco/Factory
* `IOSRouteLine.next_hop_addr` (3104-3110): Cisco/Factory
* `IOSRouteLine.global_next_hop` (3112-3129): Cisco/Factory
* `IOSRouteLine.nexthop_vrf` (3131-3141): Cisco/Factory
* `IOSRouteLine.admin_distance` (3143-3149): Cisco/Factory
* `IOSRouteLine.multicast` (3151-3155): Cisco/Factory
* `IOSRouteLine.route_name` (3163-3169): Cisco/Factory
* `IOSRouteLine.permanent` (3171-3180): Cisco/Factory
* `IOSRouteLine.tracking_object_name` (3182-3188): Cisco/Factory
* `IOSRouteLine.tag` (3190-3193): Cisco/Factory
* `IOSAaaGroupServerLine.__init__` (3204-3216): Aaa/Model, Cisco/Factory
* `IOSAaaGroupServerLine.is_object_for` (3218-3223): Cisco/Factory
* `IOSAaaGroupServerLine.vrf` (3225-3233): Aaa/Model
* `IOSAaaGroupServerLine.source_interface` (3235-3243): Aaa/Model
* `IOSAaaGroupServerLine.server_private` (3245-3254): Aaa/Model
* `IOSAaaLoginAuthenticationLine.__init__` (3262-3273): Aaa/Model
* `IOSAaaLoginAuthenticationLine.is_object_for` (3275-3280): Cisco/Factory
* `IOSAaaEnableAuthenticationLine.__init__` (3288-3299): Aaa/Model
* `IOSAaaEnableAuthenticationLine.is_object_for` (3301-3306): Cisco/Factory
* `IOSAaaCommandsAuthorizationLine.__init__` (3314-3326): Aaa/Model
* `IOSAaaCommandsAuthorizationLine.is_object_for` (3328-3333): Cisco/Factory
* `IOSAaaConsoleAuthorizationLine.__init__` (3341-3353): Aaa/Model
* `IOSAaaConsoleAuthorizationLine.is_object_for` (3355-3360): Cisco/Factory
* `IOSAaaCommandsAccountingLine.__init__` (3368-3381): Aaa/Model
* `IOSAaaCommandsAccountingLine.is_object_for` (3383-3388): Cisco/Factory
* `IOSAaaExecAccountingLine.__init__` (3396-3408): Aaa/Model
* `IOSAaaExecAccountingLine.is_object_for` (3410-3415): Cisco/Factory

Not modelled: `TrackingInterface.__repr__`, `TrackingInterface.tracking_interface_group`, `HSRPInterfaceGroup.__init__`, `HSRPInterfaceGroup.__repr__`, `HSRPInterfaceGroup.hsrp_group`, `HSRPInterfaceGroup.group`, `HSRPInterfaceGroup.ip`, `HSRPInterfaceGroup.interface_tracking`, `HSRPInterfaceGroup.get_glbp_tracking_interfaces`, `HSRPInterfaceGroup.get_vrrp_tracking_interfaces`, `HSRPInterfaceGroup.group`, `HSRPInterfaceGroup.hsrp_authentication_cleartext`, `IOSCfgLine.__init__`, `BaseIOSIntfLine.__init__`, `BaseIOSIntfLine.__repr__`, `BaseIOSIntfLine.verbose`, `BaseIOSIntfLine.is_object_for`, `BaseIOSIntfLine.abbvs`, `BaseIOSIntfLine.ip`, `BaseIOSIntfLine.ipv4`, `BaseIOSIntfLine.ipv4_network_object`, `BaseIOSIntfLine.ip_addr`, `BaseIOSIntfLine.hsrp_authentication_cleartext`, `BaseIOSIntfLine.ip_accessgroup_in`, `BaseIOSIntfLine.ip_accessgroup_out`, `IOSIntfLine.__init__`, `IOSIntfGlobal.__init__`, `IOSIntfGlobal.__repr__`, `IOSHostnameLine.__init__`, `IOSHostnameLine.__repr__`, `IOSAccessLine.__init__`, `IOSAccessLine.__repr__`, `IOSAccessLine.reset`, `BaseIOSRouteLine.__init__`, `BaseIOSRouteLine.__repr__`, `BaseIOSRouteLine.routeinfo`, `BaseIOSRouteLine.is_object_for`, `BaseIOSRouteLine.vrf`, `BaseIOSRouteLine.address_family`, `BaseIOSRouteLine.network`, `BaseIOSRouteLine.netmask`, `BaseIOSRouteLine.admin_distance`, `BaseIOSRouteLine.nexthop_str`, `BaseIOSRouteLine.tracking_object_name`, `IOSRouteLine.address_family`, `IOSRouteLine.unicast`.

## models_nxos.py: 167 of 202 functions

Modelled:

* `NXOSCfgLine.is_object_for` (85-88): Nxos/Lines
* `NXOSCfgLine.is_intf` (90-129): Nxos/Names
* `NXOSCfgLine.is_subintf` (131-167): Nxos/Names
* `NXOSCfgLine.is_virtual_intf` (172-176): Nxos/Names
* `NXOSCfgLine.is_loopback_intf` (178-212): Nxos/Names
* `NXOSCfgLine.is_ethernet_intf` (214-255): Nxos/Names
* `NXOSCfgLine.intf_in_portchannel` (257-265): Nxos/Names
* `NXOSCfgLine.portchannel_number` (267-276): Nxos/Names
* `NXOSCfgLine.is_portchannel_intf` (278-283): Nxos/Names
* `NXOSCfgLine.is_vpc_peerlink` (285-291): Nxos/Model
* `BaseNXOSIntfLine.__init__` (307-310): Nxos/Model
* `BaseNXOSIntfLine._build_abbvs` (332-342): Nxos/Names
* `BaseNXOSIntfLine.reset` (344-346): Edit/Reset
* `BaseNXOSIntfLine.build_reset_string` (348-350): Edit/Reset
* `BaseNXOSIntfLine.name` (409-452): Nxos/Model
* `BaseNXOSIntfLine.port` (454-489): Nxos/Names
* `BaseNXOSIntfLine.port_type` (491-527): Nxos/Names
* `BaseNXOSIntfLine.ordinal_list` (529-575): Nxos/Names
* `BaseNXOSIntfLine.interface_number` (577-621): Nxos/Names
* `BaseNXOSIntfLine.subinterface_number` (623-667): Nxos/Names
* `BaseNXOSIntfLine.description` (669-677): Nxos/Model
* `BaseNXOSIntfLine.manual_speed` (679-684): Nxos/Model
* `BaseNXOSIntfLine.manual_duplex` (686-691): the code is that of models_cisco.py:1662, modelled in Cisco/Model
* `BaseNXOSIntfLine.manual_beacon` (693-698): Nxos/Model
* `BaseNXOSIntfLine.manual_bandwidth` (700-705): Nxos/Model
* `BaseNXOSIntfLine.manual_delay` (707-712): Nxos/Model
* `BaseNXOSIntfLine.manual_holdqueue_out` (714-717): Nxos/Model
* `BaseNXOSIntfLine.manual_holdqueue_in` (719-722): Nxos/Model
* `BaseNXOSIntfLine.manual_encapsulation` (724-729): the code is that of models_cisco.py:1361, modelled in Cisco/Model
* `BaseNXOSIntfLine.has_mpls` (731-736): Nxos/Model
* `BaseNXOSIntfLine.ipv4_addr_object` (738-746): Nxos/Model
* `BaseNXOSIntfLine.has_no_ipv4` (748-752): Nxos/Model
* `BaseNXOSIntfLine.ip_network_object` (771-781): Nxos/Model
* `BaseNXOSIntfLine.has_autonegotiation` (783-794): Nxos/Names
* `BaseNXOSIntfLine.has_manual_speed` (796-801): Nxos/Names
* `BaseNXOSIntfLine.has_manual_duplex` (803-808): Nxos/Names
* `BaseNXOSIntfLine.has_manual_carrierdelay` (810-813): the code is that of models_cisco.py:1538, modelled in Cisco/Model
* `BaseNXOSIntfLine.manual_carrierdelay` (815-829): the code is that of models_cisco.py:1545, modelled in Cisco/Model
* `BaseNXOSIntfLine.has_manual_clock_rate` (831-833): the code is that of models_cisco.py:1564, modelled in Cisco/Model
* `BaseNXOSIntfLine.manual_clock_rate` (835-841): the code is that of models_cisco.py:1570, modelled in Cisco/Model
* `BaseNXOSIntfLine.manual_mtu` (843-886): Nxos/Model
* `BaseNXOSIntfLine.manual_mpls_mtu` (888-895): the code is that of models_cisco.py:1631, modelled in Cisco/Model
* `BaseNXOSIntfLine.manual_ip_mtu` (897-904): the code is that of models_cisco.py:1642, modelled in Cisco/Model
* `BaseNXOSIntfLine.has_manual_mtu` (906-908): the code is that of models_cisco.py:1671, modelled in Cisco/Model
* `BaseNXOSIntfLine.has_manual_mpls_mtu` (910-912): the code is that of models_cisco.py:1677, modelled in Cisco/Model
* `BaseNXOSIntfLine.has_manual_ip_mtu` (914-916): the code is that of models_cisco.py:1683, modelled in Cisco/Model
* `BaseNXOSIntfLine.is_shutdown` (918-923): the code is that of models_cisco.py:1689, modelled in Cisco/Model
* `BaseNXOSIntfLine.has_vrf` (925-927): Nxos/Model
* `BaseNXOSIntfLine.vrf` (929-934): Nxos/Model
* `BaseNXOSIntfLine.ipv4_addr` (940-955): Nxos/Model
* `BaseNXOSIntfLine.ipv4_masklength` (957-965): Nxos/Model
* `BaseNXOSIntfLine.ipv4_netmask` (967-973): Nxos/Model
* `BaseNXOSIntfLine.is_abbreviated_as` (975-979): Nxos/Names
* `BaseNXOSIntfLine.in_ipv4_subnet` (981-1035): Nxos/Model
* `BaseNXOSIntfLine.in_ipv4_subnets` (1037-1047): Nxos/Model
* `BaseNXOSIntfLine.has_no_icmp_unreachables` (1049-1062): Nxos/Model
* `BaseNXOSIntfLine.has_no_icmp_redirects` (1064-1077): Nxos/Model
* `BaseNXOSIntfLine.has_no_ip_proxyarp` (1079-1121): Nxos/Model
* `BaseNXOSIntfLine.has_ip_pim_dense_mode` (1123-1136): Nxos/Model
* `BaseNXOSIntfLine.has_ip_pim_sparse_mode` (1138-1151): Nxos/Model
* `BaseNXOSIntfLine.has_ip_pim_sparsedense_mode` (1153-1166): Nxos/Model
* `BaseNXOSIntfLine.manual_arp_timeout` (1168-1184): Nxos/Model
* `BaseNXOSIntfLine.has_ip_helper_addresses` (1186-1191): Nxos/Model
* `BaseNXOSIntfLine.ip_helper_addresses` (1193-1227): Nxos/Model
* `BaseNXOSIntfLine.is_switchport` (1229-1234): Nxos/Model
* `BaseNXOSIntfLine.has_manual_switch_access` (1236-1241): Nxos/Model
* `BaseNXOSIntfLine.has_manual_switch_trunk_encap` (1243-1245): Nxos/Model
* `BaseNXOSIntfLine.manual_switch_trunk_encap` (1247-1255): Nxos/Model
* `BaseNXOSIntfLine.has_manual_switch_fex_fabric` (1257-1263): Nxos/Model
* `BaseNXOSIntfLine.has_manual_switch_trunk` (1265-1270): Nxos/Model
* `BaseNXOSIntfLine.has_switch_portsecurity` (1272-1282): Nxos/Model
* `BaseNXOSIntfLine.has_switch_stormcontrol` (1284-1291): Nxos/Model
* `BaseNXOSIntfLine.has_dtp` (1293-1305): Nxos/Model
* `BaseNXOSIntfLine.access_vlan` (1307-1319): Nxos/Model
* `BaseNXOSIntfLine.manual_stp_link_type` (1321-1327): Nxos/Model
* `BaseNXOSIntfLine.manual_stp_port_type` (1329-1335): Nxos/Model
* `BaseNXOSIntfLine.vpc` (1337-1343): Nxos/Model
* `BaseNXOSIntfLine.fex_associate_chassis_id` (1345-1351): Nxos/Model
* `BaseNXOSIntfLine.trunk_vlans_allowed` (1353-1417): Nxos/Model
* `BaseNXOSIntfLine.native_vlan` (1419-1431): Nxos/Model
* `BaseNXOSIntfLine.has_manual_disable_cdp` (1435-1440): Nxos/Model
* `BaseNXOSIntfLine.has_xconnect` (1444-1446): the code is that of models_cisco.py:2366, modelled in Cisco/Model
* `BaseNXOSIntfLine.xconnect_vc` (1448-1453): the code is that of models_cisco.py:2372, modelled in Cisco/Model
* `BaseNXOSIntfLine.has_ip_hsrp` (1457-1459): Nxos/Model
* `BaseNXOSIntfLine.hsrp_ip_addr` (1461-1479): Nxos/Model
* `BaseNXOSIntfLine.hsrp_ip_mask` (1481-1498): Nxos/Model
* `BaseNXOSIntfLine.hsrp_group` (1500-1509): Nxos/Model
* `BaseNXOSIntfLine.hsrp_priority` (1511-1524): Nxos/Model
* `BaseNXOSIntfLine.hsrp_hello_timer` (1526-1548): Nxos/Model
* `BaseNXOSIntfLine.hsrp_hold_timer` (1550-1572): Nxos/Model
* `BaseNXOSIntfLine.has_hsrp_track` (1574-1576): Nxos/Model
* `BaseNXOSIntfLine.hsrp_track` (1578-1588): Nxos/Model
* `BaseNXOSIntfLine.has_hsrp_usebia` (1590-1597): Nxos/Model
* `BaseNXOSIntfLine.has_hsrp_preempt` (1599-1609): Nxos/Model
* `BaseNXOSIntfLine.hsrp_authentication_md5_keychain` (1611-1622): the code is that of models_cisco.py:2534, modelled in Cisco/Model
* `BaseNXOSIntfLine.has_hsrp_authentication_md5` (1624-1628): the code is that of models_cisco.py:2548, modelled in Cisco/Model
* `BaseNXOSIntfLine.has_mac_accessgroup_in` (1636-1640): Nxos/Model
* `BaseNXOSIntfLine.has_mac_accessgroup_out` (1642-1646): Nxos/Model
* `BaseNXOSIntfLine.mac_accessgroup_in` (1648-1653): Nxos/Model
* `BaseNXOSIntfLine.mac_accessgroup_out` (1655-1660): Nxos/Model
* `BaseNXOSIntfLine.has_ip_accessgroup_in` (1664-1666): the code is that of models_cisco.py:2603, modelled in Cisco/Model
* `BaseNXOSIntfLine.has_ip_accessgroup_out` (1668-1670): the code is that of models_cisco.py:2609, modelled in Cisco/Model
* `BaseNXOSIntfLine.has_ipv4_accessgroup_in` (1672-1674): the code is that of models_cisco.py:2615, modelled in Cisco/Model
* `BaseNXOSIntfLine.has_ipv4_accessgroup_out` (1676-1678): the code is that of models_cisco.py:2621, modelled in Cisco/Model
* `BaseNXOSIntfLine.ipv4_accessgroup_in` (1688-1693): the code is that of models_cisco.py:2639, modelled in Cisco/Model
* `BaseNXOSIntfLine.ipv4_accessgroup_out` (1695-1700): the code is that of models_cisco.py:2648, modelled in Cisco/Model
* `NXOSIntfLine.is_object_for` (1720-1724): Nxos/Lines
* `NXOSIntfGlobal.is_object_for` (1740-1747): Nxos/Lines
* `NXOSIntfGlobal.has_cdp_disabled` (1749-1753): Nxos/Lines
* `NXOSIntfGlobal.has_intf_logging_def` (1755-1759): Nxos/Lines
* `NXOSIntfGlobal.has_stp_portfast_bpduguard_def` (1761-1765): Nxos/Lines
* `NXOSIntfGlobal.has_stp_mode_rapidpvst` (1767-1771): Nxos/Lines
* `NXOSvPCLine.is_object_for` (1785-1789): Nxos/Lines
* `NXOSvPCLine.vpc_domain_id` (1791-1796): Nxos/Domain
* `NXOSvPCLine.vpc_role_priority` (1798-1803): Nxos/Domain
* `NXOSvPCLine.vpc_system_priority` (1805-1810): Nxos/Domain
* `NXOSvPCLine.vpc_system_mac` (1812-1817): Nxos/Domain
* `NXOSvPCLine.has_peer_config_check_bypass` (1819-1824): Nxos/Domain
* `NXOSvPCLine.has_peer_switch` (1826-1831): Nxos/Domain
* `NXOSvPCLine.has_layer3_peer_router` (1833-1838): Nxos/Domain
* `NXOSvPCLine.has_peer_gateway` (1840-1845): Nxos/Domain
* `NXOSvPCLine.has_auto_recovery` (1847-1852): Nxos/Domain
* `NXOSvPCLine.vpc_auto_recovery_reload_delay` (1854-1860): Nxos/Domain
* `NXOSvPCLine.has_ip_arp_synchronize` (1862-1867): Nxos/Domain
* `NXOSvPCLine.vpc_peer_keepalive` (1869-1918): Nxos/Domain
* `NXOSHostnameLine.is_object_for` (1934-1938): Nxos/Lines
* `NXOSHostnameLine.hostname` (1940-1943): Nxos/Lines
* `NXOSAccessLine.is_object_for` (1964-1968): Nxos/Lines
* `NXOSAccessLine.is_accessline` (1970-1973): Nxos/Lines
* `NXOSAccessLine.name` (1975-1981): Nxos/Lines
* `NXOSAccessLine.build_reset_string` (1987-1989): the code is that of models_cisco.py:2821, modelled in Cisco/Factory
* `NXOSAccessLine.range_str` (1991-1993): Nxos/Lines
* `NXOSAccessLine.line_range` (1995-2004): Nxos/Lines
* `NXOSAccessLine.manual_exectimeout_minutes` (2006-2008): Nxos/Lines
* `NXOSAccessLine.manual_exectimeout_seconds` (2010-2014): Nxos/Lines
* `NXOSAccessLine.parse_exectimeout` (2016-2022): Nxos/Lines
* `BaseNXOSRouteLine.routeinfo` (2042-2054): Nxos/Lines
* `NXOSRouteLine.__init__` (2133-2150): Nxos/Lines
* `NXOSRouteLine.is_object_for` (2152-2156): Nxos/Lines
* `NXOSRouteLine.admin_distance` (2163-2169): Nxos/Lines
* `NXOSRouteLine.network` (2171-2182): Nxos/Lines
* `NXOSRouteLine.netmask` (2184-2186): Nxos/Lines
* `NXOSRouteLine.masklen` (2188-2194): Nxos/Lines
* `NXOSRouteLine.network_object` (2196-2204): Nxos/Lines, Nxos/Route6
* `NXOSRouteLine.nexthop_str` (2206-2220): Nxos/Lines
* `NXOSRouteLine.next_hop_interface` (2222-2233): Nxos/Lines
* `NXOSRouteLine.next_hop_addr` (2235-2240): Nxos/Lines
* `NXOSRouteLine.route_name` (2247-2255): Nxos/Lines
* `NXOSRouteLine.tag` (2257-2259): Nxos/Lines
* `NXOSRouteLine.tracking_object_name` (2261-2263): Nxos/Lines
* `NXOSAaaGroupServerLine.__init__` (2276-2287): Aaa/Model
* `NXOSAaaGroupServerLine.is_object_for` (2289-2293): Nxos/Lines
* `NXOSAaaGroupServerLine.vrf` (2295-2299): Aaa/Model
* `NXOSAaaGroupServerLine.source_interface` (2301-2308): Aaa/Model
* `NXOSAaaGroupServerLine.server_private` (2310-2318): Aaa/Model
* `NXOSAaaLoginAuthenticationLine.__init__` (2325-2335): Aaa/Model
* `NXOSAaaLoginAuthenticationLine.is_object_for` (2337-2341): Nxos/Lines
* `NXOSAaaEnableAuthenticationLine.__init__` (2348-2358): Aaa/Model
* `NXOSAaaEnableAuthenticationLine.is_object_for` (2360-2364): Nxos/Lines
* `NXOSAaaCommandsAuthorizationLine.__init__` (2371-2382): Aaa/Model
* `NXOSAaaCommandsAuthorizationLine.is_object_for` (2384-2388): Nxos/Lines
* `NXOSAaaConsoleAuthorizationLine.__init__` (2395-2406): Aaa/Model
* `NXOSAaaConsoleAuthorizationLine.is_object_for` (2408-2412): Nxos/Lines
* `NXOSAaaCommandsAccountingLine.__init__` (2419-2431): Aaa/Model
* `NXOSAaaCommandsAccountingLine.is_object_for` (2433-2437): Nxos/Lines
* `NXOSAaaExecAccountingLine.__init__` (2444-2455): Aaa/Model
* `NXOSAaaExecAccountingLine.is_object_for` (2457-2461): Nxos/Lines

Not modelled: `NXOSCfgLine.__init__`, `BaseNXOSIntfLine.__repr__`, `BaseNXOSIntfLine.verbose`, `BaseNXOSIntfLine.is_object_for`, `BaseNXOSIntfLine.abbvs`, `BaseNXOSIntfLine.interface_object`, `BaseNXOSIntfLine.ip`, `BaseNXOSIntfLine.ipv4`, `BaseNXOSIntfLine.ipv4_network_object`, `BaseNXOSIntfLine.ip_addr`, `BaseNXOSIntfLine.hsrp_authentication_cleartext`, `BaseNXOSIntfLine.ip_accessgroup_in`, `BaseNXOSIntfLine.ip_accessgroup_out`, `NXOSIntfLine.__init__`, `NXOSIntfGlobal.__init__`, `NXOSIntfGlobal.__repr__`, `NXOSvPCLine.__init__`, `NXOSvPCLine.__repr__`, `NXOSHostnameLine.__init__`, `NXOSHostnameLine.__repr__`, `NXOSAccessLine.__init__`, `NXOSAccessLine.__repr__`, `NXOSAccessLine.reset`, `BaseNXOSRouteLine.__init__`, `BaseNXOSRouteLine.__repr__`, `BaseNXOSRouteLine.is_object_for`, `BaseNXOSRouteLine.vrf`, `BaseNXOSRouteLine.address_family`, `BaseNXOSRouteLine.network`, `BaseNXOSRouteLine.netmask`, `BaseNXOSRouteLine.admin_distance`, `BaseNXOSRouteLine.nexthop_str`, `BaseNXOSRouteLine.tracking_object_name`, `NXOSRouteLine.address_family`, `NXOSRouteLine.unicast`.

## models_iosxr.py: 98 of 114 functions

Modelled:

* `IOSXRCfgLine.is_intf` (112-157): Xr/Intf
* `IOSXRCfgLine.is_subintf` (160-204): the code is that of models_cisco.py:674, modelled in Cisco/Factory
* `IOSXRCfgLine.is_virtual_intf` (212-217): the code is that of models_cisco.py:725, modelled in Cisco/Access
* `IOSXRCfgLine.is_ethernet_intf` (262-308): Xr/Intf
* `IOSXRCfgLine.intf_in_portchannel` (311-323): Xr/Intf
* `IOSXRCfgLine.portchannel_number` (326-338): Xr/Intf
* `IOSXRCfgLine.is_portchannel_intf` (341-350): Xr/Intf
* `BaseIOSXRIntfLine.__init__` (367-371): Xr/Intf
* `BaseIOSXRIntfLine._build_abbvs` (395-406): Xr/Intf
* `BaseIOSXRIntfLine.reset` (409-412): Edit/Reset
* `BaseIOSXRIntfLine.build_reset_string` (415-418): Edit/Reset
* `BaseIOSXRIntfLine.interface_object` (469-483): Xr/Intf
* `BaseIOSXRIntfLine.name` (486-530): Xr/Intf
* `BaseIOSXRIntfLine.port` (533-574): Xr/Intf
* `BaseIOSXRIntfLine.port_type` (577-619): Xr/Intf
* `BaseIOSXRIntfLine.ordinal_list` (622-674): Xr/Intf
* `BaseIOSXRIntfLine.interface_number` (677-726): Xr/Intf
* `BaseIOSXRIntfLine.subinterface_number` (729-778): Xr/Intf
* `BaseIOSXRIntfLine.description` (781-790): Xr/Intf
* `BaseIOSXRIntfLine.manual_bandwidth` (793-799): Xr/Intf
* `BaseIOSXRIntfLine.manual_delay` (802-808): Xr/Intf
* `BaseIOSXRIntfLine.manual_holdqueue_out` (811-818): Xr/Intf
* `BaseIOSXRIntfLine.manual_holdqueue_in` (821-828): Xr/Intf
* `BaseIOSXRIntfLine.manual_encapsulation` (831-837): Xr/Intf
* `BaseIOSXRIntfLine.has_mpls` (840-846): Xr/Intf
* `BaseIOSXRIntfLine.ipv4_addr_object` (849-858): Xr/Intf
* `BaseIOSXRIntfLine.has_no_ipv4` (861-865): Xr/Intf
* `BaseIOSXRIntfLine.ip_network_object` (889-900): Xr/Intf
* `BaseIOSXRIntfLine.has_autonegotiation` (903-915): Xr/Intf
* `BaseIOSXRIntfLine.has_manual_speed` (918-924): Xr/Intf
* `BaseIOSXRIntfLine.has_manual_duplex` (927-933): Xr/Intf
* `BaseIOSXRIntfLine.has_manual_carrierdelay` (936-940): Xr/Intf
* `BaseIOSXRIntfLine.manual_carrierdelay` (943-959): Xr/Intf
* `BaseIOSXRIntfLine.has_manual_clock_rate` (962-965): the code is that of models_cisco.py:1564, modelled in Cisco/Model
* `BaseIOSXRIntfLine.manual_clock_rate` (968-975): Xr/Intf
* `BaseIOSXRIntfLine.manual_mtu` (978-1026): Xr/Intf
* `BaseIOSXRIntfLine.manual_mpls_mtu` (1029-1037): Xr/Intf
* `BaseIOSXRIntfLine.manual_ip_mtu` (1040-1048): Xr/Intf
* `BaseIOSXRIntfLine.manual_speed` (1051-1057): Xr/Intf
* `BaseIOSXRIntfLine.manual_duplex` (1060-1066): Xr/Intf
* `BaseIOSXRIntfLine.has_manual_mtu` (1069-1072): the code is that of models_cisco.py:1671, modelled in Cisco/Model
* `BaseIOSXRIntfLine.has_manual_mpls_mtu` (1075-1078): the code is that of models_cisco.py:1677, modelled in Cisco/Model
* `BaseIOSXRIntfLine.has_manual_ip_mtu` (1081-1084): the code is that of models_cisco.py:1683, modelled in Cisco/Model
* `BaseIOSXRIntfLine.is_shutdown` (1087-1093): Xr/Intf
* `BaseIOSXRIntfLine.has_vrf` (1096-1099): Xr/Intf
* `BaseIOSXRIntfLine.vrf` (1102-1109): Xr/Intf
* `BaseIOSXRIntfLine.ipv4_addr` (1118-1134): Xr/Intf
* `BaseIOSXRIntfLine.ipv4_netmask` (1137-1146): Xr/Intf
* `BaseIOSXRIntfLine.ipv4_masklength` (1149-1156): Xr/Intf
* `BaseIOSXRIntfLine.is_abbreviated_as` (1159-1164): Xr/Intf
* `BaseIOSXRIntfLine.in_ipv4_subnet` (1167-1228): Xr/Intf
* `BaseIOSXRIntfLine.in_ipv4_subnets` (1231-1242): Xr/Intf
* `BaseIOSXRIntfLine.has_no_icmp_unreachables` (1245-1259): Xr/Intf
* `BaseIOSXRIntfLine.has_no_icmp_redirects` (1262-1276): Xr/Intf
* `BaseIOSXRIntfLine.has_no_ip_proxyarp` (1279-1325): Xr/Intf
* `BaseIOSXRIntfLine.has_ip_pim_dense_mode` (1328-1342): Xr/Intf
* `BaseIOSXRIntfLine.has_ip_pim_sparse_mode` (1345-1359): Xr/Intf
* `BaseIOSXRIntfLine.has_ip_pim_sparsedense_mode` (1362-1376): Xr/Intf
* `BaseIOSXRIntfLine.manual_arp_timeout` (1379-1396): Xr/Intf
* `BaseIOSXRIntfLine.has_ip_helper_addresses` (1399-1405): the code is that of models_cisco.py:2054, modelled in Cisco/Model
* `BaseIOSXRIntfLine.ip_helper_addresses` (1408-1446): the code is that of models_cisco.py:2063, modelled in Cisco/Model
* `BaseIOSXRIntfLine.is_switchport` (1449-1455): Xr/Intf
* `BaseIOSXRIntfLine.has_manual_switch_access` (1458-1464): Xr/Intf
* `BaseIOSXRIntfLine.has_manual_switch_trunk_encap` (1467-1470): Xr/Intf
* `BaseIOSXRIntfLine.manual_switch_trunk_encap` (1473-1479): Xr/Intf
* `BaseIOSXRIntfLine.has_manual_switch_trunk` (1482-1488): Xr/Intf
* `BaseIOSXRIntfLine.has_switch_portsecurity` (1491-1502): Xr/Intf
* `BaseIOSXRIntfLine.has_switch_stormcontrol` (1505-1513): Xr/Intf
* `BaseIOSXRIntfLine.has_dtp` (1516-1529): Xr/Intf
* `BaseIOSXRIntfLine.access_vlan` (1532-1545): Xr/Intf
* `BaseIOSXRIntfLine.trunk_vlans_allowed` (1548-1613): Xr/Intf
* `BaseIOSXRIntfLine.native_vlan` (1616-1629): Xr/Intf
* `BaseIOSXRIntfLine.has_manual_disable_cdp` (1634-1640): Xr/Intf
* `BaseIOSXRIntfLine.has_xconnect` (1645-1648): Xr/Intf
* `BaseIOSXRIntfLine.xconnect_vc` (1651-1657): Xr/Intf
* `BaseIOSXRIntfLine.has_ip_hsrp` (1662-1665): Xr/Intf
* `BaseIOSXRIntfLine.hsrp_ip_addr` (1668-1683): Xr/Intf
* `BaseIOSXRIntfLine.hsrp_ip_mask` (1686-1703): Xr/Intf
* `BaseIOSXRIntfLine.hsrp_group` (1706-1714): Xr/Intf
* `BaseIOSXRIntfLine.hsrp_priority` (1717-1730): Xr/Intf
* `BaseIOSXRIntfLine.hsrp_hello_timer` (1733-1746): Xr/Intf
* `BaseIOSXRIntfLine.hsrp_hold_timer` (1749-1762): Xr/Intf
* `BaseIOSXRIntfLine.has_hsrp_track` (1765-1768): the code is that of models_cisco.py:2486, modelled in Cisco/Model
* `BaseIOSXRIntfLine.hsrp_track` (1771-1782): the code is that of models_cisco.py:2492, modelled in Cisco/Model
* `BaseIOSXRIntfLine.has_hsrp_usebia` (1785-1796): Xr/Intf
* `BaseIOSXRIntfLine.has_hsrp_preempt` (1799-1810): Xr/Intf
* `BaseIOSXRIntfLine.hsrp_authentication_md5_keychain` (1813-1824): Xr/Intf
* `BaseIOSXRIntfLine.has_hsrp_authentication_md5` (1827-1831): Xr/Intf
* `BaseIOSXRIntfLine.has_mac_accessgroup_in` (1842-1847): Xr/Intf
* `BaseIOSXRIntfLine.has_mac_accessgroup_out` (1850-1855): Xr/Intf
* `BaseIOSXRIntfLine.mac_accessgroup_in` (1858-1864): Xr/Intf
* `BaseIOSXRIntfLine.mac_accessgroup_out` (1867-1873): Xr/Intf
* `BaseIOSXRIntfLine.has_ip_accessgroup_in` (1878-1881): Xr/Intf
* `BaseIOSXRIntfLine.has_ip_accessgroup_out` (1884-1887): Xr/Intf
* `BaseIOSXRIntfLine.has_ipv4_accessgroup_in` (1890-1893): Xr/Intf
* `BaseIOSXRIntfLine.has_ipv4_accessgroup_out` (1896-1899): Xr/Intf
* `BaseIOSXRIntfLine.ipv4_accessgroup_in` (1914-1920): Xr/Intf
* `BaseIOSXRIntfLine.ipv4_accessgroup_out` (1923-1929): Xr/Intf

Not modelled: `IOSXRCfgLine.__init__`, `IOSXRCfgLine.is_object_for`, `IOSXRCfgLine.is_loopback_intf`, `BaseIOSXRIntfLine.__repr__`, `BaseIOSXRIntfLine.verbose`, `BaseIOSXRIntfLine.is_object_for`, `BaseIOSXRIntfLine.abbvs`, `BaseIOSXRIntfLine.ip`, `BaseIOSXRIntfLine.ipv4`, `BaseIOSXRIntfLine.ipv4_network_object`, `BaseIOSXRIntfLine.ip_addr`, `BaseIOSXRIntfLine.hsrp_authentication_cleartext`, `BaseIOSXRIntfLine.ip_accessgroup_in`, `BaseIOSXRIntfLine.ip_accessgroup_out`, `IOSXRIntfLine.__init__`, `IOSXRIntfLine.is_object_for`.

## models_asa.py: 60 of 98 functions

Modelled:

* `ASACfgLine.is_object_for` (95-99): Asa/Model
* `ASACfgLine.is_intf` (101-108): Asa/Intf
* `ASACfgLine.is_subintf` (110-116): Asa/Intf
* `ASACfgLine.is_virtual_intf` (118-124): Asa/Intf
* `ASACfgLine.is_loopback_intf` (126-132): Asa/Intf
* `ASACfgLine.is_ethernet_intf` (134-140): Asa/Intf
* `BaseASAIntfLine.reset` (176-179): Edit/Reset
* `BaseASAIntfLine.build_reset_string` (181-184): Edit/Reset
* `BaseASAIntfLine.name` (222-228): Asa/Intf
* `BaseASAIntfLine.port` (230-234): Asa/Intf
* `BaseASAIntfLine.port_type` (236-241): Asa/Intf
* `BaseASAIntfLine.ordinal_list` (243-257): Asa/Intf
* `BaseASAIntfLine.description` (259-265): Asa/Intf
* `BaseASAIntfLine.manual_delay` (267-273): Asa/Intf
* `BaseASAIntfLine.has_no_ipv4` (276-280): Asa/Intf
* `BaseASAIntfLine.ipv4_addr_object` (297-304): Asa/Intf
* `BaseASAIntfLine.ipv6_addr_object` (307-325): Asa/Intf
* `BaseASAIntfLine.ipv4_standby_addr_object` (328-335): Asa/Intf
* `BaseASAIntfLine.ip_network_object` (345-357): Asa/Intf
* `BaseASAIntfLine.ipv6_addr` (360-365): Asa/Intf
* `BaseASAIntfLine.ipv6_standby_addr` (367-375): Asa/Intf
* `BaseASAIntfLine.ipv6_masklength` (378-383): Asa/Intf
* `BaseASAIntfLine.has_autonegotiation` (386-398): Asa/Intf
* `BaseASAIntfLine.has_manual_speed` (401-407): Asa/Intf
* `BaseASAIntfLine.has_manual_duplex` (410-416): Asa/Intf
* `BaseASAIntfLine.is_shutdown` (419-425): Asa/Intf
* `BaseASAIntfLine.ipv4_addr` (434-443): Asa/Intf
* `BaseASAIntfLine.ipv4_standby_addr` (446-455): Asa/Intf
* `BaseASAIntfLine.ipv4_netmask` (458-467): Asa/Intf
* `BaseASAIntfLine.ipv4_masklength` (470-477): Asa/Intf
* `BaseASAIntfLine.in_ipv4_subnet` (480-494): Asa/Intf
* `BaseASAIntfLine.in_ipv4_subnets` (497-508): Asa/Intf
* `BaseASAIntfLine.has_ip_pim_sparse_mode` (511-525): Asa/Intf
* `BaseASAIntfLine.is_switchport` (528-534): Asa/Intf
* `BaseASAIntfLine.has_manual_switch_access` (537-543): Asa/Intf
* `BaseASAIntfLine.has_manual_switch_trunk_encap` (546-549): Asa/Intf
* `BaseASAIntfLine.has_manual_switch_trunk` (552-558): Asa/Intf
* `BaseASAIntfLine.access_vlan` (561-568): Asa/Intf
* `ASAName.__init__` (580-592): Asa/Model
* `ASAName.is_object_for` (594-599): Asa/Model
* `ASAObjNetwork.is_object_for` (624-629): Asa/Model
* `ASAObjService.is_object_for` (644-649): Asa/Model
* `ASAObjGroupNetwork.__init__` (665-673): Asa/Model
* `ASAObjGroupNetwork.is_object_for` (675-680): Asa/Model
* `ASAObjGroupNetwork.network_count` (690-695): Asa/Model
* `ASAObjGroupNetwork.network_strings` (697-746): Asa/Model
* `ASAObjGroupNetwork.networks` (748-766): Asa/Model
* `ASAObjGroupService.__init__` (785-807): Asa/Model
* `ASAObjGroupService.is_object_for` (809-814): Asa/Model
* `ASAObjGroupService.ports` (822-896): Asa/Model
* `ASAIntfLine.is_object_for` (911-917): Asa/Model
* `ASAIntfGlobal.is_object_for` (935-940): Asa/Model
* `ASAHostnameLine.is_object_for` (958-963): Asa/Model
* `ASAHostnameLine.hostname` (965-969): Asa/Model
* `ASAAclLine.__init__` (1286-1306): Asa/Model
* `ASAAclLine.is_object_for` (1308-1314): Asa/Model
* `ASAAclLine.src_addr_method` (1316-1349): Asa/Acl
* `ASAAclLine.dst_addr_method` (1351-1383): Asa/Acl
* `ASAAclLine.acl_protocol_dict` (1385-1417): Asa/Acl
* `ASAAclLine.result_dict` (1419-1469): Asa/Acl

Not modelled: `ASACfgLine.__init__`, `BaseASAIntfLine.__init__`, `BaseASAIntfLine.__repr__`, `BaseASAIntfLine.verbose`, `BaseASAIntfLine.is_object_for`, `BaseASAIntfLine.ip`, `BaseASAIntfLine.ipv4`, `BaseASAIntfLine.ipv4_network_object`, `BaseASAIntfLine.ip_addr`, `ASAName.result_dict`, `ASAObjNetwork.__init__`, `ASAObjService.__init__`, `ASAObjGroupNetwork.hash_children`, `ASAObjGroupService.__repr__`, `ASAIntfLine.__init__`, `ASAIntfGlobal.__init__`, `ASAIntfGlobal.__repr__`, `ASAHostnameLine.__init__`, `ASAHostnameLine.__repr__`, `BaseASARouteLine.__init__`, `BaseASARouteLine.__repr__`, `BaseASARouteLine.routeinfo`, `BaseASARouteLine.is_object_for`, `BaseASARouteLine.address_family`, `BaseASARouteLine.network`, `BaseASARouteLine.netmask`, `BaseASARouteLine.admin_distance`, `BaseASARouteLine.nexthop_str`, `BaseASARouteLine.tracking_object_name`, `ASARouteLine.__init__`, `ASARouteLine.is_object_for`, `ASARouteLine.address_family`, `ASARouteLine.network`, `ASARouteLine.netmask`, `ASARouteLine.network_object`, `ASARouteLine.nexthop_str`, `ASARouteLine.admin_distance`, `ASARouteLine.tracking_object_name`.

## models_all.py: 4 of 165 functions

Modelled:

* `IOSAaaGroupServerLine.is_object_for` (2470-2475): the code is that of models_cisco.py:3220, modelled in Cisco/Factory
* `IOSAaaGroupServerLine.vrf` (2477-2485): the code is that of models_cisco.py:3227, modelled in Aaa/Model
* `IOSAaaGroupServerLine.source_interface` (2487-2495): the code is that of models_cisco.py:3237, modelled in Aaa/Model
* `IOSAaaGroupServerLine.server_private` (2497-2506): the code is that of models_cisco.py:3247, modelled in Aaa/Model

Not modelled: `BaseCfgModel.__init__`, `BaseCfgModel.__init_subclass__`, `BaseCfgModel.__str__`, `BaseCfgModel.__repr__`, `BaseCfgModel.is_object_for`, `BaseCfgModel._list`, `BaseCfgModel.is_intf`, `BaseCfgModel.is_subintf`, `BaseCfgModel.is_virtual_intf`, `BaseCfgModel.is_loopback_intf`, `BaseCfgModel.is_ethernet_intf`, `BaseCfgModel.intf_in_portchannel`, `BaseCfgModel.portchannel_number`, `BaseCfgModel.is_portchannel_intf`, `BaseCfgModel._build_abbvs`, `BaseCfgModel.abbvs`, `BaseCfgModel.get_vrrp_tracking_interfaces`, `BaseCfgModel.get_glbp_tracking_interfaces`, `BaseCfgModel.get_hsrp_tracking_interfaces`, `BaseCfgModel.hsrp_interfaces`, `BaseCfgModel.reset`, `BaseCfgModel.build_reset_string`, `BaseCfgModel.verbose`, `BaseCfgModel.interface_object`, `BaseCfgModel.name`, `BaseCfgModel.port`, `BaseCfgModel.port_type`, `BaseCfgModel.ordinal_list`, `BaseCfgModel.interface_number`, `BaseCfgModel.subinterface_number`, `BaseCfgModel.description`, `BaseCfgModel.manual_bandwidth`, `BaseCfgModel.manual_delay`, `BaseCfgModel.manual_holdqueue_out`, `BaseCfgModel.manual_holdqueue_in`, `BaseCfgModel.manual_encapsulation`, `BaseCfgModel.has_mpls`, `BaseCfgModel.ipv4_addr_object`, `BaseCfgModel.has_ip_secondary`, `BaseCfgModel.ip_secondary_addresses`, `BaseCfgModel.ip_secondary_networks`, `BaseCfgModel.has_no_ipv4`, `BaseCfgModel.ip`, `BaseCfgModel.ipv4`, `BaseCfgModel.ipv4_network_object`, `BaseCfgModel.ip_network_object`, `BaseCfgModel.has_autonegotiation`, `BaseCfgModel.has_manual_speed`, `BaseCfgModel.has_manual_duplex`, `BaseCfgModel.has_manual_carrierdelay`, `BaseCfgModel.manual_carrierdelay`, `BaseCfgModel.has_manual_clock_rate`, `BaseCfgModel.manual_clock_rate`, `BaseCfgModel.manual_mtu`, `BaseCfgModel.manual_mpls_mtu`, `BaseCfgModel.manual_ip_mtu`, `BaseCfgModel.manual_speed`, `BaseCfgModel.manual_duplex`, `BaseCfgModel.has_manual_mtu`, `BaseCfgModel.has_manual_mpls_mtu`, `BaseCfgModel.has_manual_ip_mtu`, `BaseCfgModel.is_shutdown`, `BaseCfgModel.has_vrf`, `BaseCfgModel.vrf`, `BaseCfgModel.ip_addr`, `BaseCfgModel.ipv4_addr`, `BaseCfgModel.ipv4_netmask`, `BaseCfgModel.ipv4_masklength`, `BaseCfgModel.is_abbreviated_as`, `BaseCfgModel.in_ipv4_subnet`, `BaseCfgModel.in_ipv4_subnets`, `BaseCfgModel.has_no_icmp_unreachables`, `BaseCfgModel.has_no_icmp_redirects`, `BaseCfgModel.has_no_ip_proxyarp`, `BaseCfgModel.has_ip_pim_dense_mode`, `BaseCfgModel.has_ip_pim_sparse_mode`, `BaseCfgModel.has_ip_pim_sparsedense_mode`, `BaseCfgModel.manual_arp_timeout`, `BaseCfgModel.has_ip_helper_addresses`, `BaseCfgModel.ip_helper_addresses`, `BaseCfgModel.is_switchport`, `BaseCfgModel.has_manual_switch_access`, `BaseCfgModel.has_manual_switch_trunk_encap`, `BaseCfgModel.manual_switch_trunk_encap`, `BaseCfgModel.has_manual_switch_trunk`, `BaseCfgModel.has_switch_portsecurity`, `BaseCfgModel.has_switch_stormcontrol`, `BaseCfgModel.has_dtp`, `BaseCfgModel.access_vlan`, `BaseCfgModel.trunk_vlans_allowed`, `BaseCfgModel.native_vlan`, `BaseCfgModel.has_manual_disable_cdp`, `BaseCfgModel.has_xconnect`, `BaseCfgModel.xconnect_vc`, `BaseCfgModel.has_ip_hsrp`, `BaseCfgModel.hsrp_ip_addr`, `BaseCfgModel.hsrp_ip_mask`, `BaseCfgModel.hsrp_group`, `BaseCfgModel.hsrp_priority`, `BaseCfgModel.hsrp_hello_timer`, `BaseCfgModel.hsrp_hold_timer`, `BaseCfgModel.has_hsrp_track`, `BaseCfgModel.hsrp_track`, `BaseCfgModel.has_hsrp_usebia`, `BaseCfgModel.has_hsrp_preempt`, `BaseCfgModel.hsrp_authentication_md5_keychain`, `BaseCfgModel.has_hsrp_authentication_md5`, `BaseCfgModel.hsrp_authentication_cleartext`, `BaseCfgModel.has_mac_accessgroup_in`, `BaseCfgModel.has_mac_accessgroup_out`, `BaseCfgModel.mac_accessgroup_in`, `BaseCfgModel.mac_accessgroup_out`, `BaseCfgModel.has_ip_accessgroup_in`, `BaseCfgModel.has_ip_accessgroup_out`, `BaseCfgModel.has_ipv4_accessgroup_in`, `BaseCfgModel.has_ipv4_accessgroup_out`, `BaseCfgModel.ip_accessgroup_in`, `BaseCfgModel.ip_accessgroup_out`, `BaseCfgModel.ipv4_accessgroup_in`, `BaseCfgModel.ipv4_accessgroup_out`, `BaseCfgModel.manual_exectimeout_minutes`, `BaseCfgModel.manual_exectimeout_seconds`, `BaseIOSRouteLine.__init__`, `BaseIOSRouteLine.__repr__`, `BaseIOSRouteLine.routeinfo`, `BaseIOSRouteLine.vrf`, `BaseIOSRouteLine.address_family`, `BaseIOSRouteLine.network`, `BaseIOSRouteLine.netmask`, `BaseIOSRouteLine.admin_distance`, `BaseIOSRouteLine.nexthop_str`, `BaseIOSRouteLine.tracking_object_name`, `BaseIOSRouteLine.vrf`, `BaseIOSRouteLine.address_family`, `BaseIOSRouteLine.network`, `BaseIOSRouteLine.netmask`, `BaseIOSRouteLine.masklen`, `BaseIOSRouteLine.network_object`, `BaseIOSRouteLine.nexthop_str`, `BaseIOSRouteLine.next_hop_interface`, `BaseIOSRouteLine.next_hop_addr`, `BaseIOSRouteLine.global_next_hop`, `BaseIOSRouteLine.nexthop_vrf`, `BaseIOSRouteLine.admin_distance`, `BaseIOSRouteLine.multicast`, `BaseIOSRouteLine.unicast`, `BaseIOSRouteLine.route_name`, `BaseIOSRouteLine.permanent`, `BaseIOSRouteLine.tracking_object_name`, `BaseIOSRouteLine.tag`, `IOSAaaGroupServerLine.__init__`, `IOSAaaLoginAuthenticationLine.__init__`, `IOSAaaLoginAuthenticationLine.is_object_for`, `IOSAaaEnableAuthenticationLine.__init__`, `IOSAaaEnableAuthenticationLine.is_object_for`, `IOSAaaCommandsAuthorizationLine.__init__`, `IOSAaaCommandsAuthorizationLine.is_object_for`, `IOSAaaCommandsAccountingLine.__init__`, `IOSAaaCommandsAccountingLine.is_object_for`, `IOSAaaExecAccountingLine.__init__`, `IOSAaaExecAccountingLine.is_object_for`.

## models_junos.py: 12 of 50 functions

Modelled:

* `JunosCfgLine.intf_name` (117-130): Junos/Intf
* `JunosCfgLine.is_intf` (133-188): Junos/Intf
* `JunosCfgLine.is_subintf` (191-231): Junos/Intf
* `JunosCfgLine.is_switchport` (234-242): Junos/Intf
* `JunosCfgLine.is_virtual_intf` (245-253): Junos/Intf
* `JunosCfgLine.is_loopback_intf` (256-291): Junos/Intf
* `JunosCfgLine.is_ethernet_intf` (294-336): Junos/Intf
* `BaseJunosIntfLine.reset` (415-418): Edit/Reset
* `BaseJunosIntfLine.build_reset_string` (421-424): Edit/Reset
* `BaseJunosIntfLine.port_type` (557-594): the code is that of models_cisco.py:1097, modelled in Cisco/Access
* `BaseJunosIntfLine.manual_bandwidth` (660-666): the code is that of models_cisco.py:1323, modelled in Cisco/Model
* `BaseJunosIntfLine.manual_delay` (669-675): the code is that of models_cisco.py:1332, modelled in Cisco/Model

Not modelled: `JunosCfgLine.__init__`, `JunosCfgLine.is_object_for`, `JunosCfgLine.is_object_for_interface`, `JunosCfgLine.name`, `BaseJunosIntfLine.__init__`, `BaseJunosIntfLine.__repr__`, `BaseJunosIntfLine.is_object_for_interface`, `BaseJunosIntfLine.ipv4_addr_object`, `BaseJunosIntfLine.ipv6_addr_object`, `BaseJunosIntfLine.is_switchport`, `BaseJunosIntfLine.verbose`, `BaseJunosIntfLine.name`, `BaseJunosIntfLine.port`, `BaseJunosIntfLine.ordinal_list`, `BaseJunosIntfLine.description`, `JunosIntfLine.__init__`, `JunosIntfLine.is_object_for`, `BaseJunosRouteLine.__init__`, `BaseJunosRouteLine.__repr__`, `BaseJunosRouteLine.routeinfo`, `BaseJunosRouteLine.is_object_for`, `BaseJunosRouteLine.vrf`, `BaseJunosRouteLine.address_family`, `BaseJunosRouteLine.network`, `BaseJunosRouteLine.netmask`, `BaseJunosRouteLine.admin_distance`, `BaseJunosRouteLine.nexthop_str`, `BaseJunosRouteLine.tracking_object_name`, `JunosRouteLine.__init__`, `JunosRouteLine.is_object_for`, `JunosRouteLine.vrf`, `JunosRouteLine.address_family`, `JunosRouteLine.network`, `JunosRouteLine.netmask`, `JunosRouteLine.network_object`, `JunosRouteLine.nexthop_str`, `JunosRouteLine.admin_distance`, `JunosRouteLine.tracking_object_name`.

## protocol_values.py: 0 of 0 functions

Not modelled: none.

## errors.py: 0 of 21 functions

Not modelled: `BaseError.__init__`, `PythonOptimizeException.__init__`, `RequirementFailure.__init__`, `ListItemMissingAttribute.__init__`, `ListItemTypeError.__init__`, `DNSLookupError.__init__`, `DNSTimeoutError.__init__`, `DuplicateMember.__init__`, `DynamicAddressException.__init__`, `InvalidCiscoInterface.__init__`, `InvalidCiscoEthernetTrunkAction.__init__`, `InvalidCiscoEthernetVlan.__init__`, `InvalidMember.__init__`, `InvalidParameters.__init__`, `InvalidCiscoRange.__init__`, `InvalidShellVariableMapping.__init__`, `InvalidTypecast.__init__`, `NoRegexMatch.__init__`, `MismatchedType.__init__`, `UnexpectedType.__init__`, `UntypedError.__init__`.
