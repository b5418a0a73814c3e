# Formal model of ciscoconfparse in Lean 4

Lean 4.33.0, core library plus single Mathlib modules where noted.  All modules
are under `lean/Verif/`; `lean/Verif.lean` imports them.

* `properties.jsonl`: the properties, in words.
* `MANIFEST.json`: for each property its status, its theorems, and a note on what
  is proved and what is not (generated by `tools/manifest.py`).
* `AXIOMS.md`: the axioms of each property theorem (generated by `tools/axioms.py`).
* `MODELLED.md`: which functions of /repo are modelled and which are not (generated
  by `tools/coverage.py` from the citations in the model).
* `seeded/`: the wrong programs the theorems were tested against, and the log.

## How the model is laid out

| directory | models (files in /repo/ciscoconfparse) | properties |
|---|---|---|
| `Py`, `PyLemmas` | the Python string operations the code uses (`strip`, `split`, `join`, `str(int)`, `int(str)`, stable `sorted`) on `List Char` | |
| `IP/` | `ccp_util.py` `IPv4Obj`, `IPv6Obj`, texts of IPv6 addresses (`Text6*`, `Spec6`), views and `ip_factory` (`Views*`) | C01-C08, C87-C93, C167-C168, C223-C225, C238, C261, C263, C275 |
| `Range/` | `ccp_util.py` `CiscoRange` of integers | C09-C13, C183–C185, C274 |
| `Intf/` | `ccp_util.py` `CiscoIOSInterface`, `CiscoIOSXRInterface`, `CiscoRange` of interfaces | C14-C16, C63, C106-C109, C161-C166, C213–C216, C226, C266 |
| `Misc/` | type 7 passwords, `L4Object`, `fix_repeated_words`, `uncfgtext` | C17, C18, C44, C50, C208–C211, C272, C273 |
| `Vlan/` | `models_cisco.py` `trunk_vlans_allowed` | C19 |
| `Conf/` | `ccp_abc.py` `BaseCfgLine`, `ciscoconfparse.py` `ConfigList` (parsing, commit), `save_as`, file reading | C20-C28, C43, C49, C246, C249 |
| `Query/` | the query methods of `CiscoConfParse` and `BaseCfgLine` | C29-C36, C51-C56, C94-C103, C199–C202, C217, C220, C227, C229, C237, C243, C244, C245, C257 |
| `Edit/` | the editing methods of `CiscoConfParse`, `ConfigList`, `BaseCfgLine` | C37-C42, C57-C62, C127-C133, C221, C222, C234, C235, C247, C248, C250, C251, C252, C253, C254, C255, C256, C258, C259, C260, C262, C264, C265, C271 |
| `Junos/` | brace conversion, closing braces; interfaces of `models_junos.py` | C45-C47, C121, C122 |
| `Diff/` | `HDiff`, `sync_diff` | C48, C64-C69, C212, C228, C230, C231, C232, C233, C236, C239, C240, C241, C242 |
| `Re/` | Python's `re`: parser and backtracking matcher for the expressions in the source (`Syntax`, `Match`); deterministic reading of simple expressions (`Det`, `Words`, `Shapes`); first matches of expressions with choices (`Hit`), the set of all matches (`Lang`), lazy repetition (`Lazy`), expressions that are not anchored (`Free`) | |
| `Cisco/` | `ccp_abc.py` typed searches, `models_cisco.py` line classes | C70-C86, C104, C105, C123-C126, C169-C172, C173, C174, C206, C207, C218, C268, C269 |
| `Asa/` | `models_asa.py`: the factory classes, network and service object groups, access list lines; `ConfigList` dictionaries of `ciscoconfparse.py` | C110-C120, C175–C182, C219, C267 |
| `Xr/` | `models_iosxr.py`: interfaces: names, addresses, numbers, flags, HSRP, access groups | C186–C198, C219 |
| `Nxos/` | `models_nxos.py`: the attributes of interface lines, vPC domains, routes, host names, access lines; the factory for NXOS | C134-C147, C152-C160, C203–C205, C219, C270 |
| `Aaa/` | `models_cisco.py`, `models_nxos.py`: the AAA lines | C148-C151 |

In each directory `Model.lean` has the definitions (each citing file and
lines), `Spec.lean` small specifications that do not use the model's functions,
`Props.lean` (and `*Props.lean`, `More.lean`, `Extra.lean`) the property theorems
with examples that meet their hypotheses; the other files have helper lemmas.
A theorem for property Cnn is named `Cnn_...`.  A theorem that covers only part of
the property ends in `_partial`; a theorem that shows by a concrete run that the
code does not have the property ends in `_fails`.

## Modelling decisions

* A Python `str` is `List Char`.  White space is exactly the set of characters
  for which `str.isspace` is true; digits and letters are the ASCII ones.
* Python objects are entries of a heap indexed by an identity (`Nat`), so
  aliasing and stale references are represented.
* A user-supplied regex is an arbitrary function from a text to the part it
  matches (`Query.Rx`), or an arbitrary function for `re.sub`.  The theorems hold
  for every such function, hence for every regex.
* Regexes fixed in the source are modelled by hand-written matchers, next to a
  comment quoting the regex, except in `Cisco/`: there the expression is the string
  of the source, parsed by `Re.compile` and run by `Re.search`, which models the
  leftmost match found by Python's backtracking matcher with all its groups (no
  look-around, no back references; `\d` is the ASCII digits).  `Re/Det` proves that
  for a class of expressions the backtracking search never has to go back, so that
  `re.search` is a reading from left to right.
* `BaseCfgLine.__eq__` compares `hash()` values of texts; the model compares the
  texts, i.e. string hashes are taken to be free of collisions there.  For `HDiff`
  the hash is a parameter, and the theorems assume only that the hashes of the
  texts of the two configurations do not collide.
* Exceptions are values (`Except Err`).  Loops are structural recursion or folds;
  a Python `while` without an evident bound has a bound as argument, and a theorem
  or comment says why it suffices.
* Logging, debug output, deprecation warnings and type checks of arguments are not
  modelled.

## Per property

What is modelled and how it is proved.  The exact scope of each result is in the
notes of `MANIFEST.json`.

* C01-C08 (IP): objects are (address, prefix length, network); `network_object`
  is the stdlib `ipaddress` network, modelled by its arithmetic.  Reachable objects
  are described by an invariant over all API calls (`IP/Invariant`).  Proof by
  arithmetic on `Nat`/`Int` (multiples of powers of two).
* C09-C13 (integer ranges): text is parsed by the modelled `split`/`int`; proofs
  by induction on the list of parts / on sorted lists, and over histories of calls.
* C14-C16, C63 (interfaces): the deterministic reading of the regexes as a scanner;
  round trip by induction over digit strings.
* C17 (type 7): XOR with a 53-entry table; induction over the password.
* C18 (L4 ports): decision logic over the port number.
* C19 (VLANs): the statements as lines, the device's own reading of them as the
  specification, induction over the list of statements.
* C20-C28, C43 (parse): the one-pass bootstrap with its parent cache, then closing
  braces, banner and macro passes; loop invariants by induction on the lines.  The
  parent of every line of every configuration is characterised by `C21_parent`.
* C27, C49 (commit, save/read): parsing a text from which blank lines were dropped
  (`Conf/Thin`), the terminators of the lines of a file.
* C29-C36, C51-C56 (queries): filters over the object list; soundness and
  completeness against `Desc`/`Anc` (transitive child/parent).
* C37-C42, C57-C62 (edits): state transformer over heap + list; invariants by
  induction over operation histories.
* C44, C50: string functions.
* C45-C47 (Junos): rendering of an inductive brace document, then conversion, by
  induction over the document.
* C48, C64, C65, C69 (HDiff): invariants of the marking loops over prefixes of the
  line lists; the compressed result is a permutation of the first entries.  A line
  is identified by its path: its own text and the texts of its parents.
* C66-C68 (sync_diff): from the HDiff results.
* C70-C76 (interface attributes): each attribute runs its regular expression through
  the modelled matcher.  The specification speaks of the words of a line
  (`str.split()`) only.  Proof: the expression compiles to the given program
  (checked by the kernel), the program reads deterministically, and reading it is
  reading words.
* C77, C78, C80 (factory=True): the first class whose test succeeds; each test is
  again an expression on the words of the line.  The trees agree because building
  the tree reads the texts only.
* C79, C81 (static routes): the route expression has eleven optional groups.
  `Re/Hit.lean` has rules for "the first way to match" of optional groups: the
  group matches if it can and what follows can, and is skipped otherwise.
* C82-C86 (host names, access lines, kinds and names of interfaces): `Lang` gives the
  set of remainders that an expression can leave, without an order, which settles every
  yes/no question; `Hit` names the first remainder, which settles the captured groups.
  `Lazy` does the same for `.*?`: the shortest repetition after which the rest matches.
  The names are those of `Spec.Named`; the interface object goes through C14.
* C87-C89 (texts of IPv6 addresses): the specification (`IP/Spec6`) gives the texts of
  RFC 4291 and the canonical text of RFC 5952 as relations.  Reading: for each of the eleven
  alternatives either a first match (`Hit`) or no match (`Miss`, from `Lang`), because a colon is
  not a digit; then the standard library's parser by cases.  Writing: an invariant of the loop that
  looks for the longest run of zero groups.  C88: `parse6` accepts only texts (`Text6Quad`), and the address
  is the part of the input that the expression found.  C89: the same with a dotted quad at the end; the lazy first part of the second
  alternative stops at the last colon.

* C90-C93 (views, `ip_factory`, texts of IPv4 addresses): masks and ranges by the bits of
  `Nat` (`Nat.testBit`); a class test on both ends of a network covers the network because a
  class is a block.  The texts of masks are specified in `IP/Spec6` (`Mask4`); the model of
  the standard library's mask parser accepts exactly those, by inversion; the two readers
  that `ip_factory` calls agree on every text.
* C94-C98 (searching with texts): the specification is a text that the model of `re` compiles
  (`Re/Syntax`, `Re/Match`); `exactmatch`, `ignore_ws` and `escape_chars` rewrite the text as the
  code does. `Query/TextSpec.lean` says which texts a simple pattern stands for; the compiler is
  shown to give the expression with that language, and the backtracking matcher to find a match
  exactly if the language has one.
* C99-C103 (required lines): `req_cfgspec_all_diff`, `req_cfgspec_excl_diff` with
  `add_uncfgtext`, and the searches of `CiscoConfParse` itself.  The loops are structural
  recursions over the list of lines and the list of required lines; the specification of C101
  says which lines are violators (`Spec.Violator`) and what is printed for them and their
  ancestors.  `child_indent` is an invariant of the construction of the tree.
* C104, C105 (searches for factory objects): `Cisco/Find.lean` joins the model of the searches
  (C94), of the factory (C77, C78) and of the abbreviations (C85); the theorems compose theirs.
* C106-C109 (IOS XR interfaces): `Intf/XRModel.lean` models `CiscoIOSXRInterface` with the real
  regular expression of nine groups, run by the model of `re`. `Intf/XRLemmas.lean` proves which
  groups the first match has (`Hit`), for names with two, three and four parts and any rest; names
  with one part are read as those of `CiscoIOSInterface`. The order is that of lists of texts
  (`Spec.Before`, `Spec.Clash`), so it reuses the lemmas of `Intf/Order.lean`. Dictionaries are
  lists of items with values None, integer or text.

* C110-C115 (ASA): `Asa/Model.lean` models the dictionaries, the factory with its ten classes, and
  `network_strings`/`networks` of object groups. `Asa/Lemmas.lean` and `Asa/GroupLemmas.lean` prove
  what the regular expressions match (with a lemma on alternatives `(^a)|(^b)|..`).
  `Asa/DictProps.lean` proves C110 by induction over the lines. `Asa/ClassProps.lean` proves that the
  tests of the classes exclude each other (C111, C112). `Asa/GroupProps.lean` proves that
  `network_strings` agrees with an inductive specification: soundness by induction over the depth
  of calls, completeness by induction over the specification, and by descent that a cycle of groups
  gives no result (C113, C114); C115 is an invariant of the cache.

* C116, C117 (service groups): the expression for the lines has alternatives inside its alternatives;
  `head_or` (`Asa/PortLemmas.lean`) shows that the first match is that of the first alternative, written
  out, that matches at all.  `Spec.Gives` lists the forms of a line; `ports` is compared with it by
  induction on the lines.

* C118-C120 (access list lines): `Re/Tok.lean` describes all matches of an expression (not only the
  first) by the words they read (`Tw`, `Tk`), compositionally, sound and complete. `Asa/AclLemmas.lean`
  decomposes the expression and gives the words of each part; `Asa/AclEval.lean` computes the attributes
  from the groups; `Asa/AclParse.lean` combines them for the five alternatives. `Asa/AclSpec.lean` is the
  grammar. For ICMP, where the first match matters, `Re/Head.lean` and `Asa/AclIcmp.lean` determine it.
* C121, C122 (Junos interfaces): stated over the brace documents of C45-C47 (`Spec.owner` of a line),
  using C46 for parents and children; ancestors and descendants by induction over the tree.
* C123-C125 (HSRP groups): `hsrp_interfaces` by induction over the lines and the language of its
  expression; the attributes by `Spec.First`, the first line that begins with given words.
* C126 (tracked interfaces): the match is computed step by step (`Re/Lazy.lean`); the lazy name
  stops at the end of the word because what follows cannot match inside it. That one-character
  names are never found is shown for every place where a match could begin.

* C127-C133 (the list of lines as a Python sequence): elements are objects or strings;
  slices with any bounds and step; `ConfigList(..)` of a list of objects is refused by
  the parser's type check, which is what slices, sums and copies run into.  Comparisons
  by induction over both lists with the line numbers as positions.

* C134-C141 (NXOS interfaces): `Nxos/Model.lean` models the properties of `BaseNXOSIntfLine` one by
  one. `Nxos/Tails.lean` adds the shapes of expressions that IOS does not have (open ends, lazy groups
  at the end) to those of `Cisco/Tails.lean`. `Nxos/Props.lean` states numbers, texts and flags by the
  words of the lines. `Nxos/AddrProps.lean` proves that the two expressions for the address and the mask
  length read the same line (`tail_addr`, `tail_len`, `addr_first`), reads the objects with C93 and
  C06, and the subnets with C01.

* C142, C143 (NXOS relay addresses and trunks): the relay loop is proved by induction over the
  children with specifications `Relays` and `Vrf` of the lines. For trunks, `Spec.Step` says what one
  statement does to a set of VLANs; `step_spec` proves it of one child (the three-way expression is
  split into its alternatives in `abs_search`), `steps_spec` by induction of any history; the lists are
  read with C09. The failing statements are covered for every history before them.
* C144, C145 (NXOS HSRP): the groups are the child lines `hsrp N` (`Spec.Groups`). Each loop over the
  children is reduced to this list by induction; the lines of a group are read with the lemmas of
  `Cisco/Tails.lean`. Which group's settings a property returns differs from property to property,
  and the theorems say which.

* C146, C147 (NXOS flags): `Nxos/MiscProps.lean`; an expression without a group is read with the index
  of a group, so the flag raises as soon as it should be true.
* C148 (AAA methods): `(\S+)(.+?)$` is not read from left to right: `Aaa/Lemmas.lean` follows the
  backtracking of the greedy word before the lazy rest (`star_back`). The statements are about lines
  with one blank between the words (`Spec.line`).
* C149, C150 (accounting, groups): `Aaa/Fields.lean` reads a single-blank line word by word (`toks_det`);
  the alternatives of the record types are tried in turn (`search_alt`). `(\S.+?\S)\s*$` matches what
  `(\S..+)$` matches on a line without blanks at its end (`run_threeL`).
* C151 (private servers): the words of the children; negation by the same characterisation.
* C152-C154 (vPC domains): `Nxos/Domain.lean` models `NXOSvPCLine`. The expressions of C153 and C154 are
  not anchored; `Re/Free.lean` gives the first place where such an expression matches, and
  `Nxos/KeepaliveProps.lean` translates `key\s+.*?word\s+value` into a statement about the words of the line.
* C155, C156 (NXOS routes): `Nxos/Lines.lean`; the canonical line is matched part by part with the rules of
  `Re/Hit.lean`, as for IOS (C79). The negation for IPv6 holds for every route the expression accepts, because
  the expression has no group of that name.
* C157-C160 (NXOS factory and small lines): `Nxos/FactoryProps.lean`; `Spec.KindN` says what makes a line a
  line of a class; a line has at most one kind, so the order of the classes does not matter except for
  interface globals.
* C161-C166 (attributes of interfaces): `Intf/State.lean` models objects whose parts may be missing or negative,
  the setters and getters, `as_dict`, `from_dict` and the constructor with a dictionary, which updates the state
  twice. `Spec.Reach` is the set of objects that any sequence of assignments reaches; the invariant that prefix
  and class are stripped is proved by induction over it.
* C167, C168 (`collapse_addresses`): `IP/Collapse.lean` models the function of ccp_util.py and the algorithm of the
  standard library behind it (splitting, address ranges, summaries, the merging loop with its dictionary, the final
  pass). `IP/CollapseSpec.lean` says what a network is and which addresses it has. The loop invariant: stack and
  dictionary together have the addresses of the argument, keys are unique, each value is stored under its supernet.
  From unique keys it follows by induction over the prefix length that a covered network lies in one value.
* C169-C172 (`Cisco/Subnet.lean`): subnets, secondary addresses and autonegotiation. The address of an interface comes
  from C98's first line, containment from C01. The secondary sets are a loop over `all_children`, each step searching
  the line and its children; the invariant says which addresses the accumulator has.
* C173, C174 (`Cisco/Addr6.lean`): IPv6 addresses of IOS interfaces. The lazy `\S+?` in front of the slash is outside
  the deterministic expressions; `Re/Lead.lean` reads the words in front deterministically and leaves the rest to the
  matcher, and `Spec.Cut` says where the lazy group ends. The object is then the one of C87's text.
* C175–C182 (`Asa/Intf.lean`): attributes of ASA interfaces. Addresses are open at the end (`Spec.LeadQuad`); the
  standby expression mixes one blank and several, so it is compared with the one that allows several on lines without
  double blanks. Names and kinds share their expressions with the IOS classes (C84, C85).
* C183–C185 (`Range/Seq.lean`): ranges as sequences, with the mixin methods of `collections.abc.MutableSequence`
  written out. Everything is compared with the list of members that iteration gives; loops by induction on fuel that is
  shown to suffice.
* C186–C198 (`Xr/`): IOS-XR interfaces. The expressions are compiled by the model of `re` and reduced to words of the
  line with the lemmas of `Cisco/Tails.lean`; where the code is the same text as that for IOS or NXOS, the theorem is
  transferred by definitional equality. Names go through the model of `CiscoIOSXRInterface` (C106, C107).
* C199–C202 (`Query/Family.lean`): the family relation as the API shows and edits it. `has_child_with` against the
  match relation of the queries, `add_child` and `add_parent` as updates of the links, with the descendants after
  the update characterised by those before it.
* C203–C205 (`Nxos/Names.lean`, `Nxos/NameProps.lean`): names, numbers and kinds of NX-OS interfaces. Where the
  expression is that of IOS the language lemmas of `Cisco/` are used; `is_ethernet_intf` has an alternation of its own.
* C206, C207 (`Cisco/HsrpEq.lean`): comparison and hash of HSRP groups and tracked interfaces. Equality is
  reduced to the words of the interface line; hash functions of Python are parameters.
* C208, C209 (`Misc/Tools.lean`): `check_valid_ipaddress` against the exact IPv4 texts of C93, `L4Object` equality
  through the sorted duplicate-free port list.
* C210, C211 (`Misc/CcpRe.lean`): the regular-expression wrapper as a state machine over an abstract engine;
  induction on histories of calls.
* C212 (`Diff/Inputs.lean`): the kinds of arguments of `HDiff`, files with the file model of `Conf/`.
* C213–C216 (`Intf/XRState.lean`): attributes of IOS-XR interface objects as a state machine of assignments.
* C217 (`Query/Local.lean`): the parent rule (C21) is shown to shift with the position of a block; children (C22) and
  descendants inside the block follow by induction. The specification `Spec.Alike` compares two parsed configurations.
* C218, C219 (`Cisco/Local.lean`, `Nxos/Local.lean`, `Xr/Local.lean`, `Asa/Local.lean`): every attribute is a function
  of the texts of the line, its children and its descendants, so that C217 applies.
* C220 (`Query/Compose.lean`): the answers of the searches are filters of the list of objects by predicates that C217 shows
  to be the same in and out of context.
* C221 (`Edit/Block.lean`): a commit parses the texts anew, so C217 applies to the texts after the edit. What is left is that
  a deleted family lies wholly in or wholly out of the block, and that what follows the block stays closed.
* C222 (`Edit/Undo.lean`): both edits are followed on the list of texts (C37, C58, C59). The second commit parses the texts that
  were there at the beginning.
* C223-C225 (`IP/Mixed.lean`): an object is of one kind or the other, and an operator is the method of the left operand. Both
  classes compare numbers, so the comparisons are reduced to those of network, prefix length and address.
* C226 (`Intf/Typed.lean`): the choice of the parser. The range of IOS-XR interfaces is modelled up to the copy of the first
  interface, which always raises (C109).
* C227 (`Query/HashKids.lean`): the hashed tuple is the list of numbers and texts; a child has one parent, so two lines cannot
  have the same descendants.
* C228 (`Diff/Word.lean`): the two setters as a transition system, with an invariant over all assignments.
* C229 (`Query/Blocks.lean`): by induction on the blocks that remain, from C220; an answer is increasing, so it is the
  concatenation of its parts.
* C230, C231 (`Diff/Blocks.lean`): the paths of a configuration of blocks are those of its blocks (parents stay inside, by C217
  and C22); then C48 and C67.
* C232, C233 (`Diff/Mirror.lean`): what is shown for a path depends only on which configuration has it (C48, C64).
* C234 (`Edit/Commute.lean`): both orders leave, in the order of the list, the lines outside the families of all matching
  lines (C38).
* C235 (`Edit/Reparse.lean`): the state after `commit` is the new parse with its objects renamed. Each search is shown to commute with this renaming, so its answers are those of the new parse.
* C236 (`Diff/Apply.lean`): C64 says which paths the diff shows and C65 in which order; two increasing lists of line numbers with the same members are equal, so the lines without `+` are those of before.
* C237 (`Query/Names.lean`): models the three wrappers and combines C30, C31 and C32.
* C238 (`IP/Packed.lean`): induction on the number of bytes; the value and the lexicographic order of the bytes of n are those of n modulo 256^k.
* C239, C240 (`Diff/Enter.lean`): the path of a line, outermost parent first, is a block whose lines are indented more and more, and such a block alone has exactly the paths that start it. The commands are such blocks (C67), so the paths of the commands, and of the configuration with the commands behind it, follow from C230.
* C241 (`Diff/Choose.lean`): entry by entry the commands of the smaller choice are all or none of those of the larger.
* C242 (`Diff/Under.lean`): the set of paths of a configuration contains with a path its ends, and the marks say in which of the two sets a path is (C48).
* C243–C245 (`Query/Layout.lean`): trailing white space is stripped before anything is read; the rule for parents (C21) only compares indentations of lines and skips lines that are not configuration lines.
* C246 (`Conf/Init.lean`): models the checks of the constructor for every kind of argument, with a file system that is any function from names to contents; by cases.
* C247, C248 (`Edit/Raise.lean`): the models of `commit`, `insert_before` and `insert_after` are made again so that they give the state together with the exception (`atomicS`, `insertBeforeS`, `insertAfterS`); C247_agree and C248_agree tie them to the models used elsewhere.
* C249 (`Conf/Options.lean`): two parses with different options are equal; by congruence of the passes.
* C250 (`Edit/Child.lean`): the nearest less indented line in the lines with the new one put in (`Put`, `nearest_new`, `nearest_old`), then C21, C22, C34, C40 and C59.
* C251 (`Edit/Adopt.lean`): an inserted line becomes the parent of exactly the deeper lines behind it that no less deep line separates from it; uses `put_setup` of C250 and the rule of C21.
* C252 (`Edit/Prune.lean`): the nearest less deep line of a remaining line remains, because families are closed under children, and the lines between only get fewer.
* C253 (`Edit/Reshape.lean`): the rule of C21 mentions the indentation and comments only; used for `replace_lines` and commit by way of C42.
* C254 (`Edit/Prefix.lean`): the rule of C21 for a line mentions only this line and the lines before it.
* C255 (`Edit/Last.lean`): the step follows from C250 and C22; the history by induction over the texts.
* C256 (`Edit/Written.lean`): trees of lines are an inductive type of their own; `render` writes them with any increasing indentation, `Reads` says that a line with its children is such a tree. Proved by mutual recursion over the trees; the children of a first line are computed with C21 and C22.
* C257 (`Query/Walk.lean`): both sides are increasing lists (a family is contiguous, C34) with the same members (C22, C33), so they are equal.
* C258 (`Edit/Cut.lean`), C259 (`Edit/Grow.lean`): `Cut` and `Grow` say on trees alone, with no configuration, what is taken out or added; the lines of the family of an object are those of its tree, so C37 and C40 give the lines of the changed trees, which are read back with C256.
* C260 (`Edit/Before.lean`): the trees of C256 with a leaf put in front of one of them (`Spec.Front`), at any depth; the lines are the old ones with one more line (`front_lines`), which is what C58 says of insert_before; then as in C258.
* C261 (`IP/Repr.lean`): repr is the text of C06 or C87 in brackets, or for IPv4-mapped addresses a text of C89 (`mapped_text`), which the constructor reads back.
* C262 (`Edit/ListOps.lean`): every operation is compared with `objs[k]` before and after it, for all positions.
* C263 (`IP/Offset6.lean`): `network_offset` of IPv6 objects, with the same theorem as for IPv4; both gaps of the code are shown by `_fails`.
* C264 (`Edit/Subtree.lean`): `Spec.Place` says where a subtree stands in a written forest; its family is an interval of line numbers (`fam_node`), so `ioscfg` is the written subtree.
* C265 (`Edit/Compare.lean`): comparisons of lists of lines and texts against `Spec.ListBefore` (first difference, then lengths) and `Spec.TextBefore`.
* C266-C268 (`Intf/Repr.lean`, `Asa/Hostname.lean`, `Cisco/Reset.lean`): `repr()` of interfaces, ASA host names, port channels and reset commands, each from the lemmas of their directory.
* C269 (`Cisco/Route6.lean`): the attributes of static IPv6 routes. The expression for the routes is compiled and compared with a tree in the kernel; that its first match reads each part is proved part by part, for every text of an address (`Text6`), as in C87.
* C270 (`Nxos/Route6.lean`): the attributes of static IPv6 routes of NXOS; the expression is the one of C269 up to the tag.
* C269, C270 (`Nxos/Route6Vrf.lean`): that `network` is empty for every route in a VRF is proved from the language of the expression: the optional `vrf\s+` is read at most once, and neither the keyword nor the name holds the slash that must follow.
* C271 (`Edit/Reset.lean`): `reset()` is modelled with the rule by which Python binds arguments; the rule is proved to refuse exactly the calls of `Spec.Refused`, and the call of `reset()` is one. What the call would do without the keyword follows from the lemmas of C39.
* C272 (`Misc/Braces.lean`): `safe_escape_curly_braces` against a specification of `str.format()` without arguments, by induction on the text.
* C273 (`Misc/DiffArgs.lean`): the arguments of `Diff()` up to the calls of hier_config, with `str.splitlines()`; by cases, and by induction on the lines of a list.
* C39 (`Edit/InsertArgs.lean`): `insert_before` and `insert_after` of a line object with a line object as argument.
* C274 (`Range/AttrSort.lean`): `attribute_sort` for lists of numbers and texts: a stable sort by number, the errors, and the fact that it sorts nothing when no list is given.
* C275 (`IP/Tunnels.lean`): `sixtofour` and `teredo`: what the address would give, and that the object asks its network, which raises.

Where the code violates a property, the negation is proved with a concrete
witness, and the strongest true restriction found is proved as `..._partial`.

## Trusted base

* Lean's kernel.  The theorems depend at most on the axioms `propext`,
  `Classical.choice` and `Quot.sound`; `AXIOMS.md` has the list for every theorem.
  No axiom is added, there is no `sorry`, and neither `native_decide` nor `bv_decide`
  is used.  `decide +kernel` is used for concrete runs and finite tables; it is
  checked by the kernel.
* The reading of the Python source in the model definitions, including the
  decisions above, and the behaviour of Python's `str`, `sorted`, `set`, `ipaddress`
  and file reading as written there.
* Not modelled at all: the functions listed as not modelled in `MODELLED.md`, in
  particular DNS lookups, logging, the deprecated classes `Diff`/`DiffObject`, and
  most of the vendor-specific line classes in `models_*.py`.
