{"id": "C01", "title": "Version order is a total preorder", "statement": "For version strings a, b, c: exactly one of Version(a) < Version(b), Version(a) == Version(b), Version(a) > Version(b) holds; <= and >= are the unions with equality; < is transitive and irreflexive; != is the negation of ==. Equality holds exactly when the dot-separated fields, read as integers (unreadable fields as -1), agree.", "quantifier": "all strings", "why_tests_cant": "Ordering laws quantify over all pairs and triples of strings.", "anchors": ["multibag/constants.py:Version", "multibag/constants.py:_2int"]}
{"id": "C02", "title": "A version compares the same whether the other side is a string or a tuple", "statement": "Comparing a Version with a tuple of integers gives the same answer as comparing it with the dotted string of that tuple.", "quantifier": "all version strings and all integer tuples", "why_tests_cant": "A representation mismatch shows only for some argument types; the existing tests only use matching ones.", "anchors": ["multibag/constants.py:Version"]}
{"id": "C03", "title": "member-bags line round trip", "statement": "Formatting a member record (name, URI, comment) as a member-bags.tsv line and parsing the line again returns the same record.", "quantifier": "all records whose name, URI and comment are clean text (no tab, line break, or outer whitespace)", "why_tests_cant": "The record fields are arbitrary strings.", "anchors": ["multibag/access/multibag.py:MemberInfo.format", "multibag/access/multibag.py:MemberInfo.parse_line_03"]}
{"id": "C04", "title": "member-bags line parsing is total and specified", "statement": "Parsing a member-bags.tsv line raises an error exactly when its first field is empty, and otherwise the record contains the first field as name, the trailing #-comment as comment, the next field as URI and the remaining fields in order as extra information.", "quantifier": "all strings", "why_tests_cant": "All possible lines, including malformed ones.", "anchors": ["multibag/access/multibag.py:MemberInfo.parse_line_03"]}
{"id": "C05", "title": "Every member record that can be read can be written back", "statement": "A member record obtained by reading a member-bags.tsv line, including one with extra information fields, can be formatted again, and the formatted line reads as the same record.", "quantifier": "all lines", "why_tests_cant": "Needs all numbers of extra fields.", "anchors": ["multibag/access/multibag.py:MemberInfo.format"]}
{"id": "C06", "title": "Member list persists exactly", "statement": "Saving the member list and opening the bag anew yields the same member records in the same order.", "quantifier": "all lists of clean member records, the first name not beginning with a byte order mark (U+FEFF), which is skipped in reading", "why_tests_cant": "List length and contents are unbounded.", "anchors": ["multibag/access/multibag.py:HeadBagUpdateMixin.save_member_bags", "multibag/access/multibag.py:HeadBagReadMixin.iter_member_bags"]}
{"id": "C07", "title": "File lookup persists exactly", "statement": "Saving the file lookup and opening the bag anew yields the same mapping from file paths to bag names, in the same order.", "quantifier": "all mappings with clean paths and bag names, the first path not beginning with a byte order mark (U+FEFF), which is skipped in reading", "why_tests_cant": "Mapping is unbounded.", "anchors": ["multibag/access/multibag.py:HeadBagUpdateMixin.save_file_lookup", "multibag/access/multibag.py:HeadBagReadMixin.iter_file_lookup"]}
{"id": "C08", "title": "Deleted list persists exactly", "statement": "Saving the deleted list and opening the bag anew yields the same set of paths.", "quantifier": "all sets of clean paths, the first path not beginning with a byte order mark (U+FEFF), which is skipped in reading", "why_tests_cant": "Set is unbounded.", "anchors": ["multibag/access/multibag.py:HeadBagUpdateMixin.save_deleted", "multibag/access/multibag.py:HeadBagReadMixin.iter_deleted"]}
{"id": "C09", "title": "Repeated lookup lines: the last one wins", "statement": "When file-lookup.tsv lists a path several times, lookup_file returns the bag of the last line, and returns nothing exactly for the paths on no line.", "quantifier": "all file-lookup files", "why_tests_cant": "All files with all repetition patterns.", "anchors": ["multibag/access/multibag.py:HeadBagReadMixin.lookup_file"]}
{"id": "C10", "title": "Malformed tag-file lines are never silently dropped", "statement": "Reading member-bags.tsv or file-lookup.tsv either yields one record for every non-blank line, in order, or raises an error; it raises exactly when some non-blank line is malformed.", "quantifier": "all file contents", "why_tests_cant": "All contents, all positions of the bad line.", "anchors": ["multibag/access/multibag.py:HeadBagReadMixin.iter_member_bags", "multibag/access/multibag.py:HeadBagReadMixin.iter_file_lookup"]}
{"id": "C11", "title": "Old (0.2) tag-file formats are read correctly", "statement": "Lines in the space-separated formats of profile 0.2 (group-members.txt, group-directory.txt) parse to the name/URI and the path/bag that were written: the first two words count, further ones are ignored. A head bag of a profile version below 0.3 reports the members and file locations listed in these files.", "quantifier": "all clean names, URIs, and paths, without blanks, with any number of separating spaces and further words; all files made of such lines", "why_tests_cant": "Unbounded strings and separators.", "anchors": ["multibag/access/multibag.py:MemberInfo.parse_line_02", "multibag/access/multibag.py:parse_group_directory_line"]}
{"id": "C12", "title": "Adding a member bag", "statement": "After add_member_bag(name) the bag is listed last. With override, all earlier entries of that name are gone and the other entries keep their order; without override the existing entries are all kept, in order, before the new one.", "quantifier": "all prior member lists and names", "why_tests_cant": "Depends on arbitrary prior state.", "anchors": ["multibag/access/multibag.py:HeadBagUpdateMixin.add_member_bag"]}
{"id": "C13", "title": "Removing a member bag removes it everywhere", "statement": "After remove_member_bag(name), on a bag in any state including a freshly opened one, the bag is not in the member list, no file is looked up to it, and other members and lookups are unchanged. After any history of calls the member list is the saved one with each call having had its effect.", "quantifier": "all bag states, cached or not", "why_tests_cant": "Depends on which caches are loaded, i.e. on the call history.", "anchors": ["multibag/access/multibag.py:HeadBagUpdateMixin.remove_member_bag"]}
{"id": "C14", "title": "lookup_file reflects the last update", "statement": "After any sequence of add_file_lookup, remove_file_lookup and clear_file_lookup calls, lookup_file(p) is the bag of the last call affecting p, or the saved value if no call affected it.", "quantifier": "all operation sequences", "why_tests_cant": "Induction over histories.", "anchors": ["multibag/access/multibag.py:HeadBagUpdateMixin.add_file_lookup", "multibag/access/multibag.py:HeadBagUpdateMixin.remove_file_lookup"]}
{"id": "C15", "title": "Deleted set reflects all updates", "statement": "After any sequence of set_deleted and unset_deleted calls on an opened bag, deleted_paths is the saved set modified by those calls, and save_deleted writes that set.", "quantifier": "all saved sets and operation sequences", "why_tests_cant": "Induction over histories; depends on whether the saved set was loaded before.", "anchors": ["multibag/access/multibag.py:HeadBagUpdateMixin.set_deleted", "multibag/access/multibag.py:HeadBagUpdateMixin.unset_deleted", "multibag/access/multibag.py:HeadBagUpdateMixin.save_deleted"]}
{"id": "C16", "title": "Saved head-bag state is durable", "statement": "After any history of head-bag updates followed by saving members, lookup and deletions, opening the bag anew observes exactly the state that the updating object reports.", "quantifier": "all operation sequences", "why_tests_cant": "Induction over histories of mixed operations.", "anchors": ["multibag/access/multibag.py:HeadBagUpdateMixin"]}
{"id": "C17", "title": "Updates touch disk only on save", "statement": "add/remove/set/unset operations on members, lookups and deletions never change any file in the bag; only the save operations do, and each changes only its own tag file (and creates the tag directory). clear_file_lookup is the one update that removes its own tag file at once.", "quantifier": "all operation sequences and bag contents", "why_tests_cant": "Frame condition over every file and every history.", "anchors": ["multibag/access/multibag.py:HeadBagUpdateMixin"]}
{"id": "C18", "title": "update_for_member registers exactly the member's files", "statement": "update_for_member(bag) without filters maps every file below data/ of the member bag, and nothing else, to that bag, lists the bag last among the members, and (apart from dropping that bag's old entries) leaves the lookups of other paths unchanged.", "quantifier": "all member bag trees and prior states", "why_tests_cant": "All trees.", "anchors": ["multibag/access/multibag.py:HeadBagUpdateMixin.update_for_member"]}
{"id": "C19", "title": "update_for_member honours include and exclude", "statement": "With include given, only included files (or files below included directories) are registered; with exclude given, exactly the files not excluded and not below an excluded directory are registered.", "quantifier": "all trees, include and exclude arguments (list or single string)", "why_tests_cant": "All trees and filters.", "anchors": ["multibag/access/multibag.py:HeadBagUpdateMixin.update_for_member"]}
{"id": "C20", "title": "update_info is idempotent and conservative", "statement": "Calling update_info twice gives the same bag-info as calling it once; it sets the required multibag fields, appends the about-text at most once, and preserves every unrelated field.", "quantifier": "all bag-info contents and arguments", "why_tests_cant": "All metadata maps.", "anchors": ["multibag/access/multibag.py:HeadBagUpdateMixin.update_info"]}
{"id": "C21", "title": "Reader and writer agree on the tag directory", "statement": "Whatever the Multibag-Tag-Directory metadata (absent, single or repeated), the directory in which tag files are written is the one in which they are looked for.", "quantifier": "all bag-info contents", "why_tests_cant": "All metadata values incl. repeated ones.", "anchors": ["multibag/access/multibag.py:HeadBagReadMixin.multibag_tag_dir", "multibag/access/multibag.py:HeadBagReadMixin.iter_member_bags"]}
{"id": "C22", "title": "Moving the tag directory keeps its contents", "statement": "set_multibag_tag_dir(new) leaves member list, file lookup and deleted list readable and unchanged.", "quantifier": "all bag contents and directory names", "why_tests_cant": "All trees.", "anchors": ["multibag/access/multibag.py:HeadBagUpdateMixin.set_multibag_tag_dir"]}
{"id": "C23", "title": "files_in_member is the inverse of lookup_file", "statement": "files_in_member(b) contains path p exactly when lookup_file(p) is b, without repetition and in lookup order.", "quantifier": "all lookups", "why_tests_cant": "All mappings.", "anchors": ["multibag/access/multibag.py:HeadBagReadMixin.files_in_member"]}
{"id": "C24", "title": "Splitting places every file in exactly one output bag", "statement": "In the plan produced by a splitter, every file of the source other than BagIt's own files at its root, and every empty directory, is listed exactly once over all manifests, and nothing else is listed.", "quantifier": "all source trees and size limits, for the well-packed and the neighborly splitter", "why_tests_cant": "Unbounded trees; loop invariants.", "anchors": ["multibag/split.py:Splitter.plan", "multibag/split.py:WellPackedSplitter._apply_algorithm", "multibag/split.py:NeighborlySplitter._apply_algorithm"]}
{"id": "C25", "title": "Well-packed: no output bag exceeds the maximum", "statement": "Every manifest's total size is at most maxsize unless it holds a single file that is itself larger than maxsize.", "quantifier": "all file size distributions and limits", "why_tests_cant": "All distributions.", "anchors": ["multibag/split.py:WellPackedSplitter"]}
{"id": "C26", "title": "Neighborly: no output bag exceeds the maximum", "statement": "Every manifest's total size is at most maxsize unless it holds a single file larger than maxsize.", "quantifier": "all file size distributions and limits", "why_tests_cant": "All distributions.", "anchors": ["multibag/split.py:NeighborlySplitter"]}
{"id": "C27", "title": "Split planning terminates", "statement": "Both splitters stop on every input; no manifest is empty, and there are at most as many manifests as files (one more if there are empty directories).", "quantifier": "all inputs, including zero-size files, no files and non-positive limits", "why_tests_cant": "Termination.", "anchors": ["multibag/split.py:WellPackedSplitter", "multibag/split.py:NeighborlySplitter"]}
{"id": "C28", "title": "Well-packed bags are packed greedily", "statement": "When a manifest is closed, no file left over for later manifests would still have fitted; hence any two consecutive manifests together exceed the maximum size.", "quantifier": "all inputs", "why_tests_cant": "All distributions.", "anchors": ["multibag/split.py:WellPackedSplitter"]}
{"id": "C29", "title": "The plan does not depend on directory listing order", "statement": "For every order in which the file system lists the same files and directories, the plan has the same bags with the same names and total sizes, and each holds the same files.", "quantifier": "all permutations of the source listing", "why_tests_cant": "All permutations.", "anchors": ["multibag/split.py:WellPackedSplitter"]}
{"id": "C30", "title": "Files named for the head bag end up in the head bag", "statement": "Every existing path in the forhead argument, given in any usual notation, is in the last manifest.", "quantifier": "all forhead lists and trees", "why_tests_cant": "All inputs.", "anchors": ["multibag/split.py:Splitter.plan", "multibag/split.py:WellPackedSplitter._apply_algorithm"]}
{"id": "C31", "title": "complete_plan makes a plan complete", "statement": "After complete_plan, is_complete holds, missing is empty, and files already assigned keep their assignment.", "quantifier": "all partial plans", "why_tests_cant": "All plans.", "anchors": ["multibag/split.py:SplitPlan.complete_plan"]}
{"id": "C32", "title": "Every payload file is required", "statement": "Every file below data/ of the source bag counts as required for a complete plan, whatever its name.", "quantifier": "all source trees", "why_tests_cant": "All file names, including names resembling BagIt tag files.", "anchors": ["multibag/access/extended.py:nonstandard", "multibag/split.py:SplitPlan.required"]}
{"id": "C33", "title": "Output bag names", "statement": "After naming, the manifests have the names of the supply in order (or in reverse order), the default supply never repeats a name, nothing else of the plan changes, and a supply that runs out is reported by the documented error.", "quantifier": "all plans and name supplies", "why_tests_cant": "All lengths.", "anchors": ["multibag/split.py:SplitPlan.name_output_bags", "multibag/split.py:SimpleNamer"]}
{"id": "C34", "title": "find_destination agrees with the plan", "statement": "find_destination(p) returns a manifest that contains p, and returns nothing exactly when no manifest contains p.", "quantifier": "all plans and paths", "why_tests_cant": "All plans.", "anchors": ["multibag/split.py:SplitPlan.find_destination"]}
{"id": "C35", "title": "Splitters reject impossible limits", "statement": "A splitter configuration with target size above the maximum is rejected or harmless: the plan still respects the maximum.", "quantifier": "all numeric limits", "why_tests_cant": "All limits.", "anchors": ["multibag/split.py:WellPackedSplitter.__init__", "multibag/split.py:NeighborlySplitter"]}
{"id": "C36", "title": "Output bags contain exactly their planned files, byte for byte", "statement": "Each output bag holds exactly the existing files of its manifest with the source's contents, plus the BagIt and (head only) multibag tag files.", "quantifier": "all sources and complete plans", "why_tests_cant": "All trees.", "anchors": ["multibag/split.py:SplitPlan.apply_iter"]}
{"id": "C37", "title": "Output manifests list exactly the copied files with their checksums", "statement": "Each output bag's payload manifest lists exactly its payload files and its tag manifest the tag files copied from the source, with the checksum of the contents.", "quantifier": "all sources, plans and hash functions", "why_tests_cant": "All trees.", "anchors": ["multibag/split.py:SplitPlan.apply_iter"]}
{"id": "C38", "title": "Payload-Oxum of output bags is correct", "statement": "The Payload-Oxum written to an output bag equals total bytes and number of its payload files.", "quantifier": "all sources and plans", "why_tests_cant": "All trees.", "anchors": ["multibag/split.py:SplitPlan.apply_iter", "multibag/access/extended.py:calc_oxum"]}
{"id": "C39", "title": "The head bag indexes the split", "statement": "The last output bag's member-bags.tsv lists every output bag once in order with the head last, and its file-lookup.tsv maps every copied file to the bag that contains it.", "quantifier": "all sources and plans", "why_tests_cant": "All plans.", "anchors": ["multibag/split.py:SplitPlan.apply_iter"]}
{"id": "C40", "title": "Split metadata", "statement": "Every output bag-info carries the multibag version, drops the source's multibag fields, renames source size and identifier fields, and only the head bag is marked with a head version.", "quantifier": "all source metadata", "why_tests_cant": "All metadata maps.", "anchors": ["multibag/split.py:SplitPlan.apply_iter"]}
{"id": "C41", "title": "Splitting leaves the source bag unmodified", "statement": "After a split every file of the source bag has the contents it had before.", "quantifier": "all sources and plans, hard-linking or copying", "why_tests_cant": "Aliasing between output and source files.", "anchors": ["multibag/split.py:SplitPlan.apply_iter", "multibag/access/extended.py:replicate"]}
{"id": "C42", "title": "The source metadata travels with the head", "statement": "The head bag's aggregation-info.txt is the source's bag-info.txt.", "quantifier": "all sources", "why_tests_cant": "All metadata.", "anchors": ["multibag/split.py:SplitPlan.apply_iter"]}
{"id": "C43", "title": "Re-splitting a head bag keeps the other members", "statement": "Splitting a bag that is itself a head bag lists the names of the old member list (without the split bags) in front of the new members, without their URIs and comments, and keeps the lookups of files not moved. A member list or file lookup that is missing counts as empty.", "quantifier": "all prior member lists and lookups", "why_tests_cant": "All prior states.", "anchors": ["multibag/split.py:SplitPlan.apply_iter"]}
{"id": "C44", "title": "Restore equals forward overlay", "statement": "After restore, the file at each path is the one from the last member bag in member-bag order that provides it (deleted paths excepted).", "quantifier": "all member sequences and trees", "why_tests_cant": "All numbers of members and overlaps; the code overlays in reverse.", "anchors": ["multibag/restore.py:BagRestorer.restore"]}
{"id": "C45", "title": "Deleted files are absent after restore", "statement": "No path listed as deleted, nor anything below it, exists in the restored bag.", "quantifier": "all deleted lists and member trees", "why_tests_cant": "All trees.", "anchors": ["multibag/restore.py:BagRestorer._restore_from"]}
{"id": "C46", "title": "Restoring a member never overwrites", "statement": "Restoring a member without overwrite leaves every existing destination file unchanged and adds exactly the member's files that were absent and not skipped.", "quantifier": "all destination and member trees", "why_tests_cant": "Frame condition.", "anchors": ["multibag/restore.py:BagRestorer._restore_from"]}
{"id": "C47", "title": "Restored manifests match restored files", "statement": "After restore, for each payload path the manifest value is the one of the bag the file was taken from, and no path lacks one that had one.", "quantifier": "all member manifests, with any sets of algorithms", "why_tests_cant": "All manifests.", "anchors": ["multibag/restore.py:BagRestorer._update_manifests"]}
{"id": "C48", "title": "Restored fetch list", "statement": "After restore the fetch list contains, per path, the entry from the last member bag listing it and no entry for deleted paths.", "quantifier": "all member fetch files", "why_tests_cant": "All fetch files.", "anchors": ["multibag/restore.py:BagRestorer.restore_fetch"]}
{"id": "C49", "title": "Restored bag-info", "statement": "After restore bag-info is the head's aggregation info without any multibag fields.", "quantifier": "all metadata", "why_tests_cant": "All metadata.", "anchors": ["multibag/restore.py:BagRestorer.restore"]}
{"id": "C50", "title": "Restored Payload-Oxum", "statement": "After restore Payload-Oxum counts exactly the restored payload files and bytes.", "quantifier": "all trees", "why_tests_cant": "All trees.", "anchors": ["multibag/restore.py:BagRestorer.restore"]}
{"id": "C51", "title": "Split then restore is the identity", "statement": "Splitting any bag by any complete plan and restoring from the head bag reproduces every source file with identical content.", "quantifier": "all bags and complete plans", "why_tests_cant": "Composition of two unbounded processes.", "anchors": ["multibag/split.py:SplitPlan.apply_iter", "multibag/restore.py:BagRestorer.restore"]}
{"id": "C52", "title": "Restore supports any tag directory", "statement": "Restore succeeds for a head bag whose tag directory is not called multibag.", "quantifier": "all tag directory names", "why_tests_cant": "All names.", "anchors": ["multibag/restore.py:BagRestorer.restore"]}
{"id": "C53", "title": "An interrupted restore can be rerun", "statement": "If a restore stops after any number of steps, running it again yields the same files and manifests as an uninterrupted one.", "quantifier": "all crash points", "why_tests_cant": "All crash points.", "anchors": ["multibag/restore.py:BagRestorer"]}
{"id": "C54", "title": "Member list after amendment", "statement": "The amended head lists the old members in order, with the old head included, then the amending bags in the order added, with the new head last, each once.", "quantifier": "all old member lists and amending sequences", "why_tests_cant": "Histories.", "anchors": ["multibag/amend.py:Amender"]}
{"id": "C55", "title": "Lookup after amendment", "statement": "After amendment each path is looked up to the last added bag providing it, otherwise to its old bag, or to none if that old bag was itself added again and no longer provides it.", "quantifier": "all old lookups and amending sequences", "why_tests_cant": "Histories.", "anchors": ["multibag/amend.py:Amender"]}
{"id": "C56", "title": "Deprecates chain", "statement": "The amended head deprecates the old head version in addition to everything the old head deprecated.", "quantifier": "all old metadata", "why_tests_cant": "All metadata, repeated fields.", "anchors": ["multibag/amend.py:Amender._init_multibag_info"]}
{"id": "C57", "title": "Amendment carries deletions over", "statement": "Paths deleted in the old head remain deleted in the new head unless provided by an amending bag.", "quantifier": "all old deleted lists", "why_tests_cant": "All lists.", "anchors": ["multibag/amend.py:Amender"]}
{"id": "C58", "title": "make_single_multibag", "statement": "The converted bag is a head bag whose only member is itself and whose lookup maps exactly its payload files (those below data/) to itself.", "quantifier": "all bags", "why_tests_cant": "All trees.", "anchors": ["multibag/amend.py:SingleMultibagMaker"]}
{"id": "C59", "title": "Keeping the profile version keeps the result readable", "statement": "When the old profile version is kept, the amended head's member list and lookup can be read back.", "quantifier": "all profile versions", "why_tests_cant": "All versions.", "anchors": ["multibag/amend.py:Amender"]}
{"id": "C60", "title": "Validation results are consistent", "statement": "In any sequence of recorded checks, the requested passed and failed counts partition the applied checks by type, and ok() holds exactly when no requested check failed.", "quantifier": "all sequences of checks and type masks", "why_tests_cant": "All sequences.", "anchors": ["multibag/validate/base.py:ValidationResults"]}
{"id": "C61", "title": "ensure_valid raises exactly on invalid bags", "statement": "ensure_valid raises an error exactly when validation reports a failed check of a requested type.", "quantifier": "all results", "why_tests_cant": "All outcomes.", "anchors": ["multibag/validate/base.py:Validator.ensure_valid"]}
{"id": "C62", "title": "Member validation reports what it finds", "statement": "The member validator's result contains the checks it made, and a bag with an illegal member property is reported as failing.", "quantifier": "all bags", "why_tests_cant": "All bags.", "anchors": ["multibag/validate/member.py:MemberBagValidator"]}
{"id": "C63", "title": "Head validation of a non-head bag reports rather than crashes", "statement": "Validating any bag as a head bag returns results, reporting failure for non-head bags, and never raises.", "quantifier": "all bags", "why_tests_cant": "All bags.", "anchors": ["multibag/validate/headbag.py:HeadBagValidator"]}
{"id": "C64", "title": "Head validation checks URLs", "statement": "A member URI is accepted exactly when it is an absolute URL.", "quantifier": "all URIs", "why_tests_cant": "All strings.", "anchors": ["multibag/validate/headbag.py"]}
{"id": "C65", "title": "Head validation checks the profile version", "statement": "A head bag whose Multibag-Version is not a known version is reported.", "quantifier": "all version values", "why_tests_cant": "All strings.", "anchors": ["multibag/validate/headbag.py"]}
{"id": "C66", "title": "Member-bag and lookup consistency checks are sound and complete", "statement": "The head validator passes its member-bags and file-lookup checks exactly when every looked-up bag is listed as a member, every line is well formed, and the head is listed last. The checks of the member list name the lines that fail them, which are too long, have an odd URI or list a bag again: all of up to four, the first three of more.", "quantifier": "all tag file contents", "why_tests_cant": "All contents.", "anchors": ["multibag/validate/headbag.py"]}
{"id": "C67", "title": "Path operations stay inside the bag", "statement": "Operations given a relative path never touch anything outside the bag directory.", "quantifier": "all path strings", "why_tests_cant": "All strings, incl. dot-dot and sibling names.", "anchors": ["multibag/access/extended.py:_canon_path"]}
{"id": "C68", "title": "Dangerous manifest paths are rejected", "statement": "A manifest or fetch entry whose path leads outside the bag is always rejected, and one leading inside never is.", "quantifier": "all path strings", "why_tests_cant": "All strings.", "anchors": ["multibag/access/bagit.py:_path_is_dangerous"]}
{"id": "C69", "title": "Relative bag paths", "statement": "The location object's relpath, given a relative path with or without leading slashes, names exactly the entry with that path below the location; different relative paths give different names; the empty path gives the location itself.", "quantifier": "all locations and all relative paths without empty, `.` and `..` components", "why_tests_cant": "All paths.", "anchors": ["multibag/access/bagit.py:Path"]}
{"id": "C70", "title": "Manifest loading", "statement": "Loading manifests assigns to every listed path exactly the listed value per algorithm, rejects conflicting duplicates, and rejects identical duplicates exactly from BagIt 1.0 on.", "quantifier": "all manifest contents", "why_tests_cant": "All contents.", "anchors": ["multibag/access/bagit.py:ReadOnlyBag._load_manifests"]}
{"id": "C71", "title": "Checksum validation is exact", "statement": "Entry validation passes exactly when every manifest value equals (case-insensitively) the checksum of the file for all algorithms.", "quantifier": "all bags and manifests", "why_tests_cant": "All bags.", "anchors": ["multibag/access/bagit.py:ReadOnlyBag._validate_entries"]}
{"id": "C72", "title": "Oxum validation is exact", "statement": "Oxum validation passes exactly when byte total and file count equal the recorded ones.", "quantifier": "all bags", "why_tests_cant": "All bags.", "anchors": ["multibag/access/bagit.py:ReadOnlyBag._validate_oxum"]}
{"id": "C73", "title": "BagIt version dispatch", "statement": "Opening a bag reads package-info.txt exactly for versions 0.93 to 0.95, bag-info.txt for 0.96 up to below 2.0, and rejects all others.", "quantifier": "all versions", "why_tests_cant": "All versions.", "anchors": ["multibag/access/bagit.py:ReadOnlyBag._open"]}
{"id": "C74", "title": "Read-only bags are read-only", "statement": "No operation on a read-only bag changes the file system; save always fails.", "quantifier": "all operations", "why_tests_cant": "All histories.", "anchors": ["multibag/access/bagit.py:ReadOnlyBag.save"]}
{"id": "C75", "title": "fetch.txt reading", "statement": "Reading fetch.txt yields URL, length and path of each line in order; paths may contain spaces; a line with fewer than three fields is an error.", "quantifier": "all fetch files", "why_tests_cant": "All contents.", "anchors": ["multibag/access/bagit.py:ReadOnlyBag.fetch_entries"]}
{"id": "C76", "title": "Test data generator sizes", "statement": "The uniform size iterator yields sizes that add up to exactly the requested total, each differing from the mean as promised; generated files have exactly the requested size; no request for a dataset fails, and one for no bytes or no files creates nothing.", "quantifier": "all totals and counts, for files of less than 2^98 bytes; the float quotient of total and count computed exactly, or with any rounding", "why_tests_cant": "All numbers.", "anchors": ["multibag/testing/mkdata.py:UniformSizeIterator"]}
{"id": "C77", "title": "Repeated metadata labels resolve to the last value", "statement": "When a label such as Multibag-Head-Version, Multibag-Version or Multibag-Tag-Directory occurs several times in bag-info.txt, the head version, profile version and tag directory reported by the head bag are the last values given; without any value, the head version is an error and the other two have their defaults. Label-value lines written into a bag-info.txt by a split are read back as written.", "quantifier": "all bag-info.txt files with any number of occurrences of each label, in any order", "why_tests_cant": "tests use at most one or two occurrences of a label in fixed files", "anchors": ["multibag/access/multibag.py:HeadBagReadMixin.head_version", "multibag/access/multibag.py:HeadBagReadMixin.profile_version", "multibag/access/multibag.py:multibag_tag_dir", "multibag/split.py:apply_iter"]}
{"id": "C78", "title": "An amendment touches only multibag metadata", "statement": "Amending changes nothing in the new head bag besides the member list, the lookup file, the tag directory holding them, bag-info.txt and the tag manifests; in particular its payload and its deletions stay.", "quantifier": "all old bags, amending bags, new head bags and paths", "why_tests_cant": "It is about every path of every bag directory; a test inspects a few.", "anchors": ["multibag/amend.py:Amender.init_from_amendee", "multibag/amend.py:Amender.add_amending_bag", "multibag/amend.py:Amender.finalize"]}
{"id": "C79", "title": "The verdict of head validation has stated conditions", "statement": "Head bag validation restricted to errors finds a bag valid exactly when it meets a fixed list of conditions on its metadata, its member list, its lookup file and its aggregation-info file; with the default (errors and warnings) exactly when it also names one head version, deprecates neither itself nor its version, and lists no member and no path twice; with recommendations included exactly when moreover the four recommended metadata fields are not empty and every payload file whose name does not begin with a dot or an underscore has a line in the lookup list.", "quantifier": "all bags: metadata, tag file contents and payload listings", "why_tests_cant": "It is an equivalence over all bag contents; tests only try some contents.", "anchors": ["multibag/validate/headbag.py:HeadBagValidator.validate", "multibag/validate/base.py:Validator.is_valid", "multibag/validate/base.py:ValidationResults.ok"]}
{"id": "C80", "title": "When a bag validates", "statement": "Validating an opened bag succeeds exactly when: it has a data directory and a payload manifest; bagit.txt has no byte order mark; every fetch.txt line is well formed, safe, names a URL with scheme and host and a payload file that the manifests list; Payload-Oxum, if given, is the number of bytes and files in data; the payload files and the payload files listed in the manifests are the same; every listed file has the recorded checksum.", "quantifier": "all bags: trees, manifests, metadata and fetch files", "why_tests_cant": "It is an equivalence over all bag contents.", "anchors": ["multibag/access/bagit.py:ReadOnlyBag", "multibag/access/bagit.py:ReadOnlyBag._validate_oxum", "multibag/access/bagit.py:ReadOnlyBag._validate_entries", "multibag/validate/base.py"]}
{"id": "C81", "title": "Splitting a valid bag gives valid bags", "statement": "Every bag that a split makes of a valid bag can be opened and is itself a valid bag.", "quantifier": "all valid bags, all plans, all options and places for the output", "why_tests_cant": "It joins planning, copying, manifest writing, metadata writing and reading for all contents.", "anchors": ["multibag/split.py:SplitPlan.apply_iter", "multibag/access/bagit.py:ReadOnlyBag"]}
{"id": "C82", "title": "What copying does to metadata", "statement": "Labels and values that are read from a metadata file and written to another are read from there with the same labels in the same order; values of one line are unchanged, values of several lines lose their first line break with the whitespace before it.", "quantifier": "all metadata files that can be read", "why_tests_cant": "All texts.", "anchors": ["multibag/split.py:SplitPlan.apply_iter", "multibag/access/extended.py:ExtendedReadMixin._load_bag_info", "multibag/split.py:_write_item"]}
{"id": "C83", "title": "Restoring succeeds", "statement": "Restoring an aggregation raises no exception if its member bags can be found and opened, have payload and tag manifests for the same checksum algorithms, do not use a path as a file in one bag and as a directory in another, and the multibag tag files are in their usual directory; neither the choice of options nor restoring in place or to a new directory makes a difference.", "quantifier": "all member bags of this kind, lists of deleted files that name no BagIt tag file, options and destinations", "why_tests_cant": "All aggregations; tests restore a few.", "anchors": ["multibag/restore.py:BagRestorer.restore", "multibag/restore.py:BagRestorer._restore_from"]}
{"id": "C84", "title": "Restored bags are valid", "statement": "Restoring an aggregation of valid member bags gives a bag that can be opened and passes validation: every payload file is listed, every listed file is there, all checksums and Payload-Oxum fit.", "quantifier": "all valid member bags that fit together, lists of deleted files, destinations", "why_tests_cant": "All contents, numbers of bags and overlaps between them.", "anchors": ["multibag/restore.py:BagRestorer.restore", "multibag/access/bagit.py:ReadOnlyBag"]}
{"id": "C85", "title": "Splitting and restoring gives a valid bag back", "statement": "A valid bag that is split, by either method with default names or by any complete plan, and restored from the bags this made, is restored without an exception to a bag that passes validation and has the same files with the same contents and the same directories, apart from the bag metadata, manifests and multibag tag files.", "quantifier": "all valid bags of this kind, splitters, plans, numbers of bags and places where the bags are found", "why_tests_cant": "All bags and all ways of splitting them.", "anchors": ["multibag/split.py:SplitPlan.apply_iter", "multibag/split.py:Splitter.plan", "multibag/restore.py:BagRestorer.restore", "multibag/access/bagit.py:ReadOnlyBag"]}
{"id": "C86", "title": "The head bag of a split passes head bag validation", "statement": "Whenever a valid bag is split, the head bag among the bags made passes the package's own validation of head bags with no error and no warning, wherever it is put.", "quantifier": "all valid bags, plans, names, versions and places", "why_tests_cant": "All bags, plans and metadata; the tests validate a few fixed bags.", "anchors": ["multibag/split.py:SplitPlan.apply_iter", "multibag/validate/headbag.py:HeadBagValidator.validate"]}
{"id": "C87", "title": "Member bags of a split pass member bag validation", "statement": "Whenever a valid bag is split, each bag made other than the head bag passes the package's own validation of member bags with no error, and with no warning.", "quantifier": "all valid bags, plans, names and places", "why_tests_cant": "All bags, plans and metadata.", "anchors": ["multibag/split.py:SplitPlan.apply_iter", "multibag/validate/member.py:MemberBagValidator.validate"]}
{"id": "C88", "title": "A serialized bag opens like the directory it was made from", "statement": "Opening a zip or tar archive opens the least deep directory in it that has a bagit.txt, under that directory's own name, and fails with BagError exactly if there is none. So a bag in a directory at the top of an archive opens with the same name, version, metadata, manifest entries and files as from the directory itself, even if its payload contains other bags.", "quantifier": "all archives, all directory trees, all bags, all names and depths of other directories in the archive", "why_tests_cant": "Tests open a few archives with one bag each; which directory is found depends on every other directory of the archive and on the order in which they are visited.", "anchors": ["multibag/access/bagit.py:open_bag", "multibag/access/bagit.py:ReadOnlyBag"]}
{"id": "C89", "title": "A bag object can be made a head bag object without loss", "statement": "Extending a bag object keeps its contents and its unsaved changes and returns objects that are extended already. Converting a bag object to a head bag object always gives an object with the methods for reading head bag data, never changes the bag's metadata or files, leaves an object that is a head bag already (and its unsaved changes) as it is, has no further effect the second time, and fails only for objects that are no bags and ordinary bags without bagit.txt. Methods for changing the head bag are there exactly if the bag is a directory on disk and read-only access was not asked for.", "quantifier": "all classes of bag objects, all states, all locations", "why_tests_cant": "There are eight classes of objects, two modes and any number of pending changes; tests convert a few fresh bags.", "anchors": ["multibag/access/multibag.py:as_headbag", "multibag/access/multibag.py:open_headbag", "multibag/access/extended.py:as_extended"]}
{"id": "C90", "title": "A walk lists exactly what is in and below a directory of the bag", "statement": "bag.walk(start), for a start directory given by its bag path (or none), lists each directory at or below it exactly once, under its bag path with forward slashes, with exactly the names of its subdirectories and files; local and read-only bags list the same. A start that is not a directory of the bag is rejected, and so are absolute starts and starts outside the bag.", "quantifier": "all directory trees, all start directories, both kinds of bags", "why_tests_cant": "Tests walk two or three small bags; the claim is about every tree, every start and every spelling of the start.", "anchors": ["multibag/access/extended.py:_ExtendedReadWritableMixin.walk", "multibag/access/extended.py:_ExtendedReadOnlyMixin.walk", "multibag/access/bagit.py:Path.subfspath"]}
{"id": "C91", "title": "The payload size is that of the files below data", "statement": "calc_oxum gives the total number of bytes and the number of the files below data, at whatever depth, each counted once, for local and read-only bags; a bag whose Payload-Oxum was set by update_oxum passes the size check of validate.", "quantifier": "all directory trees with a data directory, all contents, all previous values of Payload-Oxum", "why_tests_cant": "Tests compare the sum for a few fixed bags.", "anchors": ["multibag/access/extended.py:calc_oxum", "multibag/access/extended.py:update_oxum", "multibag/access/bagit.py:_validate_oxum"]}
{"id": "C92", "title": "A size is written so that it can be read back to four digits", "statement": "The text written for a size in bytes (Bag-Size) is a number, a space and one of the units B, kB, MB, GB, TB; the size that it says differs from the size given by at most one part in 2000, and is exact below 10000 bytes; the number is less than 1000 for sizes below 1000 TB, and at least 1 if the unit is not B.", "quantifier": "all sizes, any rounding to the nearest", "why_tests_cant": "Tests check a handful of sizes; unit boundaries and roundings occur at every scale.", "anchors": ["multibag/access/extended.py:_format_bytes", "multibag/access/multibag.py:_format_bytes"]}
{"id": "C93", "title": "Updating, converting and amending keep a bag valid", "statement": "Let a bag be valid in the sense of the BagIt validator. If a head bag's update_info() is called on it, if make_single_multibag() turns it into a multibag of its own, or if an amender makes it the new head bag of a multibag and the call succeeds, then the bag can be opened again afterwards and is still valid: manifests, tag manifests, Payload-Oxum and bag-info.txt agree with the files, however many files there are. update_info() on an opened bag fails only if a directory stands where a tag manifest is to be written. (False if the bag contains a tag file whose name cannot be listed in a manifest, for example one ending in a space: the bag was valid as long as it was not listed, and is not once it is.)", "quantifier": "every valid bag, every set of payload and tag files, every version, profile version, member name and list of amending bags", "why_tests_cant": "A test checks the bags it builds; that a rewritten tag manifest covers exactly the files which a validator will look at must hold for every bag content.", "anchors": ["multibag/access/multibag.py:HeadBagUpdateMixin.update_info", "multibag/amend.py:SingleMultibagMaker", "multibag/amend.py:Amender.finalize", "multibag/access/bagit.py:ReadOnlyBag"]}
{"id": "C94", "title": "The queries of a head bag agree", "statement": "After any history of calls, member_bag_names lists the names given by member_bags, in order; files_in_member(b) lists, each once, exactly the paths that lookup_file finds in b; and asking any query changes neither the answer of another one nor anything on disk.", "quantifier": "all head bags that can be opened, all histories of calls, all sequences of queries", "why_tests_cant": "All histories and all orders of asking: the answers are cached.", "anchors": ["multibag/access/multibag.py:HeadBagReadMixin.member_bag_names", "multibag/access/multibag.py:HeadBagReadMixin.files_in_member"]}
{"id": "C95", "title": "Reading again from disk", "statement": "member_bags, lookup_file and deleted_paths with reread=True report what is saved in the bag, and unsaved updates are lost by it (as documented): later queries report what is saved too.", "quantifier": "all states of a head bag object", "why_tests_cant": "All states, including those where nothing has been saved.", "anchors": ["multibag/access/multibag.py:HeadBagUpdateMixin.member_bags", "multibag/access/multibag.py:HeadBagUpdateMixin.lookup_file", "multibag/access/multibag.py:HeadBagReadMixin.deleted_paths"]}
{"id": "C96", "title": "Converted and amended head bags pass the package's own validation", "statement": "If make_single_multibag converts a valid bag that has payload files, or a valid bag with payload files amends a multibag, then the bag opens again afterwards and the package's head bag validator reports no error and no warning for it, provided that the member identifiers given are URIs without a host, that no member has a comment without an identifier, that the version is new and that the metadata kept from before is acceptable.", "quantifier": "every valid bag with a listable set of file names, every earlier multibag (profile 0.3 or later when the profile is kept), every list of amending bags, every version and identifier", "why_tests_cant": "A test validates the head bags its fixtures produce. That the writer and the validator agree must hold for all members, paths, versions and metadata, and the counterexamples (a web address as identifier, a comment alone, no payload, a repeated version) are easy to miss.", "anchors": ["multibag/amend.py:make_single_multibag", "multibag/amend.py:Amender.finalize", "multibag/amend.py:amend_bag_with", "multibag/access/multibag.py:HeadBagUpdateMixin.update_info", "multibag/access/multibag.py:HeadBagUpdateMixin.save_member_bags", "multibag/access/multibag.py:HeadBagUpdateMixin.save_file_lookup", "multibag/validate/headbag.py:HeadBagValidator"]}
{"id": "C97", "title": "Member bags are taken from the component directory", "statement": "A BagRestorer writes to the destination given, or to the head bag's directory, and looks for member bags in compdir, or beside the head bag, or in multibag/_membercache of the destination if a fetcher is given. A member bag is taken from there: the directory with its name if there is one, otherwise an archive with its name and a supported extension; the fetcher is only called for a bag that is not there in any form. Restoring uses the files found there. Which bag is taken is determined by what is in the directory, and directories are only created in the destination.", "quantifier": "every disk, working directory, head bag, destination, component directory, fetcher and member name", "why_tests_cant": "Tests use a few layouts and plain names. The result must not depend on the working directory or on how the paths are written, and the failures (names with .. or a slash, two archives of one bag, a component directory next to the destination) need particular layouts or hash seeds.", "anchors": ["multibag/restore.py:BagRestorer.__init__", "multibag/restore.py:BagRestorer._create_dest_bag", "multibag/restore.py:BagRestorer.find_member_bag", "multibag/restore.py:BagRestorer._fetch_member_bag", "multibag/restore.py:BagRestorer.get_member_bag", "multibag/access/bagit.py:_ext_fs_lookup"]}
{"id": "C98", "title": "Bag-Size tells the size of the bag", "statement": "After update_info(), convert(), or an amendment, the Bag-Size in bag-info.txt is the number of bytes of all files of the bag as it is then on disk (including the Bag-Size line itself and the rewritten tag manifests), up to the rounding of the text to four digits (one part in two thousand) and 12 bytes. A restored bag should state its size in the same way.", "quantifier": "every bag directory and metadata, every version and profile version, every checksum function with results of fixed length, every way of rounding to nearest, every aggregation restored", "why_tests_cant": "the value is written into one of the files it measures, whose checksum is in others; the error has to be bounded for every size, not seen to be small for one", "anchors": ["multibag/access/multibag.py:HeadBagUpdateMixin.update_info", "multibag/access/multibag.py:HeadBagUpdateMixin._bag_size", "multibag/access/multibag.py:HeadBagUpdateMixin._format_bytes", "multibag/access/extended.py:_ExtendedReadWritableMixin.calc_bag_size", "multibag/access/extended.py:_ExtendedReadWritableMixin.update_bag_size", "multibag/amend.py:SingleMultibagMaker.convert", "multibag/amend.py:Amender.finalize", "multibag/restore.py:BagRestorer.restore"]}
{"id": "C99", "title": "Restoring an amended aggregation gives the old contents with the amendments over them", "statement": "Restoring from the new head bag that an amendment wrote gives, for every file outside the tag files that multibag manages, the file that restoring from the old head bag gives, unless one of the amending bags or the new head bag has a file of that name: then the one of the last of them. If the bag amended was an ordinary bag, its own contents take the place of the restored old aggregation. In particular a file absent from the old aggregation and from all amending bags is absent.", "quantifier": "all old head bags and ordinary bags, all lists of amending bags and new head bags, all stores of bags from which both restores succeed, and all paths", "why_tests_cant": "It relates three operations (restore, amend, restore) over every aggregation, every order and overlap of the bags and every path; a test runs one amendment and compares one tree.", "anchors": ["multibag/amend.py:Amender.init_from_amendee", "multibag/amend.py:Amender.add_amending_bag", "multibag/amend.py:Amender.finalize", "multibag/restore.py:BagRestorer.restore", "multibag/access/multibag.py:HeadBagReadMixin.iter_member_bags", "multibag/access/multibag.py:HeadBagReadMixin.iter_deleted"]}
{"id": "C100", "title": "A split that is stopped loses nothing", "statement": "If a split that would succeed is stopped at any point between two file operations (process killed, power lost), the source bag is as it was, the bags that were in the output directory before are as they were, and each bag the split has finished is byte for byte the bag the whole split makes of that name. From the source the whole split can still be made in a directory as it was before. This holds for copying and for hard links. The split is not restartable in place: once the directory of its first bag exists, running it again in the same output directory is refused, and an unfinished last bag may already say in bag-info.txt that it is a head bag while it has no member list.", "quantifier": "all source bags, plans, names and options for which the split succeeds, all contents of the output directory, and all points of the run", "why_tests_cant": "It ranges over every crash point of every split; a test runs a split to its end.", "anchors": ["multibag/split.py:SplitPlan.apply_iter", "multibag/access/extended.py:_ExtendedReadWritableMixin.replicate"]}
{"id": "C101", "title": "An interrupted amendment or conversion does not pass for a finished one", "statement": "If an amendment or a conversion that would succeed is stopped at any point, also in the middle of writing a file, all files of the bag being written other than the member list, the lookup list, bag-info.txt and the tag manifests are as they were. In an amendment, and in a conversion of a bag that already names a profile version, either bag-info.txt is as it was, so that the bag does not yet say that it is the new head bag, or both lists are those the whole run leaves. A conversion of a bag that names no profile version breaks this: it first makes the bag a head bag of version 1, so a stop may leave a head bag without lists and with a version nobody asked for. bag-info.txt itself is rewritten in place, so that a stop may leave it empty.", "quantifier": "all bags, amending bags, versions and options for which the run succeeds, and all points of the run, including every number of characters written of a file", "why_tests_cant": "It ranges over every crash point, including those inside the writing of a file; a test runs to the end.", "anchors": ["multibag/amend.py:Amender.init_from_amendee", "multibag/amend.py:Amender.finalize", "multibag/amend.py:SingleMultibagMaker.convert", "multibag/amend.py:SingleMultibagMaker.write_member_bags", "multibag/amend.py:SingleMultibagMaker.write_file_lookup", "multibag/access/multibag.py:HeadBagUpdateMixin.save_member_bags", "multibag/access/multibag.py:HeadBagUpdateMixin.save_file_lookup", "multibag/access/multibag.py:HeadBagUpdateMixin.update_info"]}
{"id": "C102", "title": "A validation error says what failed", "statement": "The text of the exception that ensure_valid raises tells, if at most three tests failed, each of them with its summary and all its comments; with more it begins with the number of failed tests, says that it tells only some, and tells the first three. The text of a single test begins with PASSED exactly if it was passed, and else with its kind. If errors, problems (errors and warnings) or everything was asked for, one of the tests told is of a kind asked for. The number counts failed tests of kinds that were not asked for as errors; and if only warnings or recommendations were asked for, none of the failures asked for need be told.", "quantifier": "all results of validations, all kinds asked for and all wordings of the tests", "why_tests_cant": "It ranges over all combinations of failed tests of the three kinds and all masks; tests check one message.", "anchors": ["multibag/validate/base.py:MultibagValidationError.__init__", "multibag/validate/base.py:MultibagValidationError.__str__", "multibag/validate/base.py:ValidationIssue.summary", "multibag/validate/base.py:ValidationIssue.description", "multibag/validate/base.py:Validator.ensure_valid"]}
{"id": "C103", "title": "A bag can be converted with a tag directory of one's choice", "statement": "SingleMultibagMaker(bag, tagdir).convert() puts the member list and the lookup list into the directory asked for and records it in bag-info.txt; the bag, opened again, finds them there: its only member is itself and exactly its payload files are looked up, to itself. Everything else in the bag, also the lists of another aggregation in another directory, stays. make_single_multibag uses the directory multibag if the bag names no other.", "quantifier": "all ordinary bags, all tag directories outside the payload, versions and identifiers", "why_tests_cant": "It ranges over all bags and all directory names, nested ones and ones the bag already has; tests use the default name or one other.", "anchors": ["multibag/amend.py:SingleMultibagMaker.__init__", "multibag/amend.py:SingleMultibagMaker.convert", "multibag/amend.py:make_single_multibag", "multibag/access/multibag.py:HeadBagUpdateMixin.set_multibag_tag_dir", "multibag/access/multibag.py:HeadBagUpdateMixin.ensure_tagdir"]}
{"id": "C104", "title": "A restore that fails for want of a member can be completed", "statement": "If restoring to a directory other than the head bag's fails because member bags cannot be found, an error is raised, and when the missing bags are supplied, running the restore again on what was left gives exactly what a restore gives that has all member bags from the start, in files, manifests, metadata and fetch list. A restore in place breaks this: its first step replaces the head bag's metadata, so that after the failure the bag does not say any more that it is a head bag and is refused.", "quantifier": "all aggregations, all sets of missing members, all destinations and options", "why_tests_cant": "It ranges over all aggregations and all subsets of missing members; what is left depends on everything copied before.", "anchors": ["multibag/restore.py:BagRestorer.restore", "multibag/restore.py:BagRestorer._restore_from", "multibag/restore.py:BagRestorer.get_member_bag"]}
{"id": "C105", "title": "A split adds its bags to the file system and changes nothing else", "statement": "Take a file system with a bag, an output directory, and anything else. Whatever the outcome of a split that copies - success or an exception at any point - everything that existed before is as it was, and everything new is in one of the directories that the names of the output bags lead to from the output directory; for plain file names those are directories in the output directory. The bags that are made there are exactly the planned ones, and the source bag is as it was, when the names are not in use and the output directory is outside the source. If a name is in use, the split raises an exception.", "quantifier": "all well-formed file systems, source bags, output directories, plans, names and outcomes", "why_tests_cant": "It ranges over everything else in a file system and over every point at which an operation can fail.", "anchors": ["multibag/split.py:SplitPlan.apply_iter", "multibag/access/extended.py:ExtendedReadMixin.replicate"]}
{"id": "C106", "title": "A single call that splits a bag makes complete, numbered bags and touches nothing else", "statement": "For an ordinary bag that is not a head bag and has no file that the splitter mistakes for one of BagIt's own, whose directory is not around the output directory, Splitter.split(bagpath, outdir, namebasis) called with any relative or absolute paths, from any working directory and with any splitter, succeeds when no name base_N.mbag is in use in outdir. It returns outdir/base_1.mbag to outdir/base_k.mbag, k at least 1, where base is namebasis or the file name of bagpath without its extension. Together these directories have every file of the bag exactly once with its contents, every empty directory, and nothing else but standard files, and the last is the head bag. Whatever the outcome, everything that existed before is as it was, and everything new is inside such a directory. If base_1.mbag is in use the call raises an exception. Two bags with different bases can be split into the same directory and all the bags of both are complete at the end.", "quantifier": "all file systems, working directories, source and output paths, splitters, sizes, walk orders, name bases and pairs of calls", "why_tests_cant": "tests split one bag into an empty directory from one working directory; what other paths, other contents of the output directory or a second call do cannot be enumerated", "anchors": ["multibag/split.py:Splitter.split", "multibag/split.py:Splitter.plan", "multibag/split.py:SplitPlan.apply_iter", "multibag/split.py:SimpleNamer", "multibag/split.py:asProgenitor", "multibag/access/extended.py:as_extended", "multibag/access/extended.py:_ExtendedReadOnlyMixin"]}
{"id": "C107", "title": "Splitting a bag by one call and restoring it by another gives the bag back", "statement": "A valid bag is split with `MultibagSplitter.split` (or a subclass) into an output directory, and the last path that the call returns is given to `restore_bag` with a new destination: the restore finds all member bags next to the head bag and succeeds; the bag it returns is valid, lies in the destination, and has the files (other than the bag's own metadata and manifests) and directories of the original; nothing else on disk has changed. Every call of `restore_bag` that succeeds returns the bag that is in the destination, which is the head bag's directory if none is given, and changes nothing outside it.", "quantifier": "every file system, valid bag, splitter, name basis, list of properties not to pass on, output directory, new destination directory, working directory; for the second part every head bag, destination and member directory", "why_tests_cant": "The two calls meet only through the file system and the paths; tests try a few bags, one working directory and one splitter each.", "anchors": ["multibag/split.py:Splitter.split", "multibag/restore.py:restore_bag", "multibag/restore.py:BagRestorer.__init__", "multibag/restore.py:BagRestorer.find_member_bag", "multibag/access/bagit.py:open_bag", "multibag/access/multibag.py:is_headbag", "multibag/access/multibag.py:open_headbag"]}
{"id": "C108", "title": "Splits that run at the same time do not disturb each other", "statement": "While a plan is applied, other processes may change the file system between any two of its file operations. If they leave the source bag, the output directory and the places of the new bags alone, the split succeeds and makes the bags it would make alone. Each single file operation of a split changes nothing but what is at the places of its new bags. So any number of splits may run at the same time, also of the same bag and into the same directory, with different names for their bags: in whatever order their operations take place, all succeed, each makes what it makes alone, the sources and everything else that existed are as they were, and everything new is in the new bags.", "quantifier": "every file system, every number of splits of ordinary bags, every plan and names, every schedule of their file operations; for the first part every behaviour of the other processes", "why_tests_cant": "The number of interleavings grows exponentially with the number of file operations, and a test cannot choose the interleaving.", "anchors": ["multibag/split.py:SplitPlan.apply_iter", "multibag/access/extended.py:ExtendedReadMixin.replicate"]}
{"id": "C109", "title": "Splitting and restoring can be repeated any number of times", "statement": "A valid bag that is not part of an aggregation is split with one call and restored from its head bag with another; the restored bag is split and restored again, and so on, each time with any splitter and any maximum size, to directories with room for it. Every call succeeds. After any number of rounds the bag is valid, has the files and directories that the first bag had and the same metadata (line breaks within values and the sizes aside), and can be split again. Nothing that was on the disk at the start changes, and everything new is in the directories for restored bags or in the numbered bags.", "quantifier": "every bag that meets the hypotheses, every sequence of rounds of any length with any splitters, names and directories", "why_tests_cant": "A test runs a fixed number of rounds on a few bags; that a restored bag meets every requirement for being split again has to hold for every bag and after every history.", "anchors": ["multibag/split.py:WellPackedSplitter", "multibag/split.py:Splitter.split", "multibag/restore.py:restore_bag", "multibag/restore.py:BagRestorer.restore"]}
{"id": "C110", "title": "Editions published one after another add up", "statement": "A bag, ordinary or a head bag, is amended, the head bag that results is opened again from its directory and amended in turn, and so on. Then the head bag of every edition, whatever is published later, gives its own version and lists as deprecated the versions of all editions before it, oldest first; its member list is that of the aggregation it all began with followed by the bags of the editions in order, each bag where it was last named; a payload file is looked up to the bag that provided it last, or to where it was in the beginning; and restoring the edition gives for every file it does not list as deleted the contents in the last bag, up to that edition, that has it.", "quantifier": "every first bag, every sequence of amendments of any length, every edition in it, every path", "why_tests_cant": "A test publishes a fixed number of editions; that each edition carries everything before it over has to hold after every history, and for a head bag as it is read back from its files, not as it was in memory.", "anchors": ["multibag/amend.py:amend_bag_with", "multibag/amend.py:Amender", "multibag/access/multibag.py:HeadBag", "multibag/restore.py:BagRestorer.restore"]}
{"id": "C111", "title": "Restoring with a function that fetches member bags", "statement": "`restore_bag` with a function that fetches member bags does what it does with the same bags in a local directory: if the one call succeeds, so does the other; it returns the same bag and leaves the same files, and nothing else, on disk, so that everything that was fetched is gone again; every member bag besides the head bag is fetched exactly once, and nothing else is. The same holds for the restorer itself, for a new destination and in place.", "quantifier": "every head bag, every set of member bags, every disk, every destination, every function that puts the bags it is asked for where they are wanted", "why_tests_cant": "A test has one fetcher and one aggregation; that bags fetched into the destination never get into the restored bag, and that none is fetched twice, is about all of them.", "anchors": ["multibag/restore.py:restore_bag", "multibag/restore.py:BagRestorer.get_member_bag", "multibag/restore.py:BagRestorer._fetch_member_bag", "multibag/restore.py:BagRestorer.restore"]}
{"id": "C112", "title": "The neighborly splitter keeps the files of a directory together", "statement": "In each bag planned by the neighborly splitter the files of a directory are listed next to each other, and the first file is the largest that was left. A file is put in a later bag than another one of its directory only if it did not fit when the first file of another directory was added to that bag. So if the files of the directory with which a bag begins fit in one bag, none of them is left for a later bag.", "quantifier": "every bag, every order of listing its files, all sizes and limits", "why_tests_cant": "A test looks at the bags of one small tree; which directories are broken up depends on all sizes and on the order of directories.", "anchors": ["multibag/split.py:NeighborlySplitter", "multibag/split.py:NeighborlySplitter._dirpaths_for", "multibag/split.py:NeighborlySplitter._select_from_dir"]}
{"id": "C113", "title": "Naming the output bags while they are written", "statement": "Giving a naming iterator to apply_iter makes the same bags as naming the plan by that iterator with name_output_bags and applying it without one; if the iterator has too few names, the remaining bags keep the names of the plan.", "quantifier": "every plan, source, naming iterator and state of the file system, whatever the outcome", "why_tests_cant": "Tests use one kind of iterator; the claim is about every iterator a caller may pass and every length of its supply.", "anchors": ["multibag/split.py:SplitPlan.apply_iter", "multibag/split.py:SplitPlan.name_output_bags", "multibag/split.py:SimpleNamer"]}
{"id": "C114", "title": "What the caller does with a bag that was handed over does not matter to the rest", "statement": "apply_iter hands over each bag as it is written. Whatever the caller then does to the file system, such as packing, moving, changing or deleting that bag, the remaining bags are made as if it had done nothing, and the source is unchanged; provided the output directory stays, the source is left alone and no name of a bag to come is taken.", "quantifier": "every bag, plan, output directory and everything a caller may do between the steps of the iterator", "why_tests_cant": "What a caller may do between two steps has no bound; a test tries one thing.", "anchors": ["multibag/split.py:SplitPlan.apply_iter", "multibag/access/extended.py:_ExtendedReadWritableMixin.replicate"]}
{"id": "C115", "title": "Restored files and directories keep their modification times", "statement": "After restore, every file and directory that comes from a member bag has the modification time it has in the last member bag that has it, the head bag being the last, whatever was written beside it in the meantime; and keeping times does not change what is restored.", "quantifier": "every aggregation, clock and assignment of modification times, restoring to a new place or in place of the head bag", "why_tests_cant": "Whether writing a later file disturbs the time of an earlier directory depends on the order and overlap of all members' contents; tests look at few of them.", "anchors": ["multibag/restore.py:BagRestorer.restore", "multibag/restore.py:BagRestorer._restore_from", "multibag/access/extended.py:timesfor"]}
{"id": "C116", "title": "Fetch entries collected with restore_member", "statement": "Restoring member bags one by one with restore_member and one dictionary for fetch entries restores the same files as without it, and collects for every file the fetch entry of the first of these bags that lists it, and nothing else.", "quantifier": "every sequence of member bags, fetch lists, destination and contents of the dictionary", "why_tests_cant": "No test passes the dictionary; which entries survive depends on all coincidences of files and sources between the lists.", "anchors": ["multibag/restore.py:BagRestorer.restore_member"]}
{"id": "C117", "title": "Splitting, and restoring elsewhere by fetching", "statement": "Splitting a valid bag with one call, bringing only the head bag to another place, and restoring it there into a new directory with a function that delivers the other bags, always succeeds and gives back a valid bag with the files and directories of the original one; each other bag is asked for once, nothing outside the new directory is changed and no fetched bag is left behind.", "quantifier": "every valid source bag that is not a head bag, both splitters with all their settings, every place the head bag is brought to and every function that delivers the other bags", "why_tests_cant": "Tests fetch two fixed bags; whether every output bag of every split can be fetched into the destination, and leaves nothing there, is a statement about all plans.", "anchors": ["multibag/split.py:Splitter", "multibag/restore.py:restore_bag", "multibag/restore.py:BagRestorer.get_member_bag"]}
{"id": "C118", "title": "Splitting when copies fail", "statement": "A split that returns normally has copied every planned file completely into its bag, and each bag has its bagit.txt, even if copying some of the files failed, for example because the disk was full.", "quantifier": "every source bag and plan whose split succeeds when nothing fails, and every way in which the copies of the single files may end", "why_tests_cant": "Tests never make a copy fail; there is one way to fail for each file and each number of characters written before it.", "anchors": ["multibag/access/extended.py:_ExtendedReadWritableMixin.replicate", "multibag/split.py:SplitPlan.apply_iter"]}
{"id": "C119", "title": "A directory of one's own for fetched bags", "statement": "`restore_bag` with a function that fetches member bags and an existing directory for them outside the destination (`compdir`) does what it does with the same bags in a local directory: if the one call succeeds, so does the other, with the same result. Bags that are in the directory, as directories or as one archive each, are used; each of the others is fetched once, and nothing else is. The fetched bags stay in the directory as they were delivered, nothing else on the disk changes, and restoring the aggregation again elsewhere with the same directory fetches nothing.", "quantifier": "every head bag, every set of member bags, any part of them being in the directory already, every disk and destination, every function that puts the bags it is asked for where they are wanted", "why_tests_cant": "A test has one aggregation and one state of the directory; that the bags at hand and the fetched ones combine to the same result for every distribution is about all of them.", "anchors": ["multibag/restore.py:restore_bag", "multibag/restore.py:BagRestorer.find_member_bag", "multibag/restore.py:BagRestorer.get_member_bag", "multibag/restore.py:BagRestorer._fetch_member_bag", "multibag/restore.py:BagRestorer.restore"]}
{"id": "C120", "title": "Restores that run at the same time do not disturb each other", "statement": "Several processes may call `restore_bag` at the same time on one file system, with the same head bag and member bags, as long as they restore to different places. Whatever the order in which their operations take place, each call ends as it does when it runs alone, with the same bag or the same exception, its destination is then as if it had run alone, and nothing outside the destinations is changed. More generally a call is not disturbed by anything other processes do, provided they keep off its destination, the head bag and the places where member bags are looked for.", "quantifier": "every number of calls, every head bag and every set of member bags, every file system, every interleaving of the operations, and all changes by other processes elsewhere", "why_tests_cant": "A test runs one interleaving, usually none; the number of orders in which the operations of two calls can take place is astronomical, and other processes may do anything elsewhere.", "anchors": ["multibag/restore.py:restore_bag", "multibag/restore.py:BagRestorer.restore", "multibag/restore.py:BagRestorer._create_dest_bag", "multibag/restore.py:BagRestorer.restore_member", "multibag/restore.py:BagRestorer._restore_from"]}
{"id": "C121", "title": "Splits and restores that run at the same time do not disturb each other", "statement": "Any number of processes may apply split plans and any number of others may call `restore_bag` at the same time on one file system. They may read the same bags and make their bags in the same directory, as long as no two make a bag at the same place, or one inside the other, and none makes a bag where another one reads. Whatever the order in which the operations take place, a split that has made all its operations has succeeded, its source bag is as it was and its output bags are complete; a restore that has ended has ended as it does alone, with the same bag or the same exception, and its destination is as if it had run alone; and whatever is neither in a destination nor in one of the new bags is as it was, at all times. A call that has a turn again and again comes to its end, whatever the others do.", "quantifier": "every number of splits and of restores, every plan, every head bag and set of member bags, every file system, every interleaving of the operations, at every moment of it", "why_tests_cant": "A test runs one interleaving, usually none; the orders in which the operations of several calls can take place are too many to try.", "anchors": ["multibag/split.py:SplitPlan.apply_iter", "multibag/restore.py:restore_bag", "multibag/restore.py:BagRestorer.restore"]}
{"id": "C122", "title": "Several head bag objects for one bag", "statement": "Several `HeadBag` objects, in one process or several, may be open on the same bag directory. After one of them has saved its member list (or its lookups, or its deleted paths) and as long as nobody saves or clears that list again, a newly opened bag reports exactly that object's list, whatever calls were made before and whatever else is called afterwards. An object that has all its lists in memory answers as if the others were not there until it is told to read again. An object that reads a list again, adds an entry and saves keeps everything that was on disk when it read. Objects that do not read again before saving overwrite what others have saved, without an error.", "quantifier": "every number of objects, every bag directory, every sequence of calls to the objects (including ones that raise), every member list, lookup table and set of deleted paths with writable names", "why_tests_cant": "A test opens one or two objects and makes a few calls; the claim is about all interleavings of calls to any number of objects.", "anchors": ["multibag/access/multibag.py:HeadBagUpdateMixin.save_member_bags", "multibag/access/multibag.py:HeadBagUpdateMixin.save_file_lookup", "multibag/access/multibag.py:HeadBagUpdateMixin.clear_file_lookup", "multibag/access/multibag.py:HeadBagUpdateMixin.save_deleted", "multibag/access/multibag.py:HeadBagReadMixin.member_bags", "multibag/access/multibag.py:HeadBagReadMixin.lookup_file"]}
{"id": "C123", "title": "The list that member_bags() returns", "statement": "`member_bags()` of a `HeadBag` returns the list the object itself keeps. As long as a program does not change the lists it is handed, this cannot be noticed: the object does exactly what it would do if it returned copies. The list returned shows all later changes to the member list, and what the caller does to it is what the object reports and saves, until the list is set (`set_member_bags`) or read again from an existing file; from then on the old list is the caller's alone. A loop over `member_bags()` that removes each bag removes only every other one; a loop over a list that is not the object's own removes all; a loop that adds a bag without `override` for each entry never ends.", "quantifier": "every bag directory, every sequence of calls and of changes to the lists returned, every member list", "why_tests_cant": "Aliasing shows only for particular orders of calls and changes; a test tries one order.", "anchors": ["multibag/access/multibag.py:HeadBagReadMixin.member_bags", "multibag/access/multibag.py:HeadBagUpdateMixin.add_member_bag", "multibag/access/multibag.py:HeadBagUpdateMixin.remove_member_bag", "multibag/access/multibag.py:HeadBagUpdateMixin.set_member_bags"]}
{"id": "C124", "title": "Datasets made from plans", "statement": "`mkdataset` with a plan only adds files and directories to the destination, whatever the plan and however it ends: nothing there is changed, names end in sizes, and the result is what was made. If the plan suits the totals (at every level no more is claimed than there is, what claims nothing is not repeated, and there is a file for everything), exactly `totalsize` bytes in exactly `filecount` files are made, and the directories the plan asks for; so also without a plan, and with any number of plain sets and directories if there are enough bytes and files. With no bytes or no files nothing is made. Two runs make the same contents in the same order; only the names differ. Names are found by chance among those of ten numbers per file; if the destination has room for what is made, every run ends in which each number is drawn again and again; a plan that claims more files of one size than there are numbers never ends. Of a list of inventories with all the bytes asked for or more, exactly the first ones are made, in full, up to the one with which the bytes or the files are more than asked for. No pass over a set makes more than the totals of the set. Other plans make more or less than asked for, or fail, possibly after making some files.", "quantifier": "every plan of any depth, all totals, every destination, every sequence of random numbers", "why_tests_cant": "Plans nest to any depth and the shares depend on all the numbers in them; a test tries one plan.", "anchors": ["multibag/testing/mkdata.py:DatasetMaker", "multibag/testing/mkdata.py:DatasetMaker._fill_dir", "multibag/testing/mkdata.py:DatasetMaker._distribute", "multibag/testing/mkdata.py:mkdataset"]}
{"id": "C125", "title": "Declared character encodings", "statement": "A bag's bagit.txt declares the encoding of its metadata and manifests, and opening a bag reads them with it; the package itself writes UTF-8. A bag written by the package is read as it was written if the declared encoding is UTF-8, or if it has ASCII as a part and what was written is ASCII. So the bags a split makes of a valid bag are valid when read in the encoding they declare if that is UTF-8, or if it has ASCII as a part and paths, metadata and names are ASCII. They are not in general: every split of a valid bag that declares ISO-8859-1 gives invalid bags where there is a payload path outside ASCII, garbled metadata where there is metadata outside ASCII, and the metadata of such a source is not copied to the head bag as it is.", "quantifier": "all source bags, plans, options, encodings (as arbitrary codecs) and all texts; for the failures all bags that declare ISO-8859-1", "why_tests_cant": "tests use UTF-8 sources with ASCII names; the claim is about all texts and all codecs", "anchors": ["multibag/constants.py:DEF_ENC", "multibag/split.py:SplitPlan.apply_iter", "multibag/split.py:SplitPlan._record_hash", "multibag/access/bagit.py:ReadOnlyBag._open", "multibag/access/bagit.py:ReadOnlyBag._load_manifests", "multibag/access/bagit.py:ReadOnlyBag.open_text_file"]}
{"id": "C126", "title": "Updating a head bag touches nothing outside of the bag", "statement": "Whatever a program does with a head bag object (ensuring and setting the tag directory with or without moving the files, saving members, lookup and deleted lists, clearing the lookup, amending, changing the metadata), everything on the disk outside of the bag's directory stays as it was, and the bag's directory stays. The code does not ensure it: the tag directory is taken from the metadata unchecked. It holds for all histories in which every tag directory named leads into the bag, in particular for relative paths without `..`. With a tag directory that leads elsewhere, saving overwrites and clearing and amending remove files there, for every directory on the disk. With a plain tag directory, the effects on the bag are those of the models of the bag alone.", "quantifier": "all disks, places of the bag, metadata, tag directories and histories of calls, with exceptions in between; for the failures all directories outside of the bag", "why_tests_cant": "tests use the default tag directory and look at the bag only; the claim is about all paths and histories and about everything else on the disk", "anchors": ["multibag/access/multibag.py:HeadBagUpdateMixin.ensure_tagdir", "multibag/access/multibag.py:HeadBagUpdateMixin.set_multibag_tag_dir", "multibag/access/multibag.py:HeadBagUpdateMixin.save_member_bags", "multibag/access/multibag.py:HeadBagUpdateMixin.save_file_lookup", "multibag/access/multibag.py:HeadBagUpdateMixin.clear_file_lookup", "multibag/access/multibag.py:HeadBagUpdateMixin.save_deleted", "multibag/amend.py:Amender._init_member_bags"]}
{"id": "C127", "title": "Replicating files from bags", "statement": "`replicate(path, destdir, logger)` of a bag puts the file into the destination directory, making missing parent directories, or makes the directory; it leaves everything that was there before, in all bags and elsewhere, as it was, and a path that is not in the bag is a ValueError. Any number of calls for any bags, read-only or writable, with hard links or not, change nothing that was there, if nothing is at a place when it is filled; if there are no hard links, then places may be filled again and only the destination directories change. The code does not ensure it with hard links, the default of writable bags: replicating the same path from two bags into one directory overwrites the file of the first bag with that of the second. With a logger, a file that cannot be linked is an AttributeError and is not copied; a file in place of a parent directory makes the call do nothing silently; a file is put into a directory found at the place.", "quantifier": "all disks with any hard links, bags, paths, destination directories, ways of opening bags, loggers or none, and all histories of calls with exceptions in between", "why_tests_cant": "tests replicate into new directories and compare what arrives; the claim is about all histories and about everything else on the disk, including the bags replicated from", "anchors": ["multibag/access/extended.py:_ExtendedReadWritableMixin.replicate", "multibag/access/extended.py:_ExtendedReadOnlyMixin.replicate", "multibag/access/extended.py:_ExtendedReadWritableMixin.replicate_with_hardlink"]}
{"id": "C128", "title": "Where a replicated file is put", "statement": "Whatever string is given as the path to `replicate` of a writable bag, only the destination directory changes, and a call that raises no exception for the path of a file in the bag has put the file at the place in the destination directory that corresponds to its place in the bag. The code ensures it for relative strings without `..` (the former) and for plain paths (the latter); in general the file is put where the string leads to from the destination directory. A string that leaves the bag by `..` and comes back is put beside the destination directory; an absolute path, a path with a slash at the end, or one through a directory that does not exist, ends normally and delivers nothing.", "quantifier": "all disks without symbolic links, all path strings, bags, destination directories, loggers or none, with hard links or copies", "why_tests_cant": "tests use a few plain paths; the claim is about all strings, which the code normalizes in one place and gives to the operating system in others", "anchors": ["multibag/access/extended.py:_ExtendedReadWritableMixin.replicate", "multibag/access/extended.py:_ExtendedReadWritableMixin._canon_path"]}
{"id": "C129", "title": "Saving a list of a head bag, stopped at any moment", "statement": "If `save_member_bags`, `save_file_lookup` or `save_deleted` is stopped at any moment, also in the middle of a file, everything else in the bag is as before; if the object is still there, saving again makes exactly the bag that an uninterrupted save makes; and a new object finds the old list or the new list. The last part is not ensured: the file is emptied and then written from the beginning, so a new object can find the first entries of the new list, followed by an entry whose last part is cut, and a lookup list can become unreadable.", "quantifier": "all head bags, all states of the object in memory, all three lists, all moments between two characters written, both ways of reading", "why_tests_cant": "a test can stop a save at a few moments at best; the claim is about every moment and every list", "anchors": ["multibag/access/multibag.py:HeadBagUpdateMixin.save_member_bags", "multibag/access/multibag.py:HeadBagUpdateMixin.save_file_lookup", "multibag/access/multibag.py:HeadBagUpdateMixin.save_deleted"]}
{"id": "C130", "title": "Bags with symbolic links", "statement": "In a bag with symbolic links: every file that `isfile` tells of is required of a split plan (unless it has the name of a special file), what `exists`, `isfile` and `isdir` tell of is in the bag, and the size of the bag can be found. Each of the three is not ensured: links to directories are not followed by the walk over the bag although `isfile` follows them, so that the files below them are missing in every plan; a link out of the bag makes a file outside of it a file of the bag; and a link that leads nowhere makes finding the size of the bag raise OSError.", "quantifier": "all disks with links of any kind (relative, absolute, to links, in circles, to nothing), all bags, all paths", "why_tests_cant": "tests try a few links; the claim is about every arrangement of them", "anchors": ["multibag/access/extended.py:ExtendedReadMixin.nonstandard", "multibag/access/extended.py:ExtendedReadMixin.exists", "multibag/access/extended.py:ExtendedReadMixin.isfile", "multibag/access/extended.py:ExtendedReadMixin.walk", "multibag/access/extended.py:ExtendedReadMixin.calc_bag_size", "multibag/split.py:SplitPlan.required"]}
{"id": "C131", "title": "Split plans whose entries are any strings", "statement": "When an output bag of a split is filled from a plan, nothing outside that output bag changes, whatever the outcome; and if it ends without an error, the entries recorded for the output bag are exactly the entries of the plan that lead to a file of the source bag, in the order of the plan, and each of them leads to a file with the same content in the output bag, made by a hard link or by a copy; and each entry that leads to a directory of the source bag leads to something in the output bag. This is ensured for relative entries without `..` components, in any spelling (doubled slashes, `.` components, trailing slashes). It is not ensured for others: an entry with `..` that leads back into the source bag is put outside the output bag; an absolute entry that names a file of the source bag is recorded although nothing is put into the output bag; and a file that is listed in two spellings is recorded twice.", "quantifier": "all disks, with hard links of any kind, on which neither bag is in the other and the files that are already in the output bag have no other names, all lists of entry strings, hard links wanted or not and possible or not for each entry separately", "why_tests_cant": "the entries are free strings and what an entry leads to depends on the disk, on what earlier entries have put there and on the spelling of each component", "anchors": ["multibag/split.py:SplitPlan.apply_iter", "multibag/access/extended.py:_ExtendedReadWritableMixin.replicate", "multibag/access/extended.py:_ExtendedReadWritableMixin._canon_path"]}
{"id": "C132", "title": "Output bags with any names", "statement": "When the output bags of a split are written, nothing that is on the disk before changes, whatever the outcome and whatever the names in the plan are; everything new is in the directories that the names say; where something is already, no bag is written and the split fails without touching it; if all bags are written, their names are all different, and every entry of every bag that leads to a file of the source leads to a file with the same content in its output bag in the end; and every bag then has the bagit.txt of the source, the bag-info.txt and the manifest lines that were written for it, and a head bag its three lists. This is ensured for names that are relative with any number of slashes or absolute, without `.`, `..` and empty components, for bags outside the source bag, and for entries that do not lead to a file the split writes itself. It is not ensured that an output bag gets into the output directory, nor that a finished output bag stays as it is: a name can lead outside, or into the payload of another output bag; and an entry `bag-info.txt` has the metadata of the source bag overwritten through the hard link.", "quantifier": "all disks, with hard links of any kind, all output names and entries as described, any number of output bags, any texts of the metadata and manifests, hard links wanted or not and possible or not for each entry separately", "why_tests_cant": "names and entries are free strings that interact with what is on the disk and with the bags written before", "anchors": ["multibag/split.py:SplitPlan.apply_iter", "multibag/split.py:SplitPlan._record_hash", "multibag/access/extended.py:_ExtendedReadWritableMixin.replicate"]}
{"id": "C133", "title": "Lists saved at the same time", "statement": "Several processes may call `save_member_bags`, `save_file_lookup` or `save_deleted` on one head bag at the same time, switching at any operation on the file system and with any division of the texts into pieces. If all those that save member lists save the same one, then after they are done a newly opened bag has exactly this list, although each of them empties the file; the same for lookups, and for deleted paths that all go through in the same order, also if there are none and some remove the file while others have it open; and saving one of the three lists does not disturb saving another. A process that opens the file when the others have stopped writing it, even in the middle, has its list saved exactly. A process alone does what the call does. Nothing but the files that are saved changes. If the tag directory is there and nobody saves an empty set of deleted paths, nobody gets an exception. With different lists, or with the same deleted paths in different orders, it is not ensured that one of them is saved: every character is at its place in one of the lists, but the file can be a mixture that lists a bag or a path which is in none of them; without a tag directory, and when several save an empty set of deleted paths, one of the processes can get an exception.", "quantifier": "all bags, any number of processes, all lists, all schedules, all divisions of the texts into pieces", "why_tests_cant": "the number of interleavings is unbounded, and a test cannot choose the moment at which the operating system switches", "anchors": ["multibag/access/multibag.py:HeadBagUpdateMixin.save_member_bags", "multibag/access/multibag.py:HeadBagUpdateMixin.save_file_lookup", "multibag/access/multibag.py:HeadBagUpdateMixin.ensure_tagdir", "multibag/access/multibag.py:HeadBagUpdateMixin.save_deleted"]}
{"id": "C134", "title": "A list is read while it is saved", "statement": "A process goes through `iter_member_bags()`, `iter_file_lookup()` or `iter_deleted()` (as `member_bags`, `lookup_file` and `deleted_paths` do) while any number of others save lists of the same head bag, switching at any operation on the file system and with any division of the reads and writes into pieces. If the processes that act in the meantime save other lists, it gets what it would get in one go, list or exception, also if one that saves this list was stopped in the middle before. If one process saves the same list again, reading the members raises no exception and gives the first of them, possibly followed by one whose name is cut; reading the lookups gives the first of them, possibly followed by one with the name of the bag cut, or is refused; reading a nonempty list of deleted paths, saved again in the same order, raises no exception and gives the first of them, the last possibly cut. If an empty set of deleted paths is saved, the reader can get an exception. It is not ensured that the reader gets the list, even though it is the same before, after and in the save: it can get an empty one without an exception. While one list is replaced by another, every character that is read is at its place in one of them, but the reader can get a bag that is in neither.", "quantifier": "all bags, any number of processes, all lists, all schedules, all divisions into pieces", "why_tests_cant": "the number of interleavings is unbounded, and a test cannot choose the moment at which the operating system switches", "anchors": ["multibag/access/multibag.py:HeadBagReadMixin.iter_member_bags", "multibag/access/multibag.py:HeadBagReadMixin.iter_file_lookup", "multibag/access/multibag.py:HeadBagUpdateMixin.save_member_bags", "multibag/access/multibag.py:HeadBagUpdateMixin.save_file_lookup", "multibag/access/multibag.py:HeadBagReadMixin.iter_deleted", "multibag/access/multibag.py:HeadBagUpdateMixin.save_deleted"]}
{"id": "C135", "title": "Issues as tuples", "statement": "An issue of a validation has in `to_tuple()` all that it was made with: its type, the profile and its version, the label, the specification, whether it passed and the comments, each in its place. Different issues have different tuples, and an issue can be made again from its tuple by `ValidationIssue` with the items in the order of its parameters. `from_tuple` makes an issue again from its tuple: this is false, it always raises.", "quantifier": "all issues that can be made with any number of arguments, of the types that the tuple has; all tuples", "why_tests_cant": "a test compares single issues; that no two issues share a tuple, and that every one can be made again, is about all of them", "anchors": ["multibag/validate/base.py:ValidationIssue.__init__", "multibag/validate/base.py:ValidationIssue.type", "multibag/validate/base.py:ValidationIssue.to_tuple", "multibag/validate/base.py:ValidationIssue.from_tuple"]}
