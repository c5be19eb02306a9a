{
 "claims": [
  {
   "property": "C01",
   "status": "proved",
   "theorems": [
    "Verif.C01_operators",
    "Verif.C01_older",
    "Verif.C01_trichotomy",
    "Verif.C01_trans"
   ],
   "note": "Operators agree with the dotted-number order; trichotomy and transitivity."
  },
  {
   "property": "C02",
   "status": "partial",
   "theorems": [
    "Verif.C02_tuple_never_equal",
    "Verif.C02_tuple_order_raises",
    "Verif.C02_negation",
    "Verif.C02_same_kind_partial"
   ],
   "note": "False of the code: comparing with a tuple never gives equality and the order operators raise. The law for operands of the same kind is proved."
  },
  {
   "property": "C03",
   "status": "proved",
   "theorems": [
    "Verif.C03_member_line_roundtrip",
    "Verif.C03_member_line_text"
   ],
   "note": "Round trip of one member line and its exact text."
  },
  {
   "property": "C04",
   "status": "proved",
   "theorems": [
    "Verif.C04_parse_meaning",
    "Verif.C04_parse_error"
   ],
   "note": "Meaning of every accepted line, and exactly which lines are rejected."
  },
  {
   "property": "C05",
   "status": "partial",
   "theorems": [
    "Verif.C05_info_cannot_be_written",
    "Verif.C05_negation",
    "Verif.C05_negation_empty_comment",
    "Verif.C05_rewrite_partial"
   ],
   "note": "False of the code for MemberInfo objects with extra info fields and for empty comments; the rewrite law is proved otherwise."
  },
  {
   "property": "C06",
   "status": "proved",
   "theorems": [
    "Verif.C06_members_roundtrip"
   ],
   "note": "Both text modes (local utf-8-sig and read-only utf-8)."
  },
  {
   "property": "C07",
   "status": "proved",
   "theorems": [
    "Verif.C07_lookup_roundtrip"
   ],
   "note": "Both text modes."
  },
  {
   "property": "C08",
   "status": "proved",
   "theorems": [
    "Verif.C08_deleted_roundtrip"
   ],
   "note": "Both text modes."
  },
  {
   "property": "C09",
   "status": "proved",
   "theorems": [
    "Verif.C09_last_line_wins"
   ],
   "note": "Stated on the opened head bag."
  },
  {
   "property": "C10",
   "status": "proved",
   "theorems": [
    "Verif.C10_members_complete",
    "Verif.C10_lookup_complete",
    "Verif.C10_lookup_error"
   ],
   "note": "Nothing is dropped, and the errors are characterised."
  },
  {
   "property": "C11",
   "status": "proved",
   "theorems": [
    "Verif.C11_members_words",
    "Verif.C11_directory_words",
    "Verif.C11_members_reported",
    "Verif.C11_lookup_reported",
    "Verif.C11_group_members_line",
    "Verif.C11_group_directory_line",
    "Verif.C11_blank_in_path"
   ],
   "note": "Each of the two 0.2 line formats; C11_blank_in_path shows that a path with blanks is misread."
  },
  {
   "property": "C12",
   "status": "proved",
   "theorems": [
    "Verif.C12_add_member"
   ],
   "note": "After any history of successful calls."
  },
  {
   "property": "C13",
   "status": "partial",
   "theorems": [
    "Verif.C13_negation",
    "Verif.C13_negation_deleted",
    "Verif.C13_members_partial",
    "Verif.C13_lookups",
    "Verif.C13_deleted_partial",
    "Verif.C13_history_partial"
   ],
   "note": "False of the code on a freshly opened bag: the member stays listed and saved deletions are forgotten (both negations proved). Lookups are proved in every state; member list and deletions once they have been asked for."
  },
  {
   "property": "C14",
   "status": "proved",
   "theorems": [
    "Verif.C14_lookup_history",
    "Verif.C14_calls_succeed"
   ],
   "note": "Refinement to a functional map over any history."
  },
  {
   "property": "C15",
   "status": "partial",
   "theorems": [
    "Verif.C15_negation",
    "Verif.C15_negation_saved",
    "Verif.C15_deleted_history_partial",
    "Verif.C15_nothing_saved_partial"
   ],
   "note": "False of the code on a freshly opened bag: set_deleted forgets saved deletions (negations, in memory and on disk). Proved for histories that ask for deleted_paths first, and for bags with nothing saved as deleted."
  },
  {
   "property": "C16",
   "status": "proved",
   "theorems": [
    "Verif.C16_saved_state_is_durable"
   ],
   "note": "Saved state is what a fresh head bag reads."
  },
  {
   "property": "C17",
   "status": "proved",
   "theorems": [
    "Verif.C17_updates_leave_disk",
    "Verif.C17_save_frame"
   ],
   "note": "Frame conditions for every operation; clear_file_lookup removes its file by design."
  },
  {
   "property": "C18",
   "status": "proved",
   "theorems": [
    "Verif.C18_update_for_member"
   ],
   "note": "Local and read-only member bags, after any history."
  },
  {
   "property": "C19",
   "status": "partial",
   "theorems": [
    "Verif.C19_local",
    "Verif.C19_negation_string",
    "Verif.C19_negation_readonly",
    "Verif.C19_readonly_partial"
   ],
   "note": "False of the code for a string-valued exclude and for read-only members with nested excluded directories; proved for local member bags and for read-only ones without nesting."
  },
  {
   "property": "C20",
   "status": "proved",
   "theorems": [
    "Verif.C20_preserves",
    "Verif.C20_sets_fields",
    "Verif.C20_about_once",
    "Verif.C20_idempotent"
   ],
   "note": "Effect on bag-info as the map from tag to values; the size is an arbitrary function of what is saved."
  },
  {
   "property": "C21",
   "status": "partial",
   "theorems": [
    "Verif.C21_negation_repeated",
    "Verif.C21_negation_old_profile",
    "Verif.C21_read_back_partial",
    "Verif.C21_deleted"
   ],
   "note": "False for repeated tag-dir entries and for old profiles; read back proved otherwise."
  },
  {
   "property": "C22",
   "status": "partial",
   "theorems": [
    "Verif.C22_negation",
    "Verif.C22_migrate_partial",
    "Verif.C22_asked_first_partial"
   ],
   "note": "False of the code without migrate (negation). With migrate, every successful call keeps all three reports, moves all of the tag directory and leaves other files alone."
  },
  {
   "property": "C23",
   "status": "proved",
   "theorems": [
    "Verif.C23_files_in_member",
    "Verif.C23_order_opened",
    "Verif.C23_order_updates"
   ],
   "note": "Exactly the files whose lookup is the given member."
  },
  {
   "property": "C24",
   "status": "partial",
   "theorems": [
    "Verif.C24_exactly_once_partial",
    "Verif.C24_at_most_once",
    "Verif.C24_negation_lookalike"
   ],
   "note": "For both splitters, all trees, limits and listing orders. False for tag files that only look reserved to the code's patterns (fetch-txt), and for reserved base names in forhead (C30)."
  },
  {
   "property": "C25",
   "status": "partial",
   "theorems": [
    "Verif.C25_wellpacked_partial",
    "Verif.C25_negation"
   ],
   "note": "All manifests but the last, and the last too unless something is left over for completion. False for the completion manifest (head files, empty directories)."
  },
  {
   "property": "C26",
   "status": "partial",
   "theorems": [
    "Verif.C26_neighborly_partial",
    "Verif.C26_negation"
   ],
   "note": "As C25, for the neighborly splitter."
  },
  {
   "property": "C27",
   "status": "proved",
   "theorems": [
    "Verif.C27_terminates"
   ],
   "note": "Totality is by the termination proofs of the model's loops; the bound and non-emptiness are theorems."
  },
  {
   "property": "C28",
   "status": "proved",
   "theorems": [
    "Verif.C28_greedy",
    "Verif.C28_bag_count"
   ],
   "note": "For both splitters, with a bound on the number of bags as a consequence."
  },
  {
   "property": "C29",
   "status": "proved",
   "theorems": [
    "Verif.C29_order_independent"
   ],
   "note": "Both the listing used by the main loop and the walk used for completion may be in any order."
  },
  {
   "property": "C30",
   "status": "partial",
   "theorems": [
    "Verif.C30_forhead_partial",
    "Verif.C30_negation_notation",
    "Verif.C30_negation_lost"
   ],
   "note": "Holds for paths with a leading slash and an ordinary base name; false for other notations and reserved base names."
  },
  {
   "property": "C31",
   "status": "proved",
   "theorems": [
    "Verif.C31_complete"
   ],
   "note": "For any required paths and any plan."
  },
  {
   "property": "C32",
   "status": "partial",
   "theorems": [
    "Verif.C32_negation",
    "Verif.C32_required_partial"
   ],
   "note": "Exact characterisation of what is required; false for payload files with reserved base names."
  },
  {
   "property": "C33",
   "status": "partial",
   "theorems": [
    "Verif.C33_named_in_order",
    "Verif.C33_default_names",
    "Verif.C33_plan_names",
    "Verif.C33_exhausted_partial",
    "Verif.C33_negation"
   ],
   "note": "False only for an empty supply, which raises UnboundLocalError."
  },
  {
   "property": "C34",
   "status": "proved",
   "theorems": [
    "Verif.C34_find_destination"
   ],
   "note": "Exact characterisation."
  },
  {
   "property": "C35",
   "status": "proved",
   "theorems": [
    "Verif.C35_target_above_max"
   ],
   "note": "Above the maximum the target has no effect at all."
  },
  {
   "property": "C36",
   "status": "proved",
   "theorems": [
    "Verif.C36_contents",
    "Verif.C36_succeeds",
    "Verif.C36_split_places_each_file"
   ],
   "note": "applyPlan on file trees: contents of every output bag, success on ordinary sources, and the whole of plan-and-apply."
  },
  {
   "property": "C37",
   "status": "partial",
   "theorems": [
    "Verif.C37_manifest_lines",
    "Verif.C37_manifest_correct",
    "Verif.C37_negation"
   ],
   "note": "Manifest text exactly, and correctness of the lines when the source's hashes are right. Negation: a re-split head bag keeps the hash of its replaced member list."
  },
  {
   "property": "C38",
   "status": "proved",
   "theorems": [
    "Verif.C38_oxum"
   ],
   "note": "Payload-Oxum of each output bag against its own data directory, for sources that have one."
  },
  {
   "property": "C39",
   "status": "proved",
   "theorems": [
    "Verif.C39_head_index"
   ],
   "note": "Through the readers of the output head bag, for names and paths the tag files can hold."
  },
  {
   "property": "C40",
   "status": "proved",
   "theorems": [
    "Verif.C40_written",
    "Verif.C40_version",
    "Verif.C40_head_marks",
    "Verif.C40_multibag_dropped",
    "Verif.C40_renamed",
    "Verif.C40_identifiers",
    "Verif.C40_passed_on",
    "Verif.C40_nopass",
    "Verif.C40_group"
   ],
   "note": "One theorem per rule; C40_written ties them to the file on disk."
  },
  {
   "property": "C41",
   "status": "partial",
   "theorems": [
    "Verif.C41_copy_source_unchanged",
    "Verif.C41_link_source_unchanged_partial",
    "Verif.C41_link_succeeds_partial",
    "Verif.C41_negation"
   ],
   "note": "Copying: proved. Hard links: proved when the head takes over no multibag tag file; negation otherwise (source overwritten in place)."
  },
  {
   "property": "C42",
   "status": "partial",
   "theorems": [
    "Verif.C42_aggregation_info_partial",
    "Verif.C42_negation"
   ],
   "note": "Equal up to byte order mark or line ends; negation for carriage returns."
  },
  {
   "property": "C43",
   "status": "proved",
   "theorems": [
    "Verif.C43_resplit",
    "Verif.C43_succeeds"
   ],
   "note": "Member names and lookup; URIs and comments of old members are not kept by the code."
  },
  {
   "property": "C44",
   "status": "proved",
   "theorems": [
    "Verif.C44_overlay",
    "Verif.C44_directories"
   ],
   "note": "Files and directories of the restored bag are the overlay of the member bags in order, for every path the restore does not itself write."
  },
  {
   "property": "C45",
   "status": "partial",
   "theorems": [
    "Verif.C45_absent_partial",
    "Verif.C45_not_added",
    "Verif.C45_negation"
   ],
   "note": "Proved for a destination other than the head bag and paths that are not the restored tag files; restoring in place keeps the deleted files the head bag holds (negation)."
  },
  {
   "property": "C46",
   "status": "proved",
   "theorems": [
    "Verif.C46_keeps",
    "Verif.C46_adds",
    "Verif.C46_copies",
    "Verif.C46_overwrites"
   ],
   "note": "Restoring one member without overwrite: existing files unchanged, exactly the absent unskipped files added; also the overwriting form."
  },
  {
   "property": "C47",
   "status": "partial",
   "theorems": [
    "Verif.C47_checksums_partial",
    "Verif.C47_negation",
    "Verif.C47_fetch_negation"
   ],
   "note": "Proved for payload files when all members have the same checksum algorithms and plain manifest lines; negations: differing algorithm sets raise KeyError, entries of files only listed in fetch.txt are lost."
  },
  {
   "property": "C48",
   "status": "partial",
   "theorems": [
    "Verif.C48_merge",
    "Verif.C48_fetch_partial",
    "Verif.C48_negation_first",
    "Verif.C48_negation_head",
    "Verif.C48_negation_deleted",
    "Verif.C48_negation_space",
    "Verif.C48_negation_newline"
   ],
   "note": "The exact rule the code follows is proved (C48_merge); it agrees with the specification when the lists do not overlap. Negations: first bag wins instead of last, head list lost, deleted entries kept."
  },
  {
   "property": "C49",
   "status": "partial",
   "theorems": [
    "Verif.C49_info_partial",
    "Verif.C49_negation",
    "Verif.C49_values_partial"
   ],
   "note": "Proved when the head bag has an aggregation-info file; without it nothing is merged (negation)."
  },
  {
   "property": "C50",
   "status": "proved",
   "theorems": [
    "Verif.C50_oxum",
    "Verif.C50_validates"
   ],
   "note": "The recorded Payload-Oxum is that of the restored payload and passes the Oxum validation."
  },
  {
   "property": "C51",
   "status": "partial",
   "theorems": [
    "Verif.C51_roundtrip_partial",
    "Verif.C51_negation_fetch"
   ],
   "note": "Every file and directory other than the bag metadata, manifests, fetch list and multibag directory is reproduced whenever the restore succeeds; C85 shows when it does. The fetch list is lost (negation)."
  },
  {
   "property": "C52",
   "status": "partial",
   "theorems": [
    "Verif.C52_negation",
    "Verif.C52_fitting_negation"
   ],
   "note": "False of the code: with another tag directory and rm_multibag the restore always fails."
  },
  {
   "property": "C53",
   "status": "partial",
   "theorems": [
    "Verif.C53_files_partial",
    "Verif.C53_negation",
    "Verif.C53_stopped",
    "Verif.C53_rerun_partial",
    "Verif.C53_negation_torn",
    "Verif.C53_negation_bagit"
   ],
   "note": "C53_stopped says what is left after a stop at any point, also within a file. C53_files_partial, C53_rerun_partial: a rerun gives the same files, except one copied in part. Manifests: C53_negation; the file copied in part: C53_negation_torn; a rerun may fail: C53_negation_bagit."
  },
  {
   "property": "C54",
   "status": "proved",
   "theorems": [
    "Verif.C54_members_of_head",
    "Verif.C54_members_of_single",
    "Verif.C54_each_once"
   ],
   "note": "Proved for amendments of head bags and of traditional bags: the re-opened new head lists the old members, the amending bags and the new head, each once, the new head last.  A bag named more than once stands at its last place."
  },
  {
   "property": "C55",
   "status": "proved",
   "theorems": [
    "Verif.C55_lookup_of_head",
    "Verif.C55_lookup_of_single"
   ],
   "note": "Proved for the default selection (payload files of every bag): last bag having the path wins, otherwise the old entry.  If a bag of the old aggregation is added again, paths it no longer has are looked up to no bag."
  },
  {
   "property": "C56",
   "status": "partial",
   "theorems": [
    "Verif.C56_deprecates",
    "Verif.C56_negation_repeated",
    "Verif.C56_on_disk"
   ],
   "note": "Proved for head versions given once (or not at all), in memory and for the metadata read back from disk.  False for a repeated Multibag-Head-Version: the text of a Python list is deprecated (C56_negation_repeated)."
  },
  {
   "property": "C57",
   "status": "partial",
   "theorems": [
    "Verif.C57_negation",
    "Verif.C57_own_deletions_partial"
   ],
   "note": "False of the code: deleted.txt of the old head is not carried over (C57_negation).  What holds: the new head keeps exactly its own deletions (C57_own_deletions_partial)."
  },
  {
   "property": "C58",
   "status": "partial",
   "theorems": [
    "Verif.C58_only_member",
    "Verif.C58_lookup",
    "Verif.C58_metadata",
    "Verif.C58_on_disk",
    "Verif.C58_touches",
    "Verif.C58_no_payload",
    "Verif.C58_negation_slash",
    "Verif.C58_negation_old_profile"
   ],
   "note": "Proved for bags without multibag metadata or with profile 0.3 and later, given by a path without a slash at its end.  False with such a slash (the member is called by the empty name) and for bags of older profiles (the old lookup is taken over).  A bag without payload gets no lookup file (C58_no_payload)."
  },
  {
   "property": "C59",
   "status": "partial",
   "theorems": [
    "Verif.C59_negation_old_profile",
    "Verif.C59_readable_partial"
   ],
   "note": "Proved for kept profile versions 0.3 and later.  False before 0.3: the amendment succeeds but the new head lists no members (C59_negation_old_profile)."
  },
  {
   "property": "C60",
   "status": "proved",
   "theorems": [
    "Verif.C60_applied",
    "Verif.C60_records",
    "Verif.C60_partition",
    "Verif.C60_ok"
   ],
   "note": "Proved for every sequence of recorded checks and every type mask. Recording a check of an unknown type is shown to be ignored."
  },
  {
   "property": "C61",
   "status": "proved",
   "theorems": [
    "Verif.C61_head",
    "Verif.C61_member"
   ],
   "note": "Proved for the head and the member validator, with the exceptions validate itself raises listed separately."
  },
  {
   "property": "C62",
   "status": "partial",
   "theorems": [
    "Verif.C62_negation_dropped",
    "Verif.C62_into_results_partial",
    "Verif.C62_verdict"
   ],
   "note": "The full claim is false: with no results object supplied the member validator drops the name and non-head checks (negation proved). _partial: when the caller supplies the results object all checks are recorded. Whether Bag.validate() of the underlying bag succeeds is a parameter."
  },
  {
   "property": "C63",
   "status": "partial",
   "theorems": [
    "Verif.C63_raises_exactly",
    "Verif.C63_negation_nonhead",
    "Verif.C63_returns_partial",
    "Verif.C63_version"
   ],
   "note": "False: a bag without Multibag-Head-Version raises AssertionError (negation proved). C63_raises_exactly lists every case in which validation raises; _partial: it returns results in all other cases."
  },
  {
   "property": "C64",
   "status": "partial",
   "theorems": [
    "Verif.C64_accepts_exactly_partial",
    "Verif.C64_negation_rejected",
    "Verif.C64_reference"
   ],
   "note": "False: the test is inverted, a URI with scheme and host is rejected (negation proved). _partial: what is accepted exactly, namely a URI with a scheme and no host. C64_reference: the Multibag-Reference check is not inverted."
  },
  {
   "property": "C65",
   "status": "partial",
   "theorems": [
    "Verif.C65_negation_any_version",
    "Verif.C65_negation_repeated",
    "Verif.C65_missing_partial",
    "Verif.C65_given_version"
   ],
   "note": "False: any single non-empty version string is accepted and a repeated known version is reported (negations proved). _partial: a missing or empty version is reported; C65_given_version: exactly what happens otherwise."
  },
  {
   "property": "C66",
   "status": "partial",
   "theorems": [
    "Verif.C66_lines",
    "Verif.C66_lookup_lines",
    "Verif.C66_members_partial",
    "Verif.C66_lookup_partial",
    "Verif.C66_negation_unlisted"
   ],
   "note": "False as to unlisted bags: a lookup naming a bag not in the member list passes (negation proved). _partial: the member and lookup checks pass exactly when the stated conditions on rows hold. C66_lines, C66_lookup_lines: the lines of the member and lookup lists that the checks name."
  },
  {
   "property": "C67",
   "status": "partial",
   "theorems": [
    "Verif.C67_used_path_partial",
    "Verif.C67_inside_accepted",
    "Verif.C67_queries_partial",
    "Verif.C67_sizeof_partial",
    "Verif.C67_negation"
   ],
   "note": "Negated by C67_negation: a directory beside the bag whose name starts with the bag's name is reachable. The partial theorems say that this is the only escape, and that without such a directory the queries answer exactly for what lies inside. Absolute bag locations only; symbolic links not modelled."
  },
  {
   "property": "C68",
   "status": "partial",
   "theorems": [
    "Verif.C68_accepted_iff_partial",
    "Verif.C68_escape_rejected_partial",
    "Verif.C68_inside_accepted_partial",
    "Verif.C68_negation"
   ],
   "note": "Negated by C68_negation in both directions (lookalike sibling accepted, '$' or '~' names rejected). C68_accepted_iff_partial says exactly what is accepted."
  },
  {
   "property": "C69",
   "status": "proved",
   "theorems": [
    "Verif.C69_relpath",
    "Verif.C69_injective"
   ],
   "note": "Proved for clean relative paths."
  },
  {
   "property": "C70",
   "status": "proved",
   "theorems": [
    "Verif.C70_loads",
    "Verif.C70_accepts",
    "Verif.C70_error",
    "Verif.C70_plain_line"
   ],
   "note": "C70_loads, C70_accepts (exact acceptance condition), C70_error, C70_plain_line. Text is taken as decoded; Lists uses the model's normpath and decodeFilename (the latter from the external bagit package)."
  },
  {
   "property": "C71",
   "status": "proved",
   "theorems": [
    "Verif.C71_checksums"
   ],
   "note": "Exact characterization over the manifests' lines. The checksum function is a parameter. Unicode normalization of file names is not modelled."
  },
  {
   "property": "C72",
   "status": "proved",
   "theorems": [
    "Verif.C72_oxum",
    "Verif.C72_written"
   ],
   "note": "Exact characterization over the payload in the tree, and for the decimal form written by the code."
  },
  {
   "property": "C73",
   "status": "proved",
   "theorems": [
    "Verif.C73_metadata_file",
    "Verif.C73_rejects"
   ],
   "note": "C73_metadata_file and C73_rejects over openBag."
  },
  {
   "property": "C74",
   "status": "proved",
   "theorems": [
    "Verif.C74_replicate_only",
    "Verif.C74_unchanged"
   ],
   "note": "save fails; replicate changes only the destination; any sequence of operations leaves the bag as it is. Directories left by a failing replicate are not modelled."
  },
  {
   "property": "C75",
   "status": "proved",
   "theorems": [
    "Verif.C75_fetch",
    "Verif.C75_unique",
    "Verif.C75_none"
   ],
   "note": "Exact: what is yielded, in order, and why the iteration ends."
  },
  {
   "property": "C76",
   "status": "proved",
   "theorems": [
    "Verif.C76_uniform",
    "Verif.C76_uniform_rounded",
    "Verif.C76_uniform_raises",
    "Verif.C76_inventory",
    "Verif.C76_create_file",
    "Verif.C76_fill_limits",
    "Verif.C76_dataset",
    "Verif.C76_dataset_total"
   ],
   "note": "Uniform and inventory iterators, file creation (for any function with the bounds of the rounded-down natural logarithm, sizes below 2^98), filling a directory, and mkdataset with the default plan. The float quotient is computed exactly in C76_uniform; C76_uniform_rounded says what holds for any computed quotient. Plans with several file sets or directories are not modelled. That the random search for a free name ends is not claimed."
  },
  {
   "property": "C77",
   "status": "proved",
   "theorems": [
    "Verif.C77_last_value",
    "Verif.C77_fields_roundtrip"
   ],
   "note": "loadTags models bagit's loading of bag-info.txt."
  },
  {
   "property": "C78",
   "status": "proved",
   "theorems": [
    "Verif.C78_amend_touches"
   ],
   "note": "Proved for every path."
  },
  {
   "property": "C79",
   "status": "proved",
   "theorems": [
    "Verif.C79_errors",
    "Verif.C79_problems",
    "Verif.C79_all"
   ],
   "note": "Equivalences for both masks. The verdict of Bag.validate() and urllib's host syntax check are parameters."
  },
  {
   "property": "C80",
   "status": "proved",
   "theorems": [
    "Verif.C80_valid_iff"
   ],
   "note": "The driver bag.validate() is that of the external bagit package (version 1.7), recalled from the published source, over the overrides in access/bagit.py. Checksums are a parameter; whether a URL's host is acceptable is a parameter."
  },
  {
   "property": "C81",
   "status": "partial",
   "theorems": [
    "Verif.C81_split_valid_partial",
    "Verif.C81_negation_linebreak",
    "Verif.C81_negation_old_version",
    "Verif.C81_negation_fetch",
    "Verif.C81_negation_head",
    "Verif.C81_negation_twice"
   ],
   "note": "C81_split_valid_partial: for sources of BagIt 0.96 and later, plans of distinct plain paths (no line breaks, no percent sign, no outer whitespace, no leading star), without fetch.txt and the head's own tag files, and with one-line names. Each exclusion that hides a defect has a negation: names with line breaks, BagIt 0.93-0.95, fetch.txt, splitting a head bag again, a file listed twice. Output places must not make the safety test fail (C67)."
  },
  {
   "property": "C82",
   "status": "proved",
   "theorems": [
    "Verif.C82_rewrite",
    "Verif.C82_unchanged",
    "Verif.C82_lossy"
   ],
   "note": "C82_lossy shows that a value of three lines does change."
  },
  {
   "property": "C83",
   "status": "proved",
   "theorems": [
    "Verif.C83_restore_succeeds"
   ],
   "note": "Manifests have to be tidy: each path listed once, payload files in payload manifests, other files in tag manifests, paths that can be written to a manifest and read back. C47_negation shows that bags with different algorithms cannot be restored, C52_fitting_negation that another tag directory cannot be removed."
  },
  {
   "property": "C84",
   "status": "partial",
   "theorems": [
    "Verif.C84_restored_valid_partial",
    "Verif.C84_stale_negation",
    "Verif.C84_deleted_negation"
   ],
   "note": "C84_restored_valid_partial: member bags are valid, fit together as for C83 and have no fetch.txt; the head bag contains none of the files it lists as deleted; sizes are updated. C84_stale_negation and C84_deleted_negation show that restoring without updates and a head bag with a deleted file of its own give invalid bags; C47_fetch_negation that checksums of files to fetch are lost."
  },
  {
   "property": "C85",
   "status": "proved",
   "theorems": [
    "Verif.C85_split_restored",
    "Verif.C85_every_split"
   ],
   "note": "C85_split_restored for any complete plan that is applied, C85_every_split for every splitter with default names, where applying the plan is shown to succeed as well. The source (SplitSource) is valid, has no fetch.txt and no multibag directory, is no head bag, and its manifests list each path once in plain form; paths have no line breaks, tabs, percent signs, dollar signs or outer whitespace. Negations for the excluded cases are with C24, C47, C51, C67 and C81. Sizes are updated."
  },
  {
   "property": "C86",
   "status": "partial",
   "theorems": [
    "Verif.C86_head_conforms",
    "Verif.C86_negation_empty_identifier"
   ],
   "note": "C86_head_conforms: names and planned paths have no tabs, line breaks or outer whitespace, the head version is not empty, deprecations are in the right form and name neither this version nor this bag, and External-Identifier and Bag-Group-Identifier of the source, if any, are not empty; a source that is a head bag is covered if its own lists are clean. The source needs a bag-info.txt (C67). Negation: an empty External-Identifier in the source next to a Bag-Group-Identifier gives an error."
  },
  {
   "property": "C87",
   "status": "partial",
   "theorems": [
    "Verif.C87_member_checked_partial",
    "Verif.C87_negation_tag_directory"
   ],
   "note": "C87_member_checked_partial: no errors and no unmet recommendations, but the warning 2-Tag-Directory is always reported when the results are collected, as every bag of a split names a tag directory. Without a results object the check is dropped (C62)."
  },
  {
   "property": "C88",
   "status": "partial",
   "theorems": [
    "Verif.C88_shallowest",
    "Verif.C88_rejected",
    "Verif.C88_archive_same",
    "Verif.C88_bag_at_root",
    "Verif.C88_other_file",
    "Verif.C88_is_headbag",
    "Verif.C88_negation_trailing_slash"
   ],
   "note": "Partial: C88_archive_same, C88_shallowest and C88_rejected are as stated. The name is wrong for a directory given with a trailing slash (C88_negation_trailing_slash), and an archive whose bag is at its root is rejected (C88_bag_at_root)."
  },
  {
   "property": "C89",
   "status": "partial",
   "theorems": [
    "Verif.C89_as_headbag",
    "Verif.C89_rejected",
    "Verif.C89_as_extended",
    "Verif.C89_idempotent",
    "Verif.C89_open_headbag",
    "Verif.C89_negation_readonly"
   ],
   "note": "Partial: C89_negation_readonly shows that readonly=True has no effect on an object with the methods for updating; the rest is proved."
  },
  {
   "property": "C90",
   "status": "partial",
   "theorems": [
    "Verif.C90_local",
    "Verif.C90_readonly",
    "Verif.C90_readonly_above",
    "Verif.C90_rejected",
    "Verif.C90_readonly_inside",
    "Verif.C90_negation_absolute",
    "Verif.C90_negation_outside",
    "Verif.C90_negation_trailing"
   ],
   "note": "Partial: C90_local, C90_readonly, C90_rejected hold for starts given by their bag path, and read-only bags never list anything outside (C90_readonly_inside). Local bags accept absolute starts (C90_negation_absolute) and leave the bag with .. (C90_negation_outside); read-only bags double the slash for a start with a trailing slash (C90_negation_trailing)."
  },
  {
   "property": "C91",
   "status": "proved",
   "theorems": [
    "Verif.C91_local",
    "Verif.C91_readonly",
    "Verif.C91_update"
   ],
   "note": "Proved for both kinds of bags."
  },
  {
   "property": "C92",
   "status": "partial",
   "theorems": [
    "Verif.C92_close",
    "Verif.C92_exact",
    "Verif.C92_number_partial",
    "Verif.C92_negation_unit"
   ],
   "note": "Partial: the number can be 1000, e.g. 999999 bytes are 1000 kB (C92_negation_unit); C92_number_partial proves at most 1000. C92_close and C92_exact are as stated. Floating point rounding is not modelled: fractions are exact and round is any rounding to the nearest."
  },
  {
   "property": "C93",
   "status": "partial",
   "theorems": [
    "Verif.C93_update_info",
    "Verif.C93_converted",
    "Verif.C93_amended",
    "Verif.C93_negation_names",
    "Verif.C93_update_info_succeeds"
   ],
   "note": "Full for names that can be listed in a manifest; C93_negation_names shows the code breaks bags that contain other tag files."
  },
  {
   "property": "C94",
   "status": "proved",
   "theorems": [
    "Verif.C94_names",
    "Verif.C94_files_in_member",
    "Verif.C94_asking"
   ],
   "note": "Proved for all histories."
  },
  {
   "property": "C95",
   "status": "partial",
   "theorems": [
    "Verif.C95_answers",
    "Verif.C95_members_partial",
    "Verif.C95_lookup_partial",
    "Verif.C95_deleted",
    "Verif.C95_negation"
   ],
   "note": "False where the bag has no saved list: the unsaved members and lookups come back with the next query (C95_negation). Proved where the tag file can be read (_partial), and always for deletions and for the answer of the call itself."
  },
  {
   "property": "C96",
   "status": "partial",
   "theorems": [
    "Verif.C96_converted",
    "Verif.C96_amended",
    "Verif.C96_negation_url",
    "Verif.C96_negation_no_payload",
    "Verif.C96_negation_comment",
    "Verif.C96_negation_same_version"
   ],
   "note": "Full statement with its provisos is proved for both operations; C96_negation_url, C96_negation_no_payload, C96_negation_comment and C96_negation_same_version show that the provisos are needed."
  },
  {
   "property": "C97",
   "status": "partial",
   "theorems": [
    "Verif.C97_restores",
    "Verif.C97_setup",
    "Verif.C97_accepts",
    "Verif.C97_finds_partial",
    "Verif.C97_determined_partial",
    "Verif.C97_gets_partial",
    "Verif.C97_creates_partial",
    "Verif.C97_restores_partial",
    "Verif.C97_negation_outside",
    "Verif.C97_negation_two_archives",
    "Verif.C97_negation_cache"
   ],
   "note": "For member names that are plain file names. False for names with a slash (taken from outside the directory), for bags with two archives (depends on the order of a set), and a component directory beside the destination can be created; see the negations. C97_restores covers members as directories or archives; fetched members are C111."
  },
  {
   "property": "C98",
   "status": "partial",
   "theorems": [
    "Verif.C98_head",
    "Verif.C98_converted",
    "Verif.C98_amended",
    "Verif.C98_restored_partial",
    "Verif.C98_negation_restored"
   ],
   "note": "C98_head, C98_converted and C98_amended prove the claim for head bags; for restored bags the value also counts the filesystem's sizes of directories, so the claim is refuted there (C98_negation_restored) and the bound is proved for files and directories together (C98_restored_partial)"
  },
  {
   "property": "C99",
   "status": "partial",
   "theorems": [
    "Verif.C99_restored_partial",
    "Verif.C99_single",
    "Verif.C99_negation_deleted"
   ],
   "note": "C99_restored_partial is for paths that neither head bag declares deleted; C99_negation_deleted shows that a file deleted by the old head bag comes back."
  },
  {
   "property": "C100",
   "status": "partial",
   "theorems": [
    "Verif.C100_failed",
    "Verif.C100_stopped",
    "Verif.C100_link_stopped_partial",
    "Verif.C100_negation_rerun",
    "Verif.C100_negation_head"
   ],
   "note": "C100_link_stopped_partial has the hypothesis of C41 (the head bag takes over no multibag tag file of the source). One operation is one step: a write that is torn changes only the unfinished bag, about which nothing is claimed."
  },
  {
   "property": "C101",
   "status": "partial",
   "theorems": [
    "Verif.C101_amend_stopped",
    "Verif.C101_negation_baginfo",
    "Verif.C101_convert_files",
    "Verif.C101_convert_stopped_partial",
    "Verif.C101_negation_convert"
   ],
   "note": "C101_convert_stopped_partial leaves out bags without a profile version, for which C101_negation_convert shows the claim to be false. Writes to different files are assumed not to be reordered by the operating system."
  },
  {
   "property": "C102",
   "status": "partial",
   "theorems": [
    "Verif.C102_all_told",
    "Verif.C102_wanted_told_partial",
    "Verif.C102_number",
    "Verif.C102_number_read",
    "Verif.C102_including",
    "Verif.C102_passed",
    "Verif.C102_negation_number",
    "Verif.C102_negation_unwanted"
   ],
   "note": "C102_wanted_told_partial is for the masks ERROR, PROB and ALL; C102_negation_unwanted shows the claim false for REC, C102_negation_number that the number given includes tests not asked for."
  },
  {
   "property": "C103",
   "status": "partial",
   "theorems": [
    "Verif.C103_there_partial",
    "Verif.C103_touches",
    "Verif.C103_default",
    "Verif.C103_negation_nested",
    "Verif.C103_negation_default"
   ],
   "note": "C103_there_partial is about conversions that succeed; C103_negation_nested shows that a nested directory fails half way, C103_negation_default that asking for 'multibag' is ignored if the bag names another directory."
  },
  {
   "property": "C104",
   "status": "partial",
   "theorems": [
    "Verif.C104_supplied",
    "Verif.C104_negation_in_place"
   ],
   "note": "C104_supplied is about destinations other than the head bag; C104_negation_in_place is the other case."
  },
  {
   "property": "C105",
   "status": "partial",
   "theorems": [
    "Verif.C105_kept",
    "Verif.C105_new",
    "Verif.C105_inside",
    "Verif.C105_made",
    "Verif.C105_succeeds",
    "Verif.C105_in_use",
    "Verif.C105_negation_outside",
    "Verif.C105_negation_in_source"
   ],
   "note": "Copying only; what hard links change is C41."
  },
  {
   "property": "C106",
   "status": "partial",
   "theorems": [
    "Verif.C106_stem",
    "Verif.C106_split",
    "Verif.C106_kept",
    "Verif.C106_new",
    "Verif.C106_in_use",
    "Verif.C106_distinct",
    "Verif.C106_two",
    "Verif.C106_negation_base",
    "Verif.C106_negation_slash"
   ],
   "note": "For one call of Splitter.split on an ordinary bag."
  },
  {
   "property": "C107",
   "status": "proved",
   "theorems": [
    "Verif.C107_outside",
    "Verif.C107_round_trip"
   ],
   "note": "The bag is opened read-only for the split, so the source is copied and not moved; the destination is new; no function to fetch bags."
  },
  {
   "property": "C108",
   "status": "partial",
   "theorems": [
    "Verif.C108_undisturbed",
    "Verif.C108_confined",
    "Verif.C108_together",
    "Verif.C108_as_alone",
    "Verif.C108_kept",
    "Verif.C108_new",
    "Verif.C108_negation_same_names"
   ],
   "note": "File operations of the model are atomic; a query is answered by the file system that the next operation finds. Splits by copying (not hard links)."
  },
  {
   "property": "C109",
   "status": "proved",
   "theorems": [
    "Verif.C109_round_trips",
    "Verif.C109_disk",
    "Verif.C109_next"
   ],
   "note": "For bags whose metadata file is bag-info.txt, with no files to fetch, and with tidy manifests and file names that can be listed (see `PlainBag`)."
  },
  {
   "property": "C110",
   "status": "proved",
   "theorems": [
    "Verif.C110_versions",
    "Verif.C110_members",
    "Verif.C110_lookup",
    "Verif.C110_restored"
   ],
   "note": "Metadata texts of one line, names and paths that the tag files can hold. For the lookup and the contents: bag names used once. An edition's own deletions only; C99_negation_deleted is about the others."
  },
  {
   "property": "C111",
   "status": "partial",
   "theorems": [
    "Verif.C111_same",
    "Verif.C111_local",
    "Verif.C111_negation_kept"
   ],
   "note": "The default place for fetched bags, multibag/_membercache in the destination; the function puts bags there as directories. Bags can be opened alike in both places, and have nothing at multibag/_membercache themselves."
  },
  {
   "property": "C112",
   "status": "partial",
   "theorems": [
    "Verif.C112_neighbors",
    "Verif.C112_negation_apart"
   ],
   "note": "Bags made by the splitter's algorithm; the possible last bag of leftovers is apart, as in C28."
  },
  {
   "property": "C113",
   "status": "partial",
   "theorems": [
    "Verif.C113_in_advance_partial",
    "Verif.C113_negation_next"
   ],
   "note": "For iterators that have a method called next; ordinary Python 3 iterators have none and make apply_iter raise AttributeError (C113_negation_next)."
  },
  {
   "property": "C114",
   "status": "partial",
   "theorems": [
    "Verif.C114_handed",
    "Verif.C114_negation_links"
   ],
   "note": "For splits that copy files, as Splitter.split does. With hard links, which a plan for the path of a bag uses, writing to a file of a bag that was handed over changes the source and later bags (C114_negation_links)."
  },
  {
   "property": "C115",
   "status": "partial",
   "theorems": [
    "Verif.C115_times_partial",
    "Verif.C115_files",
    "Verif.C115_same_tree",
    "Verif.C115_negation_epoch",
    "Verif.C115_negation_unknown"
   ],
   "note": "Not for directories whose time is zero, 1 January 1970, which get the time of the restore (C115_negation_epoch); a source that cannot tell a time makes the restore fail (C115_negation_unknown). For files without condition (C115_files)."
  },
  {
   "property": "C116",
   "status": "partial",
   "theorems": [
    "Verif.C116_by_source",
    "Verif.C116_first_partial",
    "Verif.C116_negation_two",
    "Verif.C116_negation_lost",
    "Verif.C116_negation_blank"
   ],
   "note": "The code takes the source and size for the file name: proved where these identify the file (C116_first_partial); negations show a file listed twice, a file lost, and an error at a blank line. C116_by_source says what is collected in general."
  },
  {
   "property": "C117",
   "status": "proved",
   "theorems": [
    "Verif.C117_split_fetched"
   ],
   "note": "The head bag is a directory whose name is kept; the destination is new and not inside it. What a function for fetching is expected to do is Spec.Delivers."
  },
  {
   "property": "C118",
   "status": "partial",
   "theorems": [
    "Verif.C118_prefix_partial",
    "Verif.C118_detected",
    "Verif.C118_negation_truncated",
    "Verif.C118_negation_no_bagit"
   ],
   "note": "False of the code. Proved: what can go wrong and nothing else (C118_prefix_partial); that validating an output bag tells whether payload files are complete (C118_detected). Writing a file in other ways than with replicate, and creating directories, does not fail in this model."
  },
  {
   "property": "C119",
   "status": "proved",
   "theorems": [
    "Verif.C119_same",
    "Verif.C119_again",
    "Verif.C119_local"
   ],
   "note": "The directory exists and is outside the destination; several archives of one bag in it are not covered, since it is not specified which one is taken."
  },
  {
   "property": "C120",
   "status": "partial",
   "theorems": [
    "Verif.C120_undisturbed",
    "Verif.C120_confined",
    "Verif.C120_together",
    "Verif.C120_kept",
    "Verif.C120_ends",
    "Verif.C120_alone",
    "Verif.C120_negation_same"
   ],
   "note": "The destination is given, the directory it is in exists and the place where member bags are looked for is not in it. Reading a file, listing a directory, and copying one file are one operation each; the head bag is opened in one."
  },
  {
   "property": "C121",
   "status": "proved",
   "theorems": [
    "Verif.C121_restores",
    "Verif.C121_splits",
    "Verif.C121_kept",
    "Verif.C121_every_order",
    "Verif.C121_split_ends",
    "Verif.C121_restore_ends"
   ],
   "note": "The conditions of C108 for the splits and of C120 for the restores, and that the archives hold well-formed directories. Reading a file, listing a directory and copying one file are one operation each."
  },
  {
   "property": "C122",
   "status": "partial",
   "theorems": [
    "Verif.C122_members",
    "Verif.C122_lookup",
    "Verif.C122_deleted",
    "Verif.C122_isolated",
    "Verif.C122_add_member",
    "Verif.C122_add_lookup",
    "Verif.C122_negation_merge"
   ],
   "note": "Calls take place one at a time; `update_info` is not among them. `C122_negation_merge`: two objects each add a member and save; the first's is lost without an error."
  },
  {
   "property": "C123",
   "status": "partial",
   "theorems": [
    "Verif.C123_values",
    "Verif.C123_outcomes",
    "Verif.C123_returned",
    "Verif.C123_same_list",
    "Verif.C123_edit",
    "Verif.C123_let_go",
    "Verif.C123_let_go_object",
    "Verif.C123_lets_go",
    "Verif.C123_loop",
    "Verif.C123_loop_ends",
    "Verif.C123_loop_other",
    "Verif.C123_negation_ends",
    "Verif.C123_negation_own",
    "Verif.C123_negation_remove_all"
   ],
   "note": "The records in the lists are values. `C123_negation_own`, `C123_negation_remove_all`, `C123_negation_ends` for what a caller may expect and is not so."
  },
  {
   "property": "C124",
   "status": "partial",
   "theorems": [
    "Verif.C124_inventories",
    "Verif.C124_set_limits",
    "Verif.C124_adds",
    "Verif.C124_exact_partial",
    "Verif.C124_default",
    "Verif.C124_plain",
    "Verif.C124_nothing",
    "Verif.C124_refused",
    "Verif.C124_types",
    "Verif.C124_repeatable",
    "Verif.C124_ends",
    "Verif.C124_ends_partial",
    "Verif.C124_negation_more",
    "Verif.C124_negation_runtimeError",
    "Verif.C124_negation_zeroDivision",
    "Verif.C124_negation_less",
    "Verif.C124_negation_reps",
    "Verif.C124_negation_claim",
    "Verif.C124_negation_ends"
   ],
   "note": "Exact for plans that suit the totals; the negations are plans that do not, for which more or less is made or an exception is raised. The quotient of line 380 is exact and sizes are below 2^98. C124_inventories covers lists of inventories that have all the bytes asked for or more; C124_set_limits bounds one pass over a set by the totals of the set."
  },
  {
   "property": "C125",
   "status": "partial",
   "theorems": [
    "Verif.C125_utf8",
    "Verif.C125_utf8_codec",
    "Verif.C125_ascii",
    "Verif.C125_latin1",
    "Verif.C125_latin1_exact",
    "Verif.C125_split_partial",
    "Verif.C125_negation_split",
    "Verif.C125_head",
    "Verif.C125_negation_head",
    "Verif.C125_negation_metadata"
   ],
   "note": "Valid for UTF-8, and for ASCII texts in encodings that have ASCII as a part; the negations are about ISO-8859-1 and texts outside ASCII. Restores are covered only by `C125_utf8` and `C125_ascii`."
  },
  {
   "property": "C126",
   "status": "partial",
   "theorems": [
    "Verif.C126_inside_partial",
    "Verif.C126_downwards_partial",
    "Verif.C126_where",
    "Verif.C126_negation_absolute",
    "Verif.C126_negation_sibling",
    "Verif.C126_same"
   ],
   "note": "Proved for tag directories that lead into the bag; negations for absolute paths and `../name`. Symbolic links are not modelled; directories made before `os.renames` fails are not kept."
  },
  {
   "property": "C127",
   "status": "partial",
   "theorems": [
    "Verif.C127_fresh_partial",
    "Verif.C127_copies_partial",
    "Verif.C127_delivers_partial",
    "Verif.C127_missing",
    "Verif.C127_directory",
    "Verif.C127_negation_links",
    "Verif.C127_negation_logger",
    "Verif.C127_negation_silent",
    "Verif.C127_negation_directory"
   ],
   "note": "Proved for free places or without hard links; negations for links, loggers and for files and directories in the way. Paths are lists of components without `..`; symbolic links, and a read-only bag's file copied onto itself, are not modelled; directories made before an error are not kept."
  },
  {
   "property": "C128",
   "status": "partial",
   "theorems": [
    "Verif.C128_confined_partial",
    "Verif.C128_follows",
    "Verif.C128_refused",
    "Verif.C128_negation_outside",
    "Verif.C128_negation_absolute",
    "Verif.C128_plain",
    "Verif.C128_negation_not_delivered"
   ],
   "note": "C128_confined_partial: strings without `..`, no files with two names. C128_follows says where files are put for all strings that can be followed; C128_plain reduces plain paths to C127. Negations for `..`, absolute paths, trailing slashes and directories that are not there. Directories are given as absolute paths; read-only bags are left to PyFilesystem, which rejects `..` beyond the root."
  },
  {
   "property": "C129",
   "status": "partial",
   "theorems": [
    "Verif.C129_elsewhere",
    "Verif.C129_again",
    "Verif.C129_moments",
    "Verif.C129_members_left_partial",
    "Verif.C129_lookup_left_partial",
    "Verif.C129_deleted_left_partial",
    "Verif.C129_negation_lost",
    "Verif.C129_negation_wrong"
   ],
   "note": "C129_elsewhere, C129_again and C129_moments hold for all bags. C129_members_left_partial, C129_lookup_left_partial, C129_deleted_left_partial: what a new object finds, for entries that fit into the format. Negations: the list is lost at some moment of every save of members; wrong members, bags and deletions can be found."
  },
  {
   "property": "C130",
   "status": "partial",
   "theorems": [
    "Verif.C130_followed",
    "Verif.C130_required",
    "Verif.C130_complete_partial",
    "Verif.C130_inside_partial",
    "Verif.C130_size",
    "Verif.C130_sum",
    "Verif.C130_without_links",
    "Verif.C130_negation_lost",
    "Verif.C130_negation_outside"
   ],
   "note": "C130_followed: what a path leads to, against a relation that follows one component or link at a time. C130_required: exactly which paths a plan needs, for every disk. C130_complete_partial: nothing is missing if no link leads to a directory. C130_inside_partial: nothing outside is reported if link targets are relative without `..`. C130_size: the size is found exactly if no link is broken. C130_without_links: agrees with the model without links. Negations: C130_negation_lost, C130_negation_outside."
  },
  {
   "property": "C131",
   "status": "partial",
   "theorems": [
    "Verif.C131_confined_partial",
    "Verif.C131_delivered_partial",
    "Verif.C131_directories_partial",
    "Verif.C131_negation_outside",
    "Verif.C131_negation_absolute",
    "Verif.C131_negation_twice"
   ],
   "note": "C131_confined_partial: nothing outside the output bag changes. C131_delivered_partial: what is recorded is what leads to files of the source, and it is delivered. C131_directories_partial: directories are made. Negations: C131_negation_outside, C131_negation_absolute, C131_negation_twice."
  },
  {
   "property": "C132",
   "status": "partial",
   "theorems": [
    "Verif.C132_bagit_partial",
    "Verif.C132_kept_partial",
    "Verif.C132_where_partial",
    "Verif.C132_delivered_partial",
    "Verif.C132_taken",
    "Verif.C132_distinct_partial",
    "Verif.C132_negation_nested",
    "Verif.C132_negation_outside",
    "Verif.C132_negation_own",
    "Verif.C132_texts_partial"
   ],
   "note": "C132_kept_partial: nothing that is there changes. C132_where_partial: where new things are. C132_delivered_partial: the contents arrive and stay. C132_texts_partial: the metadata is written and stays. C132_bagit_partial: every output bag has the bagit.txt of the source. C132_taken: nothing is overwritten. C132_distinct_partial: names are all different. Negations: C132_negation_nested, C132_negation_outside, C132_negation_own."
  },
  {
   "property": "C133",
   "status": "partial",
   "theorems": [
    "Verif.C133_same_members",
    "Verif.C133_same_lookup",
    "Verif.C133_same_deleted_partial",
    "Verif.C133_later_members",
    "Verif.C133_later_lookup",
    "Verif.C133_later_deleted",
    "Verif.C133_alone_members",
    "Verif.C133_alone_lookup",
    "Verif.C133_alone_deleted",
    "Verif.C133_elsewhere",
    "Verif.C133_characters_partial",
    "Verif.C133_no_failure_partial",
    "Verif.C133_negation_mixed",
    "Verif.C133_negation_race",
    "Verif.C133_negation_order",
    "Verif.C133_negation_removed_twice"
   ],
   "note": "C133_same_members, C133_same_lookup: equal lists; C133_same_deleted_partial: equal deleted paths in the same order. C133_later_members, C133_later_lookup, C133_later_deleted: one after the other. C133_alone_members, C133_alone_lookup, C133_alone_deleted: a process alone does what the call does. C133_elsewhere: nothing else changes. C133_characters_partial, C133_no_failure_partial: any lists. Negations: C133_negation_mixed, C133_negation_order, C133_negation_race, C133_negation_removed_twice."
  },
  {
   "property": "C134",
   "status": "partial",
   "theorems": [
    "Verif.C134_again_members_partial",
    "Verif.C134_again_lookup_partial",
    "Verif.C134_again_deleted_partial",
    "Verif.C134_others_members",
    "Verif.C134_others_lookup",
    "Verif.C134_others_deleted",
    "Verif.C134_characters_partial",
    "Verif.C134_negation_short",
    "Verif.C134_negation_short_lookup",
    "Verif.C134_negation_removed",
    "Verif.C134_negation_mixed"
   ],
   "note": "C134_others_members, C134_others_lookup, C134_others_deleted: others save other lists. C134_again_members_partial, C134_again_lookup_partial, C134_again_deleted_partial: the same list is saved again. C134_characters_partial: any lists. Negations: C134_negation_short, C134_negation_short_lookup, C134_negation_removed, C134_negation_mixed."
  },
  {
   "property": "C135",
   "status": "partial",
   "theorems": [
    "Verif.C135_constructed_partial",
    "Verif.C135_again_partial",
    "Verif.C135_tells",
    "Verif.C135_negation_from_tuple"
   ],
   "note": "C135_constructed_partial: the tuple has the arguments. C135_again_partial: made again from the tuple by the constructor. C135_tells: the tuple determines the issue. C135_negation_from_tuple: from_tuple always raises."
  }
 ]
}
