# Formal model of multibag-py in Lean 4

## Approach

Every Python function in scope becomes a small total Lean function that
mirrors its branches; exceptions are values (`Except PyErr`).  Loops become
structural recursion or well-founded recursion, never bounded iteration.
Properties are theorems over all inputs.  Where the code does not have a
property that its user would expect, the code (not the wish) is modelled, the
negation is proved from a concrete witness, and the part that does hold is
proved under the suffix `_partial`.

Layout of `lean/Verif`:

* `Py/`     Python string, list, dict and path primitives (strip, split, line
            iteration, OrderedDict, normpath, ...), with their lemmas
* `Model/`  one file per Python module (cited line by line)
* `Spec/`   small independent specifications used in theorem statements
* `Lemmas/` helper lemmas
* `Props/`  the property theorems, named `Cnn_...`, each followed by an
            `example` showing a concrete non-trivial case of its hypotheses

## Representation

* `str`: `List Char` (all Unicode code points; Lean's `Char` has no surrogates).
* dict/OrderedDict: association list with Python's insertion-order semantics.
* set: duplicate-free list; wherever the iteration order of a set is
  observable, the model takes an arbitrary permutation as a parameter.
* file tree: ordered list of (component path, node), directories before their
  contents, which is the order of a top-down walk.  Where aliasing matters
  (hard links made by a split), an inode level file system is used.
* exceptions: a type of error values; partial effects before an exception are
  kept in the state where the property depends on them.
* checksum functions: an arbitrary function parameter (`hash : alg → content →
  digest`); theorems hold for each.
* `\w` of Python's `re`: an arbitrary predicate parameter on characters.

## Properties

For each property: what is modelled, and how it is proved.  "Negation" means
that the property as a user would state it is false of the code; the negation
is then proved (`Cnn_negation...`), the part that holds is `..._partial`, and
the finding is listed below.

| id | modelled | proof |
|----|----------|-------|
| C01 | `constants.Version` on strings: split, int(), list order | lexicographic order lemmas by induction on field lists |
| C02 | `Version` on strings and tuples, Python list/tuple comparison | negation by witness for all values, partial for same kind |
| C03-C05 | `MemberInfo.format`, `parse_line_03` | round trip by string lemmas; NameError branch: negation |
| C06-C08 | save_*/iter_* text of the three tag files with line iteration | induction over the record list through the line splitter |
| C09,C10,C23 | iter_file_lookup, OrderedDict construction | induction over lines |
| C11 | parse_line_02, parse_group_directory_line, the readers of old tag files | the `' +'` regex split of lines of words, and what an opened head bag of an old profile reports |
| C12-C17 | head bag object: caches and tag files on disk | state machine, invariants over all operation histories; refinement to abstract maps |
| C18,C19 | update_for_member over a walked tree | characterisation of the registered set; negations for the exclude bugs |
| C20-C22 | update_info, multibag_tag_dir, set_multibag_tag_dir | map lemmas; negations for list-valued tag dir |
| C24-C31,C35 | splitters and SplitPlan | loop invariants, well-founded recursion, permutation and sum lemmas |
| C32 | nonstandard() with its regular expressions | matcher modelled; negation by witness, exact characterisation |
| C33,C34 | name_output_bags, find_destination, SimpleNamer | induction over manifests |
| C36-C40,C42,C43 | apply_iter on file trees | induction over manifests and their contents; invariant of the output tree |
| C41 | apply_iter on inodes (hard links) | invariant that no inode reachable from the source is written; negation by witness |
| C44-C46 | BagRestorer on file trees | induction over the reversed member list; equality with forward overlay |
| C47 | restored manifests and tag manifests | per-line characterisation of the merge |
| C48 | restored fetch.txt | exact characterisation of the dictionary; negations |
| C49,C50 | restored bag-info.txt and Payload-Oxum | map lemmas and sums over the restored tree |
| C51 | split followed by restore | composition of C36, C39 and C44 |
| C52 | restore with another tag directory | negation by witness |
| C53 | `Model/RestoreStopped.lean` (`restoreStates`) | `C53_stopped`, `C53_rerun_partial` by following the states; negations by witness |
| C54-C57,C78 | Amender as a program over the head bag model | histories; frame lemmas; negations by witness |
| C58,C59 | SingleMultibagMaker as a program over the head bag model | as C54 |
| C60,C61 | ValidationResults, Validator.is_valid, ensure_valid | induction over recorded checks |
| C62 | MemberBagValidator | unfolding of each check; negation by witness |
| C63-C66,C79 | HeadBagValidator, all of it | each check shown to add a fixed list of issues or to raise; exact conditions; the lines named in comments by an invariant over the lines read (`Props/LinesNamed.lean`, `Props/PlacesNamed.lean`) |
| C67-C69 | normpath, _canon_path, commonprefix, Path | path algebra; negations by witness |
| C70-C75 | read-only BagIt reader | induction over manifest and fetch lines |
| C76 | mkdata size iterators and distribution | integer arithmetic |
| C77 | bag-info values for repeated labels | induction over the tag lines |
| C80 | validate() of the read-only bag, with the parts inherited from bagit | each step shown equivalent to a condition on the tree |
| C81 | composition of split, reader and validation | C36-C40 give the files, C70 reads them back, C80 decides; negations by witness |
| C82 | metadata writer followed by the reader | induction over the lines of a value |
| C83 | restore of member bags with tidy manifests | invariant of the destination (opens, tidy, no clash) kept by every step |
| C84 | restore followed by validation | invariant: listed payload files are there with the recorded checksums |
| C85 | split, restore and validation together | the bags of a split meet the conditions of C83 and C84; every splitter makes a complete plan (C24) |
| C86 | split, reading and head bag validation together | the files and metadata of the last bag meet the exact conditions of C79; negation for an empty identifier |
| C87 | split, reading and member bag validation together | the exact results are computed from the metadata (C40) |
| C88 | Model/OpenBag.lean: `openPlace`, `openAt`; the directories of an archive come in any breadth-first order (PyFilesystem's default) | Props/OpenBag.lean: the first directory of a breadth-first list is a least deep one; `openBag` gives the same on trees with the same files (`openBag_same`); a bag at the root of an archive is not found, and a location with a trailing slash gives an empty name |
| C89 | Model/OpenBag.lean: `BagClass`, `asExtended`, `asHeadbag`, `openHeadbag` | Props/OpenBag.lean: case analysis on the classes |
| C90 | Model/BagWalk.lean: `walkLocal` on a disk that has the bag at some place, `walkReadOnly`; `osResolve` and `fsNorm` follow `..` | Props/BagWalk.lean: `Walked` (Spec/BagWalk.lean) proved of both from `mem_dirsBelow`; negations for absolute starts, `..` and trailing slashes |
| C91 | Model/BagWalk.lean: `calcOxum` over the rows of `walk("data")` | Props/BagWalk.lean: the files listed are a permutation of the payload files (`Walked.files`), so the sums agree; `C72_written` for the check |
| C92 | Model/FormatBytes.lean: `formatBytes`, with exact fractions in place of floating point numbers | Props/FormatBytes.lean: the loops' invariants; an independent reader of such texts in Spec/FormatBytes.lean |
| C93 | Model/Amend.lean (save, update_info, amend, convert), Model/ReadBag.lean and Model/Validate (opening and validating a bag) | The saved tag manifests list exactly the tag files of the final tree (taggedFiles_saved); the payload, its manifests and fetch.txt are the same as before (frames of update_info, convert and amend); then the characterisation C80_valid_iff of validity, in both directions, gives the claim. The example with a tag file ending in a space is the negation. |
| C94 | member_bag_names, files_in_member and the cached queries | the view of the state that all queries report is kept by each of them |
| C95 | the reread argument | cases on what is on disk |
| C96 | `convert`, `amend`, `openBag`, `bagValidate`, `validateHead`: the bag is opened again from the files left by the run, and the validator runs on what was opened | Composition: the bag is valid (C93), the fields read back are those saved (C56/C58), the two tag files read back row by row (C05–C07), and the validator accepts exactly `HeadConforms ∧ HeadTidy` (C79). Negations for each condition that the library does not check. |
| C97 | `Restorer.make`, `createDest`, `find`, `fetch`, `getMember`, `source` on a disk given as a tree; paths are resolved by `abspath` | Path algebra (`leadsTo`), cases on what is on disk; the files restored by C44, from directories or archives (`Spec/RestoreArchives.lean`). False of names with a slash, of two archives of one bag, and of the creation of a directory beside the destination: negations |
| C98 | Model/BagSize: `headBagSize`, `calcBagSize`, `bagSizeText` over `formatBytes`, put for the size text of `HeadBag.updateInfo` and `restore` | Spec/BagSize: `totalBytes`, `SizeAbout`. Saving twice changes only the metadata file's length, as manifests list the same files with checksums of the same length; lengths of the text are bounded by numbers of digits. `C98_restored_partial` counts directories; `C98_negation_restored` |
| C99 | `Model/Amend.lean` (`amend`), `Model/Restore.lean` (`restore`); `Spec/AmendRestored.lean` (`Available`, the head bags before and after) | `C99_restored_partial` and `C99_single` from C44 (overlay) applied before and after, the member list C54 gives for the new head bag and the frame of `amend`; `C99_negation_deleted` on a sample |
| C100 | `Model/Stopped.lean` (`applyStates`: `applyPlan` run on a disk that keeps its earlier states; one step per file operation) | `C100_stopped` by a relation that every operation respects (`Respects`) carried through the program; `C100_link_stopped_partial` by the simulation of copying by linking, lifted to traces; `C100_negation_rerun` for all stopped splits; `C100_negation_head` on a sample |
| C101 | `Model/AmendStopped.lean` (`amendStates`, `HeadBag.convertStates`: the states of the directory, with every torn write) | `C101_amend_stopped`, `C101_convert_files`, `C101_convert_stopped_partial` by splitting the run into stages, each of which keeps everything outside its paths; `C101_negation_convert` and `C101_negation_baginfo` for every successful run |
| C102 | `Model/Report.lean` (`Issue.summary`, `Issue.description`, `Results.message`, `Results.errorStr`) | `C102_all_told`, `C102_number`, `C102_including`, `C102_passed`, `C102_wanted_told_partial` on the order errors, warnings, recommendations; `C102_negation_number`, `C102_negation_unwanted` on samples |
| C103 | `Model/Maker.lean` (`makerOpen`, `makerConvert`) | `C103_there_partial`, `C103_touches`, `C103_default` from C58 with the metadata that opening leaves; `C103_negation_nested`, `C103_negation_default` on samples |
| C104 | `Model/RestoreStopped.lean` (`restoreStates`: the states of the destination during a restore, also of one that fails) | `C104_supplied`: restoring from a bag again changes nothing; `C104_negation_in_place` on a sample |
| C105 | `Model/SplitRun.lean` (`applyRun`: `apply_iter` with the state also when it raises; `diskFS`: its operations on one file system) | an invariant of every operation, kept through the loops (`keeps_applyRun`), for what is kept; a simulation between the file system and the copy model of C36-C42 for what is made |
| C106 | `Model/SplitCall.lean`: `Splitter.split` from paths to disk, on top of `openBag`, `Splitter.plan` and `applyRun diskFS`; `Spec/SplitCall.lean` says what is made in terms of the disk only | `C106_split` (from C105, C24 and C33), `C106_kept`, `C106_new`, `C106_in_use`, `C106_distinct` and `C106_two` (the condition for a split is kept by another split), `C106_stem`; `C106_negation_base`, `C106_negation_slash` |
| C107 | `Model/RestoreCall.lean`: `restore_bag` with paths on a disk, on top of `BagRestorer` (C97), `open_bag` and `restore`; `Model/SplitCall.lean` | composition of C106 (what the split leaves on disk), C97 (what the restorer finds) and C85 (what is restored from it); the destination lies outside the new bags because its parent was there before the split; C107_outside by following the branches |
| C108 | `Model/SplitShared.lean`: the run of C105 where each operation finds a file system of its own (`sharedFS`), what it finds and leaves is logged; `RanTogether`: the operations of all calls in one chain, each call's operations being its run on what they found. `Spec/SplitShared.lean`: what others may do (`Elsewhere`), what an operation may do (`Confined`) | rely/guarantee: the simulation of C105 is stable under what others may do (`shared_simulates`); every operation is confined (`boundKeeps`); a run on arbitrary file systems agrees with an undisturbed one until the first disturbance (`Lemmas/Agree.lean`); induction on the schedule. Samples: two splits that take turns; the negation for equal names |
| C109 | `Spec/RoundTrips.lean`: the bag (`PlainBag`), room on the disk for a round (`Room`), a round as the two calls of C106 and C107 (`SplitAndRestored`), histories of rounds (`Rounds`), what is kept (`SameBag`) | induction on the history; one round is C107 with what else is known of the restored bag (`Remade`: tidy manifests, no multibag tags, fields of the metadata), which makes it plain again. Sample: two rounds with different splitters on one disk |
| C110 | `Spec/Editions.lean`: an edition and its head bag opened again (`Edition`, `Published`), histories (`Editions`), the aggregation at the beginning (`Beginning`, `LookedUp`) | induction on the history; the invariant is what the next amendment reads of the last head bag: metadata it can take over (`Able`), the member list up to repetitions, the lookup table (`Says`). Contents by `restored_overlay` (C44). Sample: two editions of an ordinary bag, both restored |
| C111 | `Model/Fetching.lean`: the restore with a disk on which the bags are fetched into the destination while it is filled. `Spec/Fetching.lean`: what a function for fetching is expected to do (`Delivers`) | simulation: the destination without its `multibag/_membercache`, and up to the directory `multibag`, is at every step that of a restore with the bags at hand (`Alike`, `Fetched`); at the end `multibag` is removed. For the call: what is read of a bag does not depend on where it is. Sample: a fetcher, a call into a new directory, and a restore in place |
| C112 | `nbLoop`, `nbFill`, `selectFromDir`, `dirpathsFor` (`Model/Split.lean`). `Spec/Neighbors.lean`: files of a directory together (`Together`), left over for their size (`LeftForSize`) | invariant of filling a bag: a directory that has been gone through has nothing left that fits; the directories are gone through once each (`nodup_dirpathsFor`). Sample and limit: two directories of which one is broken up |
| C113 | `applyNamedRun`, `Namer` (`Model/Naming.lean`): an iterator has a supply of names, and a method `next` or not | induction over the plan: taking the next name is naming the next manifest (`applyLoopRun_named`). Iterators without a method `next`: negation |
| C114 | `handFS` (`Model/Handed.lean`): as `diskFS`, but when a bag is finished the caller's function changes the file system. `Spec/Handed.lean`: what the caller may do (`CallerMay`) | simulation of the copying split that forgets the bags made before (`hand_simulates`); bags made of hard links: negation |
| C115 | `restoreTimed` (`Model/Times.lean`): the restore with a time for each path, a clock, and times that writing, making and removing entries set | the tree is that of `restore` (`untimed_restore`, `restore_timed`); per path, the time is kept through operations, walk steps and members (`KeptTimes`), and metadata is written aside (`Aside`). Directories with time zero and unknown times: negations |
| C116 | `restoreMemberNoting`, `restoreMembersNoting` (`Model/MemberFetch.lean`): the dictionary and its key `line.strip().rsplit(None, 1)[0]` | induction over lines and members: entries are kept by source and size (`C116_by_source`); if that identifies files, by file. Otherwise false: negations |
| C117 | `splitCall` (`Model/SplitCall.lean`) and `restoreBagFetching` (`Model/Fetching.lean`), on two disks | the bags of the split, wherever found, restore to the original (C85); none is in the way of the place for fetched bags, and the member list is that of the split, so that fetching restores the same (C111) |
| C118 | `faultyFS` (`Model/Faulty.lean`): the file operations of the split, where each `shutil.copy` ends wholly, without a file, or after some of the contents | a simulation between the run with faults and the one without; the damage that can result is `Spec.DamagedBag` |
| C119 | `FetchSite.restore`, `restoreBagFetching` with a cache directory (`Model/Fetching.lean`) | invariant `KeptApart`: the destination is that of the run with the bags at hand, the directory has in addition the bags fetched so far; then induction over the loops |
| C120 | `Doing`, `RestoreJob.doing`, `takeTurns` (`Model/RestoreShared.lean`): the restore as a process, one file system operation at a time | rely/guarantee: `Sure` (the outcome is determined by the destination and what is read, as long as others keep off) and `StaysIn` (each operation changes only the destination), both by induction over the process; then induction over the order of turns |
| C121 | `RanAll`, `SplitEnded`, `restoreNow`, `playAll`, `historyOf` (`Model/SharedAll.lean`): histories made of the operations of splits and of restores | one invariant of the file system kept by each operation (well-formed, and changed from the start only in what the calls make), from the invariants of C108 and C120; then each call is undisturbed by the others. Every order of turns gives such a history (`C121_every_order`): two runs of a split that find the same for their first `n` operations make the same first `n` operations (`Lemmas/Splice.lean`). Every fair order ends (`C121_split_ends`, `C121_restore_ends`): the operations of a split are bounded whatever it finds, and a restore is a well-founded process |
| C122 | `OpenBags`, `OpenBags.call`, `OpenBags.calls` (`Model/Sessions.lean`): one directory, several objects with lists of their own, calls in any order | each call writes at most its own tag file (C17), and what an object with its lists in memory does is independent of the directory; induction on the calls |
| C123 | `LiveBag`, `LiveBag.call`, `LiveBag.acts`, `ForIn` (`Model/Live.lean`): lists as objects with a number; `for` over a list that changes | refinement: each call commutes with forgetting the numbers (`C123_values`); the list of an object is changed in place by all calls but setting and rereading; loops by induction on what is left of the list |
| C124 | `DirSpec`, `FileSet`, `distribute`, `fillDir`, `makeDataset`, `mkdatasetFor` (`Model/MkPlan.lean`): plans as trees, the destination as a list of files and directories, random numbers as a list | what every step adds, by induction on the depth of the plan; exactness from `Suits` (`Spec/MkPlan.lean`) through what `_distribute` gives to each directive; two runs compared step by step; plans that are lists of inventories with more bytes than asked for by induction on the list (`Props/MkLimits.lean`); the findings are runs evaluated by the kernel for one sequence of random numbers and carried over to all |
| C125 | `Codec`, `utf8`, `utf8Decode`, `latin1Codec`, `seenTree`, `openWritten`, `aggregationText` (`Model/Encoding.lean`): codecs as partial functions, what is written as the bytes of UTF-8 | UTF-8 decoding inverts encoding (by the lemmas of Lean's core library on single characters); ISO-8859-1 at least doubles the characters outside ASCII, so the path with most of them is listed under a path that no file has; C81 for the rest |
| C126 | `OnDisk`, `placeOf`, `newPlace`, `DiskAct`, `OnDisk.act`, `OnDisk.acts` (`Model/OnDisk.lean`): a whole disk, paths followed step by step, arbitrary texts | invariant over the history (the disk is well formed, the bag is there, outside is unchanged); moving keeps a disk well formed and pruning stops at the bag; simulation of the bag-level model (`C126_same`) |
| C127 | `LDisk`, `RepCall`, `LDisk.linkOrCopy`, `LDisk.copyOrForget`, `LDisk.copyFile`, `LDisk.replicate`, `LDisk.replicates` (`Model/Replicate.lean`): names for inodes, opening for writing keeps the inode | one step (`RepStep`) says which names and which inodes may change; induction over the calls |
| C128 | `LDisk.go`, `LDisk.mkdirs`, `LDisk.linkAt`, `LDisk.copyAt`, `LDisk.replicateAt` (`Model/ReplicateText.lean`): strings followed on the disk component by component, `os.makedirs` as in the Python library | what is found is where the string leads (`follow`); without `..` that is below the destination; for plain paths the call equals `LDisk.replicate` |
| C129 | `HeadBag.emptiedDeleted`, `HeadBag.saveDeletedStates`, `ListSave.run`, `ListSave.states` (`Model/SaveStopped.lean`): the directory after each character written | each state differs from the start in one file; writing over it gives the same dictionary; any beginning of a text of lines is whole lines and a beginning of the next, which the parsers read as stated |
| C130 | `SNode`, `SDisk`, `SDisk.leg`, `SDisk.trace`, `SDisk.stat`, `SDisk.bagStat`, `SDisk.walked`, `SDisk.nonstandard`, `SDisk.rawSize` (`Model/Links.lean`): a disk with links, path lookup through up to 40 links, the walk | induction over the components of a path and the number of links followed; the walk reaches exactly the real directories |
| C131 | `Filling`, `LDisk.putEntry`, `LDisk.putEntries` (`Model/PlanText.lean`): the loop over the contents of an output bag on a disk with absolute paths and hard links; `TwoDirs` (`Spec/PlanText.lean`) | induction over the entries; the invariant is that a file of the output bag shares its data at most with the source file of the same path |
| C132 | `LDisk.mkdirAt`, `LDisk.writeAt`, `LDisk.writeMeta`, `LDisk.makeBag`, `LDisk.makeBags` (`Model/SplitNames.lean`): an output bag written from the first directory to the last tag file; `Sound`, `ownFiles` (`Spec/SplitNames.lean`) | induction over the output bags with the invariants of C131; a file of an output bag shares its data with others only where a file of the source is linked, which is never a file that the split writes, so that a text once written stays (`Props/SplitTexts.lean`); bagit.txt has a free name when it is replicated, so that a link or a copy of it is made (`Props/SplitBagit.lean`) |
| C133 | `Savers.step`, `Savers.run`, `putAt` (`Model/SaveTogether.lean`): the operations of each call on the file system, interleaved in any way, with a position in the file for each process; `AllWritten`, `Underway` (`Spec/SaveTogether.lean`) | invariants over schedules: the file agrees with the text as far as the process that opened it last has written, and is not longer than it; refinement of the calls of C06, C07 and C08 for one process alone |
| C134 | `ReadPc.step`, `Watched.step`, `Watched.run` (`Model/ReadWhile.lean`): the operations of a reader, interleaved in any way with those of `Savers` (C133) | invariants over schedules: the file is always a beginning of the text, so what is read is one; what a cut text is read as, from C129; refinement of the reading of C06 and C07 if the file does not change |
| C135 | `newIssue`, `FullIssue.toTuple`, `issueFromTuple` (`Model/IssueTuple.lean`): issues with all attributes, arguments as values of several types | cases of the arguments; `from_tuple` passes one argument too many, whatever the tuple is |

## Findings

Behaviours of the code, found while proving, that a user would not expect.
Each one marked with an id has a machine-checked witness.

* C02: `Version("0.4")` compares differently with `(0, 4)` than with `"0.4"`.
* C05: the member line `b<TAB>u<TAB>x` can be read but not written back
  (NameError); an empty comment is not kept.
* C13: remove_member_bag on a freshly opened bag leaves the member in the list
  and forgets saved deletions: `self.member_bags` is named, not called.
* C15: set_deleted on a freshly opened bag forgets the deletions on disk, and
  the next save_deleted loses them for good.
* C19: an exclude given as one string is taken as a set of characters; for
  read-only members excluding a directory does not exclude its subdirectories.
* C21: if the tag directory field is repeated, saving uses the last value and
  reading back raises TypeError; with profile 0.2 a saved list is not seen.
* C22: set_multibag_tag_dir without migrate loses sight of all three lists.
* C24: a tag file with a name that a pattern with unescaped `.` takes for a
  standard one, e.g. `fetch-txt`, is in no output bag.
* C25, C26: what is reserved for the head bag goes in one manifest, however
  large.
* C30: head files given without the leading slash are ignored; a payload file
  reserved for the head with a standard base name (C32: `data/bagit.txt` is
  not "required") is in no bag.
* C33: an empty supply of names ends in UnboundLocalError.
* C37: when a head bag is split again and its member list goes in the new
  head, the tag manifest keeps the hash of the old list.
* C41: in the same situation with hard links, the source's own member list is
  overwritten.
* C42: carriage returns in bag-info.txt are translated in the copy.
* C43 (remark): URIs and comments of members already listed are dropped when
  a head bag is split again.
* C45: restoring in the head bag's own directory keeps deleted files.
* C47: restoring raises KeyError if a later member lacks a kind of checksum.
  Also (remarks): manifest lines for deleted files in the head's own manifest
  are kept; hashes of tag files at the root are never recorded.
* C48: of two fetch entries for a path the earlier bag's is kept; the head's
  entries are lost if another bag has any; entries of deleted files are kept.
  The key is the last word, so paths with spaces collide.
* C49, C52: with a tag directory other than `multibag`, aggregation-info.txt is
  not used and restoring fails on removing the directory `multibag`.
* C51: fetch.txt is lost by splitting and restoring.
* C53: stopping a restore and running it again can leave a manifest that lacks
  a file.
* C56: a repeated Multibag-Head-Version in the old head makes the deprecates
  value the text of a list.
* C57: the deletions of the amended aggregation are not carried over.
* C58: converting a path with trailing slash does not list the bag as a
  member; an old profile's lookup is taken over.  C59: keeping a profile
  version before 0.3 gives a head that lists no members and finds no files.
* C62: used alone, the member validator throws its name and non-head checks
  away.
* C63: head validation raises AssertionError on a bag that is no head bag.
* C64: the URL check is inverted: a member URI with a host is rejected.
* C65: any single version value passes; a repeated one always fails.
* C66: a lookup into a bag that is not a member is not noticed.
* C67, C68: a directory beside the bag whose name starts with the bag's name
  passes the containment test (commonprefix works on characters); names with
  `$` are rejected as dangerous.
* C81: a split can make invalid bags of a valid one: file names with line breaks
  (encoded in the source manifest, written bare), sources of BagIt 0.93-0.95
  (package-info.txt is copied with the source's Payload-Oxum), a fetch.txt
  (copied into a bag that lacks the listed files), a head bag split again, a plan
  that lists a file twice for a bag (counted twice in the Payload-Oxum).
* C82: values with line breaks lose the first one each time they are copied.
* C84: restoring without updating sizes and without removing the multibag tag
  files leaves the head bag's tag manifest in place with the checksum of the
  bag-info.txt that was replaced, so that the restored bag is invalid.
* C84: if the head bag contains a file that it lists as deleted, the file is
  left out but stays listed in the manifest, so that the restored bag is invalid.
* Not tied to one property: `if not self.manifests` in the splitters is never
  true; ValidationIssue.to_json_obj always raises; a plain BagError in
  BagValidator becomes AttributeError under Python 3.
* C86, C87: the split writes Multibag-Tag-Directory into every bag, but the
  member bag validator warns about it in bags that are not head bags; so no
  member bag made by a split is free of warnings.  An empty External-Identifier
  in the source is copied as a Bag-Group-Identifier, and if another one follows
  the head bag has an error.
* C88: `open_bag` does not find a bag whose files are at the root of an archive (`walk.dirs()` leaves out the root): access/bagit.py:645-651. With a trailing slash in a directory's location the bag's name is empty (line 635).
* C89: `as_headbag(bag, readonly=True)` returns an updateable `HeadBag` unchanged (access/multibag.py:829-864).
* C90: `walk("/data")` of a local bag is accepted: the test for absolute paths (access/extended.py:414) comes after the components were joined without the leading slash. `walk("..")` of a local bag lists the directories next to the bag. `walk("data/")` of a read-only bag gives paths like `data//sub` (684).
* C92: a size just below a unit is rounded up to 1000 of the smaller one: 999999 gives `1000 kB`.
* C93: `update_info()` (and everything that ends with it: converting, amending) lists every tag file in the tag manifests. A valid bag holding an unlisted tag file whose name a manifest line cannot express (a trailing space, for example) is no longer valid afterwards (`C93_negation_names`).
* C95: `member_bags(reread=True)` and `lookup_file(p, reread=True)` on a bag without the tag file report nothing, but keep the unsaved updates, which the next query reports again; the documentation says they are lost (access/multibag.py:367-381, 447-458).
* **C96** Head bags that the library writes are rejected by its own validator in four situations it does not warn about: the identifier is a web address (`https://…`), the bag has no payload files (then `file-lookup.tsv` is not written, but required), a member has a comment but no identifier (the validator takes the comment for the URI), and the version given to the amendment is the one it amends (`C96_negation_url`, `C96_negation_no_payload`, `C96_negation_comment`, `C96_negation_same_version`).
* **C97** `find_member_bag` joins the name from member-bags.tsv to the component directory without a check: `../x` or `/x` is taken from outside it. If there are two archives of a bag, the one restored depends on the iteration order of a set of strings, so on the hash seed. `_create_dest_bag` tests `startswith` on strings: a component directory `/out-cache` next to the destination `/out` counts as inside and is created.
* **C98** `calc_bag_size` (access/extended.py:456-459) adds the sizes that the filesystem gives for directories, so a restored bag with few bytes states several kilobytes; a head bag's `_bag_size` does not. With a repeated Bag-Size label, it also subtracts the number of values in place of the length of a text (access/extended.py:463).
* **C99** Amending undoes deletions: a file that the old head bag declares deleted (and that is therefore absent when the old aggregation is restored) is in the bag restored from the amended aggregation, although none of the amending bags has it (`C99_negation_deleted`). This is the effect of C57: `Amender.init_from` (amend.py) carries over the member list and the lookup table of the old head bag but not `deleted.txt`.
* **C100** A split cannot be taken up again where it was stopped: `apply_iter` makes each bag directory with a plain `os.mkdir`, so a second run in the same output directory fails with an OSError as soon as the first bag directory exists (`C100_negation_rerun`). The last bag may be left with a bag-info.txt that says it is a head bag and without multibag/member-bags.tsv (`C100_negation_head`).
* **C101** Converting a bag is not safe against interruption: for a bag without `Multibag-Version`, `write_member_bags` (amend.py:73) calls `update_info()` before the lists exist, so a stop (or an error in writing the lists) leaves a bag that says it is the head bag of version "1" and has no member list (`C101_negation_convert`). In all cases bag-info.txt is rewritten in place; a stop can leave it empty (`C101_negation_baginfo`).
* **C102** `MultibagValidationError` counts and lists all failed tests, not those asked for: a bag that breaks one requirement and ignores one recommendation, validated for errors only, gives "2 validation errors detected" (`C102_negation_number`); asked for recommendations only, the three tests told may all be errors (`C102_negation_unwanted`).
* **C103** `SingleMultibagMaker(bag, 'a/b').convert()` fails with an OSError if `a` does not exist, because `ensure_tagdir` uses `os.mkdir`; by then bag-info.txt already says that the bag is the head bag of version 1 (`C103_negation_nested`). `SingleMultibagMaker(bag, 'multibag')` does not use `multibag` if the bag's bag-info.txt names another directory, since that argument value is taken for the default (`C103_negation_default`).
* **C104** A restore in place first overwrites bag-info.txt with `multibag/aggregation-info.txt`. If it then fails because a member bag is missing, the head bag has lost `Multibag-Head-Version`, and `BagRestorer` refuses it with "Not a head bag" when the member is supplied (`C104_negation_in_place`).
* **C53** A file that had been copied in part when a restore was stopped is not copied again by the next run, which succeeds all the same (`C53_negation_torn`). If that file is bagit.txt, the next run fails (`C53_negation_bagit`).
* **C105** A bag name with `..` or a leading slash puts the bag outside of the output directory (`C105_negation_outside`). An output directory inside the source bag is accepted: the split succeeds, and the source's payload then has files that its manifests do not list (`C105_negation_in_source`).
* **C106**: the default base of the names is the file name of the path without its extension (split.py:465), so that bags `run.1` and `run.2`, or `a/bag` and `b/bag`, have the same base: the second split into the same directory raises an exception (`C106_negation_base`, `C106_in_use`). For a path that ends with a slash the base is empty, and the bags are called `_1.mbag` and so on (`C106_negation_slash`). `Splitter.split` is documented to return names, but returns paths in the output directory (split.py:503-508), as in `C106_split`. `apply_iter` uses `naming_iter.next()` (split.py:264), which an ordinary Python 3 iterator does not have; only the package's own namers can be given.
* **C109**, **C49** Line breaks within a metadata value (after the second line of a value continued on further lines; the first is dropped when bagit reads it) do not survive a split and a restore: bagit joins the lines when it writes `bag-info.txt` (`unbroken` in the statements).
* **C111** With a function for fetching and `restore(remove_multibag_tags=False)`, all bags that were fetched are left inside the restored bag, in `multibag/_membercache` (`C111_negation_kept`): `restore` removes them only together with the tag directory (restore.py:314-321).
* **C112** The neighborly splitter breaks up directories that would fit in one bag: what is left of a bag's room is filled with single files of the next directories (`C112_negation_apart`).
* **C48** Restoring merges fetch lists by the last word of each line (restore.py:275-277), so that of `data/my far` and `data/your far` one is lost (`C48_negation_space`); and the lines are written as they were read, so that after a list without a final line end two entries run into one (`C48_negation_newline`).
* **C113** `apply_iter` calls `naming_iter.next()` (split.py:264), which in Python 3 exists only in classes that define it: with `iter([...])` or a generator it raises `AttributeError`, although `name_output_bags` takes them (`C113_negation_next`).
* **C114** The documentation of `apply_iter` lets the caller modify a bag that was handed over, but bags made from a plan for a path are made of hard links to the source: writing to a file of such a bag changes the source and the bags that are to come (`C114_negation_links`).
* **C115** `if rmtime` (`restore.py:221`) takes the time zero for a missing one: a directory whose modification time is 1 January 1970 gets the time of the restore as soon as a later member adds to it (`C115_negation_epoch`). If a source bag cannot tell the modification time of something, as a reader of an archive may not, `os.utime` raises and the restore stops half done (`C115_negation_unknown`).
* **C116** `restore_member` with a dictionary keys entries by `line.strip().rsplit(None, 1)[0]` (`restore.py:170`), the URL and length instead of the file name: two bags listing a file with different URLs give two entries (`C116_negation_two`), two files with one URL and length only one (`C116_negation_lost`), and a blank line raises `IndexError` after the files are copied (`C116_negation_blank`).
* **C118** `replicate` ignores the exceptions of `shutil.copy` (access/extended.py:369-376), and `apply_iter` only looks whether there is a file afterwards (split.py:312-315), not at all for `bagit.txt` (split.py:285).  When a copy is cut short (for example because the disk is full) the split returns normally, with part of a file; Payload-Oxum is computed from what was written.  If a logger is given, `replicate` uses `self.logger` and `self.log`, which do not exist (access/extended.py:367, 376).
* **C120** Two calls of `restore_bag` with one destination that does not exist yet: each looks whether it exists and then makes it (`restore.py:112-113`). If both look before either makes it, the second fails with an `OSError` (`C120_negation_same`), though each succeeds alone.
* **C122** two `HeadBag` objects that each read the member list, add a bag and save lose the bag of the one that saved first; no call raises (`C122_negation_merge`). Reading again before adding (`member_bags(reread=True)`) keeps what was saved before.
* **C123** `for m in head.member_bags(): head.remove_member_bag(m.name)` removes the first, third, fifth … bag only, because `remove_member_bag` deletes from the list that `member_bags()` returned (`C123_loop`, `C123_negation_remove_all`); emptying the list returned and saving loses all members (`C123_negation_own`).
* **C124** a plan whose sets claim more than the totals is carried out as it is (`C124_negation_more`); if another set claims nothing, `RuntimeError` is raised instead (`C124_negation_runtimeError`).
* **C124** with more sets than files `mkdataset` raises `ZeroDivisionError` after making some files (`C124_negation_zeroDivision`); with more directories than files it silently makes too few bytes (`C124_negation_less`).
* **C124** a repeated set that claims nothing may make too many bytes (`C124_negation_reps`), and a set with `totalfiles` but no `totalsize` is given another number of files (`C124_negation_claim`).
* **C124** a plan that claims more than ten times `filecount` files of one size keeps `mkdataset` looking for a free name for ever (`C124_negation_ends`).
* **C125** `split` copies bagit.txt with its `Tag-File-Character-Encoding` but writes manifests and bag-info.txt in UTF-8 (split.py:282, 286, 337, 410). For a source that declares ISO-8859-1, every output bag with a payload path outside ASCII is invalid (`C125_negation_split`), and metadata values are garbled (`C125_negation_metadata`).
* **C125** The source's bag-info.txt is read as UTF-8 when it is copied to `multibag/aggregation-info.txt` (split.py:392-396), whatever encoding is declared: a UnicodeDecodeError ends the split before the head bag is complete, or another text is copied (`C125_negation_head`).
* **C126** The tag directory of bag-info.txt is used unchecked in `os.path.join` (access/multibag.py:421-446, 609-638, 674-690; amend.py:240-245). An absolute path or one with `..` makes `save_member_bags` etc. overwrite, and `clear_file_lookup`, `save_deleted` and amending remove, files in any directory (`C126_negation_absolute`, `C126_negation_sibling`); `set_multibag_tag_dir(…, migrate=True)` moves such a directory into the bag.
* **C127** A failed `os.link` falls back to `shutil.copy`, which writes into an existing file (access/extended.py:359-371). If that file is a link of another bag's file, made by an earlier `replicate` (links are the default, 230), that bag is changed (`C127_negation_links`).
* **C127** With a logger, the handlers use `self.logger` and `self.log`, which do not exist (access/extended.py:367, 376): an AttributeError instead of the copy (`C127_negation_logger`). Without one, a failed copy is not reported (`C127_negation_silent`).
* **C128** `replicate` normalizes the path to see whether it is in the bag, but joins it as it is to the destination directory (access/extended.py:335-343): `../bag/data/x` of a bag `bag` is put beside the destination directory (`C128_negation_outside`); an absolute path of a file in the bag does nothing (`C128_negation_absolute`); `data/x/` makes a directory in place of the file, and `no/../data/x` leaves an empty directory `no`, both without an exception (`C128_negation_not_delivered`).
* **C129** The lists are written in place (access/multibag.py:439-445, 620-628, 688-690). At some moment of every `save_member_bags` the bag has no members (`C129_negation_lost`); stopped later, it can name a member that is in neither list, give a wrong bag for a file, report a file as deleted that is not (`data/x` for `data/x.bak`), or have a lookup list that cannot be read (`C129_negation_wrong`).
* **C130** `walk` (access/extended.py:418, `os.walk` without `followlinks`) does not enter links to directories, but `isfile` (access/extended.py:298) follows them: a file below such a link is reported as a file of the bag and is required in no split plan, so it is in no output bag (`C130_negation_lost`). A link to a place outside the bag is followed by `isfile`, `isdir` and `exists` (`C130_negation_outside`). A broken link makes `calc_bag_size` raise OSError (`C130_size`), and with it every update of the metadata that asks for the size.
* **C131** `apply_iter` (split.py:289-333) takes the entries of a plan as they are: `../a/data/x`, which leads back into a bag named `a`, is put next to the output bag (`C131_negation_outside`); an absolute name of a file of the bag is recorded in the lookup list while the output bag stays without it, because `os.path.join` drops the output directory and the check at split.py:313 finds the source file itself (`C131_negation_absolute`); two spellings of a path are both recorded (`C131_negation_twice`).
* **C132** The name of an output bag is joined to the output directory as it is (split.py:275): `/v/b` and `../v/b` make a bag outside of it (`C132_negation_outside`), and `b/data/h` makes one in the payload directory of the output bag `b`, whose manifests do not know of it (`C132_negation_nested`). A plan that lists `bag-info.txt` has it linked and then opened for writing (split.py:337), which overwrites the metadata of the source bag (`C132_negation_own`).
* **C133** The files of the lists are emptied and written in place (access/multibag.py:440, 620): when two processes save different member lists at the same time, the shorter one can be written over the beginning of the longer one, and the file lists a bag that is in neither (`C133_negation_mixed`). `ensure_tagdir` tests for the directory before it creates it (access/multibag.py:426-427): of two processes that save to a bag without one, one can get an exception (`C133_negation_race`). `save_deleted` goes through a set (access/multibag.py:689), whose order differs between processes because Python seeds the hashes of strings differently in each: two processes that save the same deleted paths write different texts, which can be mixed like different lists (`C133_negation_order`). It tests for the file before it removes it (access/multibag.py:684-685): of two processes that save an empty set, one can get an exception (`C133_negation_removed_twice`).
* **C134** Because the files of the lists are emptied before they are written (access/multibag.py:440, 620), a process that reads a list while another one saves the very same list can get an empty list, and nothing tells it so (`C134_negation_short`, `C134_negation_short_lookup`); while a list is replaced, it can read a bag name made of the beginning of an old one and the end of a new one (`C134_negation_mixed`). `iter_deleted` tests for its file before it opens it (access/multibag.py:306-309): if another process saves an empty set in between, which removes the file, it raises an exception although reading before and after gives a list (`C134_negation_removed`).
* **C135** `ValidationIssue.from_tuple` passes seven items to a constructor that takes six (validate/base.py:190-191), and not in its order either: it always raises TypeError.

## Trusted base

* Lean 4.33.0's kernel.
* Axioms: every theorem depends on at most `propext`, `Classical.choice` and
  `Quot.sound`, as `#print axioms` shows.  No axiom is added; there is no
  `sorry`, no `native_decide`, no `bv_decide`.  Mathlib is not used.
* The hand translation of the Python source to the model, cited in comments.
* Behaviour of Python's standard library as encoded in `Py/` and in the model
  comments: str methods, codecs and universal newline line iteration, re (for
  the few patterns used), OrderedDict, os.path.normpath/commonprefix, os.walk,
  urllib.parse.urlparse.
* Behaviour of the external `bagit` package (tag file parsing, saving of
  bag-info.txt and tag manifests, `make_bag` structure) and `fs` package, as
  encoded in model comments.  They are not part of the repository.

* Behaviour of the operating system when several processes share a directory
  (`Model/SaveTogether.lean`, `Model/ReadWhile.lean`, and the models of splits
  and restores that run at the same time): each operation is atomic, opening a
  file for writing empties it, each open file has its own position, writing
  behind the end fills the gap with NUL characters, and a removed file stays
  open for those who have it open.

### Modelled

* `constants.py`: all.
* `access/multibag.py`: MemberInfo, the line parsers, HeadBagReadMixin and
  HeadBagUpdateMixin, for one process and for several at once (C133, C134).
* `access/extended.py`: path checks, exists/isdir/isfile/sizeof, nonstandard,
  walk, replicate as used in a split (copy and hard link) and as called with any
  path string (C127, C128), bag-info loading.
* `access/bagit.py`: Path, opening a bag, manifests, fetch entries, oxum and
  checksum validation, dangerous paths, absence of save.
* `split.py`: SplitPlan, both splitters, namers, apply_iter, the metadata of
  the output bags, the head bag update.
* `restore.py`: BagRestorer as a whole.
* `amend.py`: Amender and SingleMultibagMaker.
* `validate/`: results, bag, member and head bag validators.
* `testing/mkdata.py`: see C76 and C124.

### Not modelled, or simplified

* Object identity: the list returned by member_bags is treated as a value
  except in `Model/Live.lean`, which proves this right for programs that do not
  change it (`C123_values`); the deprecates list and the `MemberInfo` records
  are values.
* Tag directories given as absolute paths or with `..`, except in C126; symbolic links, except in C130;
  trailing slashes in renames.
* Python 2 branches; arguments of other types than documented; float limits.
* Directories created before a failing os.renames or replicate are not kept, except in C128.
* Logging; modification times except those that restoring sets (C115).
* Plan entries that are absolute or contain `..`, except in C131; output names with a slash, except in C132.
* Encodings: text is a list of characters, and decoding errors are not modelled, except in C125; codecs other than UTF-8 and ISO-8859-1 are arbitrary functions there.
  Unicode normalisation and non-ASCII `lower`/`isdigit` are not modelled.
* What a reader gets from a file of deleted paths that is removed while it has it open (C134 covers a removal before it is opened).
* PyFilesystem's own checks of back references.
* Bags whose metadata file is `package-info.txt`.
* `str(list)` for values that contain quotes or unprintable characters.
* Validation: the prose of the checks is dropped, as are issues recorded in
  the caller's results before an exception; urllib's test of bracketed hosts
  is a parameter (`hostOk`); in the validators of `validate/` the verdict of
  `Bag.validate()` is a parameter.  `validate()` itself (C80) is the driver of the
  external bagit 1.7, written from knowledge of the published package.
* Checksums are an arbitrary function; nothing is assumed about collisions.
