# Formal model of lromor/fpga-assembler in Lean 4

The code in `/repo` is read as text, never built or run.

| directory | content |
|---|---|
| `lean/Verif/Model/` | the program, function by function; every definition cites file and lines |
| `lean/Verif/Spec/` | what the properties mean, written without the model's functions (exceptions below) |
| `lean/Verif/Proofs/` | lemmas |
| `lean/Verif/Props/` | the property theorems `Cnn_…` listed in `MANIFEST.json`, each with examples that meet its hypotheses |
| `properties.jsonl` | the properties in English |
| `seeded/LOG.jsonl` | wrong programs the theorems were tested against |
| `lean/Verif/Notation.lean` | `bytes!"abc"` for the list of numbers `[97, 98, 99]`, expanded before elaboration |
| `lean/Verif/Conformance.lean`, `fidelity/` | the repository's unit tests replayed on the model (tests of the model, not proofs) |

## Trusted base

* Lean 4.33.0's kernel. Every theorem depends at most on the axioms `propext`,
  `Classical.choice` and `Quot.sound`; no axioms of our own, no `native_decide`,
  no `bv_decide`, no compiled code (`decide +kernel` is evaluated by the kernel).
* The reading of the C++ source. Nothing ties the model to a binary. Evidence that the reading
  is right: every expectation of the unit tests in `/repo` that does not need a
  data file holds of the model (`Conformance.lean`, checked by the kernel, generated by
  `fidelity/conformance.py`), and evaluating the model on the three bitstreams of
  `configuration-xc7_test.cc` (`fidelity/bitstreams.py`) decodes 5408 frames from each, all three
  equal, as the test expects, with every ECC field equal to what the model of `CalculateECC` gives.
* The specifications in `lean/Verif/Spec`. They share with the model only the record
  types (tile, part, segment bit, JSON value, packet, …) and these functions, which are
  themselves what a property talks about: `Part.next`/`isValid` in the definition of a
  walk (characterised without them by C04/C05), `Fasm.parse` in `Written` (characterised
  by C24–C34 and removed altogether in C69), `parseDatabase` in `Starts` (removed in C70),
  `configBits` in `Reachable`, `Registry.tiles/tileBanks` in the STEPDOWN rule
  (characterised by C43).

### Library contracts that are modelled, not verified

* abseil: `SimpleAtoi` (strips ASCII white space, optional sign, decimal digits, fails on
  overflow and then leaves an unspecified value: an arbitrary function `junk`), `StrSplit`,
  `StripAsciiWhitespace`, `StrCat`, `StrJoin`, `Cleanup`. `btree_map` is a list sorted by key
  (`emplace`/`insert` keep the old value). `flat_hash_map/set` is an association list with
  distinct keys whose order is the iteration order; a container built inside a function
  gets its order from an argument (`HashOrder`, `LoadOrder`) of which theorems assume only
  that it permutes. `CHECK` terminates the program.
* rapidjson: `Document::Parse` is a function from texts to trees: in most theorems an arbitrary one
  (`Env.json`), in C82 the model of its contract (`Model/JsonText`, from knowledge of rapidjson 1.1.0, whose
  source is not in `/repo`; whether a fractional or huge number exceeds the largest double is an arbitrary
  predicate `big`; recursion depth is not bounded);
  `Writer` (C117, `Model/JsonWriter`) escapes quote, backslash and bytes below 0x20 and copies everything else; `FindMember` finds the first match; using a value as the wrong type trips
  `RAPIDJSON_ASSERT`, modelled as undefined behaviour (it is `assert`, absent with `NDEBUG`).
* libstdc++/libc: `std::sort`, `std::partition`, `std::upper_bound`, `std::search`
  (contracts in `Spec.SortContract` or spelled out), `std::getline`, POSIX `getline` (line, NUL, then what earlier calls left;
  unwritten bytes of the buffer are indeterminate: reading them is undefined), `strtol` with base 0 (without the prefix `0b` of C23),
  `std::tolower` in the C locale, `std::filesystem` (existence, recursive listing (its iterator: `Model/Walk`, C98) in any
  order), `absl::FormatTime` in UTC (`Model/Clock`; other theorems take date and time as any
  short ASCII strings), `std::ostream` (a byte buffer with a position; `seekp` works on files and fails
  on pipes; a failed stream ignores writes).
* POSIX: `open`, `fstat`, `mmap`, `munmap` (`Model/MappedFile.lean`): pages of 4096 bytes,
  the rest of the last page reads as 0, the byte behind a full last page faults, a zero
  length mapping fails, directories open but cannot be mapped.
* For the lint script: POSIX `open`/`write`/`unlink`/`rename` on one directory (`Model/Tidy/Store`; `rename` is atomic, an open file
  outlives its name), `std::mutex` (the guarded block is one step), `system` (a child process that goes on when its parent is
  killed), `std::regex` with the ECMAScript grammar as libstdc++ implements it (`Model/Tidy/Regex`: backtracking, `^` and `$` only at the
  ends of the text; stack exhaustion on long lines not modelled), `std::hash` (an arbitrary function).
* The 7-series configuration logic of C63, C67 and C69 (`Spec/Device.lean`) is written from
  Xilinx UG470 (packet format, registers, commands, IDCODE check); the `.bit` layout
  (`Spec/File.lean`) from the public description cited in the source.

## Conventions

* `Outcome α = ok a | err | abort | ub`: a returned value, an error `absl::Status`,
  a failed `CHECK`/`.at()` (the program is terminated), undefined behaviour.
* Words are `BitVec 32`, bytes `UInt8`; C++ integer conversions and wrap-around are explicit.
* Loops whose termination is not structural take fuel; "terminates" is then a theorem
  saying that from some fuel on the result is the same, "diverges" that none suffices.
* Error message texts are modelled in separate versions of the functions, proved to be the same functions when messages are erased: the FASM
  parser (`Model/FasmText`, C92), the program (`Model/Stderr`, C96, C97), the database (`Model/DbMessages`, C101–C105).

## Per-property plan

A property that is false of the code keeps its full statement in `properties.jsonl`; the
theorems then are the negation with a witness (`…_defect`) and the largest true part
(`…_partial`).

| id | modelled | proof |
|----|----------|-------|
| C01 | `bit-ops.h` for any word width | bit extensionality |
| C02, C03 | `FrameAddress` constructor and accessors, incl. the signed first call | arithmetic normal form + omega |
| C04, C05 | `Part` and nested `GetNextFrameAddress`/`IsValidFrameAddress` over sorted maps | per-level lemmas; C05 spec = least greater valid address |
| C06 | `FromPart`, `RowFrom`, `BlockTypeFrom` | induction over vectors; false for CFG_CLB buses |
| C07, C08 | `AddMissingFrames` | loop invariant; strictly increasing bounded measure; divergence with 33 rows; `C08_exact`: completion ends iff every described row is below 32 and column below 1024 (a region the walk cannot leave, for parts that are larger; empty rows pruned, for those that are not) |
| C09–C12 | packet headers, writer iterator, reader iterator | bit-field laws, simulation of the state machine by `flatten`, measure on remaining words |
| C13, C14 | `BigEndianSpan`, `InitWithBytes` | induction; first-occurrence spec of the sync word |
| C15, C16 | `CreateType2ConfigurationPacketData`, `InitWithPackets` | simulation along the address walk |
| C17 | `InitWithPackets` | induction over packets |
| C18, C19 | `Encode` to `InitWithPackets`, `.bit` header on a file or pipe | composition, arithmetic |
| C20–C22 | `ICAPECC`, `CalculateECC`, `UpdateECC`, `ICAPCRC` | linearity over XOR, finite code table by kernel `decide`, injectivity of each step |
| C23 | `Encode` | negation with witness |
| C24–C34 | `fasm-parser.h` `Parse` over byte lists with out-of-bounds = `ub` | a pure line function, invariants on the remaining input, token lemmas |
| C35–C40 | text parsers of `database-parsers.cc` | token lemmas, induction over lines |
| C41, C42, C68 | JSON unmarshalling | induction over values; rendering round trip; crash-freedom |
| C43–C49 | `database.cc` | induction over tables; permutation lemmas |
| C50–C57, C59 | `AssembleFrames` and what it calls | fold invariants |
| C58, C60, C61 | `main` | case analysis, composition with C18 |
| C62 | `Part` iterator constructors | sort/group lemmas |
| C63 | `CreateConfigurationPackage` on a device model | execution of the device on the word list |
| C64 | `InitWithPackets` on any packet history | one lemma per register, walk arithmetic |
| C65 | `MemoryMapFile` and the line parsers on it | page arithmetic, exact crash condition |
| C66 | hash orders of every container | permutation invariance of every stage; for runs that fail or never end, the order-free characterisation of C119 (`Props/SameEnds.lean`) |
| C67, C69 | `main` end to end (`C60_gaps`, `C67_gaps`: parts with holes; `Props/Loaded`: a loaded part satisfies every condition on descriptions but the sizes) | composition of C50, C63, C24–C34 |
| C70 | `PartDatabase::Parse` | composition of C35–C44 |
| C71 | `fasm::Parse` on every input | case distinction over the shapes of lines (`Spec/FasmGrammar.lean`), each with its exact report |
| C72 | `main`, `AssembleFrames`, `ProcessFasmFeatures` on failing inputs | first statement that cannot be assembled, from the order in which they are processed; what the `getline` buffer holds behind a line (for reads past its end); encoder termination from C08/C10 |
| C73 | `ParseBaseAddress` (`strtol` base 0), `ParseTileGridJSON` | relation `CNumber` between texts and integers (total, functional); acceptance ↔ relational description of the JSON value |
| C74 | the stream operations of `writeBitstream`/`Encode` in order (`Model/Crash`), cut after any of them | contents after `k` operations computed; `readBitFile` monotone under appending; the length field patched byte by byte is smaller unless complete; device invariant over packet prefixes |
| C75 | `Encode` and the decoder together | keys of the completed map are the walk (part only), so slots and template are; round trip for injectivity; device model for the IDCODE |
| C76 | `CalculateECC`/`UpdateECC`; code words described by bit positions only (`Spec/Frame`) | a frame is the XOR of its set bits; ECC is linear; one-bit frames computed; parity functional for the 13th bit |
| C77 | `ICAPCRC` over a history; CRC-32C as `%ₘ` in Mathlib's `(ZMod 2)[X]` (`Spec/Crc`) | 37-bit step = bit-serial division; each bit adds a multiple of the generator; uniqueness of remainder |
| C78 | the stream format state used by the pretty printers (libstdc++), `operator<<` of addresses, block types, registers (`Model/Print`) | digit loop = `Nat.toDigits`; text computed field by field; a reader function inverts it; names compared |
| C79 | `absl::Now`/`FormatTime` in UTC (`Model/Clock`), calendar in `Spec/Clock` (leap years, day numbers) | 400/100/4/1-year decomposition inverted by linear arithmetic; day numbers strictly increase with dates; header text split around the stamp |
| C80 | `PrintHeader`, `PrintFpgaConfigurationLogicData` (`Model/AuxData`): `std::search`, libstdc++'s `std::find_end` by reversal, `%02X`/`%08X` | first/last occurrence from the search loops; digit loop = fixed-width digits; a reader function inverts the listing; positions computed for the words of C63 |
| C81 | as C72, with nothing assumed about where database bits lie (`Spec/Overrun`) | the first statement that cannot be assembled decides (`process_first'`); its first bad bit is listed-but-outside (`Overruns`, undefined behaviour) or unlisted (`Stalls`, stop) |
| C82 | `rapidjson::Document::Parse(data, size)` as a library contract (`Model/JsonText`), `ParseTileGridJSON`, `ParsePartJSON` on texts | grammar of RFC 8259 as mutual inductive relations between texts and values (`Spec/JsonText`), parser sound and complete by induction over fuel and over derivations; every value has a text; C41/C42/C73 and C70 on top |
| C83, C84 | `scripts/run-clang-tidy-cached.cc`: `RunClangTidyOn` (`Model/Tidy/Run`) as interleaved steps of worker threads, of the commands they start and of any number of processes on one POSIX directory (`Model/Tidy/Store`), any of which can be killed | invariant over executions (who owns which temporary file, what entries hold), lexicographic measure for termination, executable scheduler for the witnesses |
| C85 | `BuildWorkList` (`Model/Tidy/Work`), the include pattern as a regular expression matched by backtracking (`Model/Tidy/Regex`, library contract) | relational meaning of patterns (`Derives`) equivalent to the list of ways; occurrences of the pattern = include directives described by shape (`Spec/Tidy/Work`); XOR over headers included an odd number of times |
| C86 | `CreateReport`, `main` (`Model/Tidy/Report`) on the cache any execution of C83 leaves | matches of the check pattern = finding lines not directly behind a counted one; map and stable sort as sorted lists; reading back the summary |
| C87 | `FilterCheckLines` (`Model/Tidy/Text`) | the first way of the pattern is the reading with the longest directory, then the longest name (`Spec/Tidy/Filter`); the loop keeps a line by the last located line before it |
| C88 | `RepairFilenameOccurences`: `std::regex_replace` with empty matches (`Model/Tidy/Canon`, library contract) | the best way of the pattern computed; position of the next match = next newline; induction over lines |
| C89 | C86, C87 and C88 together | what is stored is a list of complete lines; splitting of texts into lines is unique |
| C90 | `AssembleProjectCacheDir` without the base directory (`Model/Tidy/Command`) | first match of the version pattern; the name read from the right; XOR and truncation of hashes |
| C91 | `AssembleArgs`, `command` (`Model/Tidy/Command`); how a POSIX shell reads quotes, words and redirections (`Spec/Tidy/Shell`, a state machine) | the reader runs over the command piece by piece |
| C92 | the parser again with every `fprintf` (`Model/FasmText`); messages for each line shape (`Spec/FasmText`) | both parsers agree when the texts are forgotten; texts of each shape; a relation kept by all functions |
| C93 | where the strings of the calls stand (`Spec/FasmSlices`) | what each function consumes, on the same line or up to a newline |
| C94 | `main` of the lint script before the work (`Model/Tidy/Startup`): environment, checks, directories, number of workers | case analysis against `Spec/Tidy/Startup` (literal names and texts); the number by the digits in front |
| C95 | `Encode`, `addMissingFrames`, `type2Payload`, `initWithPackets`, `main` (models as for C15, C17, C62) | addresses of the part enumerated; the payload up to the first foreign frame is the walk of the part, the position after it holds the foreign frame |
| C96 | `Model/Stderr.lean`: `assembleLineM`, `assembleFramesM`, `mainM` (the program with the texts it writes to standard error) | forgetting the texts gives `main`; inversion of every stage against `Spec.Failure`; an error can only come from a line or a name without a dot (no other stage returns one); comments from C92 and the severity of accepted lines |
| C97 | as C96 | the parser is called once per line, so the messages are those of lines numbered 1; numbers can be read back from messages; hence the exact case in which they are right |
| C98 | `IndexTileTypes` on a directory tree (`Model/Walk.lean`: `recursive_directory_iterator` with `skip_permission_denied`, the loop with its error branches) | the iterator is a stack of open directories; induction on the stack and the number of entries left: it delivers the preorder of the tree up to the first failure; then C44 |
| C99 | `PartDatabase::Parse` … `main` on two file systems, one with trouble (`Spec/Lost.lean`) | per file: the same or an error; per tile type: the same or none; simulation of the two runs through the cache (`Proofs/Fewer.lean`) |
| C100 | as C98, C99, C96 | defect by a run; what a successful run asked for was loaded (C50), hence read (C44) |
| C101 | the three line parsers of `database-parsers.cc` with the message of the status they return (`Model/DbMessages.lean`) | message erased = the parsers of C35–C39 (`Proofs/DbMessages.lean`); first bad line by induction on the lines (`Proofs/DbLineMessages.lean`) |
| C102 | `ParsePartsInfos` with messages; what is to be said about a mapping file (`Spec/YamlMessages.lean`) | induction on the lines with the entry begun so far (`Proofs/YamlMessages.lean`) |
| C103 | the JSON readers with messages; for each type what trouble a value can make (`Spec/JsonMessages.lean`) | `Tells`: a result and its trouble, composed along bind, fold and member access (`Proofs/JsonMessages.lean`); no trouble = the value describes a grid/part (C41, C73) |
| C104, C105 | `PartDatabase::Parse` with messages and its use in `main`; what trouble a directory can make, in the order it is looked at (`Spec/DatabaseMessages.lean`) | `Tells` composed along the stages (`Proofs/DatabaseMessages.lean`, `Props/C104.lean`); C105 false for files that can be opened |
| C106 | no new model; lines of a text, sites a longer text configures anew (`Spec/Compose.lean`) | statements of a part are statements of the whole, except STEPDOWN tags at newly used sites; frames by C50 (`Props/C106.lean`) |
| C107 | no new model; what a design asks of the database (`Spec/Concern.lean`) | every clause of the specification of C50 looks only at what agrees (`Props/C107.lean`) |
| C108 | no new model | C75's template in bytes, with the header in closed form; place of a bit in a big-endian word (`Props/C108.lean`) |
| C109 | no new model | C108's places for three runs, C106's union of bits; also C107 at the level of the program (`Props/C109.lean`) |
| C110 | no new model | relational proof on the pure line functions: what is left of a line with and without trailer, function by function (`Proofs/FasmTrail.lean`), lifted to texts, the assembler and `main` (`Props/C110.lean`) |
| C111 | no new model | per file kind: the line sinks do not see a trailing carriage return, except for blank lines and trailing commas (`Proofs/DbCrlf.lean`); the JSON parser with the same fuel gives the same value and the rewritten rest (`Proofs/JsonCrlf.lean`) |
| C112 | the files, links and messages `CreateReport` leaves behind (`Model/Tidy/ReportFiles.lean`); names stand for files, links or directories | what each name stands for after each step; the text of the details and of the summary by induction on the files and the checks (`Props/C112.lean`) |
| C113 | the writer over any stream (`Model/Append.lean`; equal to `Model/Writer.lean` on its streams by `rfl`), and files opened for appending: writes go to the end, positions are counted as usual (contract of the C library and `O_APPEND`) | what the operations leave by induction on the words; the trailing length word has type bits 0, so reading back sees one more packet without data (`Props/C113.lean`) |
| C114 | `main` as in C72, `AddMissingFrames` on parts of any size | C08_exact carried through `Encode` and `main`; the three other ways assembling can end need no loop; for parts of other shapes the walk is a sequence over 2^32 addresses, endless exactly if it repeats (pigeonhole, `C114_revisits`) (`Props/C114.lean`) |
| C115 | no new model; databases that differ in base addresses only (`Spec/Concern.lean`: `Rebased`) | the encoder's narrowing keeps the first frame per low half (`Proofs/Narrow.lean`); bits of a design lie below 2^32, so frames above it are empty; C107's congruences for the design |
| C116 | no new model; the limit as `FitsPacket` (`Spec/Payload.lean`) | header fields drop high bits; the file of an all-zero design is word for word that of the cut packet followed by packets of type 0, so C18's reading lemmas apply; the last frame of the walk lies behind the cut (`Props/C116.lean`); for any design, words none of which is the header of a write of frames or of an ID make only packets that leave the frames alone, whatever register they name (`Props/C116_design.lean`) |
| C117 | `ValueAsString`: `rapidjson::Writer` (`Model/JsonWriter.lean`, library contract) | the text written is derived in the grammar of C82 by induction over the value; messages by cases over the troubles of C103 (`Props/C117.lean`) |
| C118 | `InitWithBytes`, the packet reader and `InitWithPackets` on a printed file with more bytes behind it | reading goes on behind the written packets (one unit of fuel per packet); words without the header of a write of frames or of an ID give only packets that leave the frames alone, an unknown type ends the reading; C64 for the words that write a frame; the device model is desynchronised for good |
| C119 | `main` as a function of its step budget, from the argument count to the printed file | case distinction along `main`; C104 for the database, C72/C81 lemmas for the text without assuming readable files, inside bits or defined lines; C114 for the end; the four endings exclude each other because a run has one result |
| C120 | `ParseTileGridJSON`, `ParsePartJSON` and `PartDatabase::Parse` on JSON values whose objects list their members in another order | relation `Permuted` between JSON values (`Spec/Members.lean`); induction through the specification of each file (`GridJson`, `PartJson`); moved members amount to another iteration order of the loaded hash maps, then C66 |
| C121 | `ParseSegmentsBits`, `ParsePseudoPIPs`, `ParsePackagePins`, the bank registry and `PartDatabase::Parse` on files whose lines stand in another order | relation `LinesMoved` between directories (`Spec/LineOrder.lean`); files through the entry theorems of C36–C39 and permutations of lists with distinct keys; the registry through C43; then databases with the same answers assemble to the same frames (C66) |
| C122 | `ParsePartsInfos` with `ParseMappingYAML`, `PartDatabase::Parse` and `main` on mapping files that list the same entries | relation `SameEntries` between the entries of two files (`Spec/MappingOrder.lean`); C40 for both, lookups in permuted lists with distinct names; the loaded database is then equal, and so is everything the program does |
| C123 | `PartDatabase::Parse` and `main`, with their messages, on JSON files that are the same text or texts of one value | relation `SameJson` through `Reads` (`Spec/Respelled.lean`); C82: a text has one reading and the parser finds it; then every stage with messages is equal |
| C124 | `main` on directories connected by any number of steps of C120 to C123 | `Rewritten` (`Spec/Rewritten.lean`), induction on the steps; each keeps whether the run gets to assembling and whether the database is settled (`Keeps`), and how the run ends (`Step`) |
| C125 | `main` on two directories that agree on the files the design needs (`NeededAlike`, `Spec/Needed.lean`) | the databases differ at most in tile types of which the design asks nothing (`needed_database`); these are not looked at (C107, and the same for failing runs) |
| C126 | `RunClangTidyOn` of the lint script: what it prints while the workers of `Tidy/Run` take up files (`Model/Tidy/Progress.lean`); a terminal as a small state machine (`Spec/Tidy/Progress.lean`) | induction on the watched execution: the text so far counts down to the length of the queue; induction on that text: the screen |
| C127 | both streams of the lint script's `main` (`Session`, `Model/Tidy/Session.lean`) | case analysis; C94 (what refuses, where the cache is), C112 (report files), C83 and C84 (nothing missing) |
| C128 | `main` on two texts that ask for the same bits (`TextAsks`, `Spec/SameDesign.lean`), and on two lists of source lines that write the same bits as 1 | what a statement contributes to tags, used sites and configuration bits is decided by the bits it asks for (C27: values fit their widths), so the design, whether it assembles, and the frames (C50, unique) are the same; C69 for source lines; C119 for how the run ends |
| C129 | `main`, `parseDatabase`, `encode` and `Device.run`, from the files on disk (`DesignFiles`, `FilesList`, `At`, `Wants` in `Spec/EndToEnd.lean`: no more than a look-up in the grid and the text files) to the memory of the device | C70 (the files give the database), the database says about a bit what the files list (no aliases: one case), C128 (what the lines ask for), C69/C67 (assembly, packets, device), composed; `C129_needs` by C50 |
| C130 | the same with aliases, PUDC_B and STEPDOWN (`Spec/WholeDesign.lean`: `Added`, `WantsBit`, `FileBits`, `Lies`, `FilesSuffice`, all in terms of the files and the lines) | the bank of a tile by C43, additions through `StepdownFeature`/`FirstPudcB` (C54–C56) rewritten in terms of the files, aliases by `KnownAs`; whole-list membership as in C129; hash orders removed by C66; example with all three in `Props/WholeExample.lean` |
| C131 | the throwing `std::filesystem::exists` of `main`, `GetDatabasePaths`: the same program in which questions can be refused (`Model/Exists.lean`); `Spec/Exists.lean` lists the questions | the fold over the listing either meets a refused question or is the one of `Model/Database`; the condition for getting that far by C125/C73; lengths of names; a directory of C66 with one more tile type as the witness |
| C132 | the device of `Spec/Memory.lean` (counts through the frames of `part.json`, two pad frames per row, one frame of pipeline) loads the printed file | the frames of the walk are the frames described, in order (`C132_order` for uniqueness); pouring the written data along that order puts each frame in its place, by induction on the walk (the writer pads exactly where the device skips); then C63 for the library and C130 for the program |
| C133 | `Spec/Interrupted.lean`: a device that works on words as they come (complete packets as in C63, the data there are of the last one) | a cut of the wire format is between packets or in one (induction on the packets); before, in and behind the frame data; pouring some first words fills some first frames as pouring all does; then C63's `encode_file` and C130's run for the words of the printed file |
| C134 | `Spec/WrittenOut.lean`: `WritesOut` (the lines write as 1 exactly what C130's `WantsBit` says), `BanksApart` (no tile in two banks, no dots in names of tiles of banks) | a STEPDOWN tag of a written-out line is in the bank it was added for, so the written-out file has the same tags in the same banks and gets no other additions (`C134_wants`, `C134_suffice`); two designs with the same `WantsBit` have the same frames (`whole_lists`, `framesOf_unique`) and so the same output (`C134_same`); finitely many names can be added, so every design has a written-out form of plain lines (`C134_exists`, `C134_written`); C130's example written out in five lines; a database with a tile in two banks, for which written-out lines get one more STEPDOWN (`C134_two_banks`) |
| C135 | `Spec/Telling.lean`: `SaysBit` (a place set for something asked for or added), `CanTell` (a place of its own among a vocabulary) | C108's difference of two files, whose wanted bits are rewritten in terms of the files by C130's `whole_bit`; hash orders removed by C66 (`C135_places`); a place of its own decides (`C135_tells`); C130's example against the empty design |
| C136 | `Spec/Telling.lean`: `Vocabulary` (feature bits with a place each of its own), `Stored` (the place is set in a memory), `Disassembles` (the lines name exactly the set places) | C132 gives the memory after loading; a place of its own is set iff its feature bit is wanted; the printed lines are then a written-out form, so C134 gives the same bitstream (`C136_device`); `disassembly` shows such lines exist; instance on the yard |
| C137 | nothing new: `Stored`, `WantsBit`, `FileBits`, `Lies`, `Device.run` of C130–C136 | C132 for both designs and contraposition, frames compared word by word (`C137_change`); equal additions from equal STEPDOWN tags and IOB33 sites (`C137_added`), then only tiles whose lines differ matter (`C137_tiles`); the yard against the empty design, and the empty design against a line about one tile |

## Not modelled

Allocation failure; threads other than those of the lint script (the assembler has none); command-line flag parsing
(`absl::ParseCommandLine`, its result is an input); texts made by libraries (`strerror`, the reasons of rapidjson, JSON values written by it (but see C117), a status printed by abseil: inputs of `mainM`), what `CHECK` prints; `bistream-writer.h` (a stale unused duplicate);
of `scripts/run-clang-tidy-cached.cc`: project directories with characters special in patterns other than the dot; the stack depth of the JSON parser and of `std::regex` (libstdc++ matches by recursion, a very long line can exhaust the stack); the time of check to
time of use between `exists` and `open`; that packets with a payload are deleted through a base class without
virtual destructor (undefined by the letter of the standard, without effect with the usual allocators). `frames.h` `AddFrame` cannot be instantiated and
is left out, as are the `file_closer` of `main` (it captures `stdin` by value before the input file is opened, so an opened input file is closed by the end of the process only), `Configuration::PrintFrameAddresses` (casts an address to `int`, for which there
is no conversion) and `operator<<` of packets (names enumerators that do not exist). `mask_db` paths are computed but never read.

## What the model says about the code

Statements that turned out false, each proved as a theorem:

* A part whose frame data reaches 2^27 words is assembled without complaint into a file that lacks frames: the packet count wraps
  (C116; no shipped part is near that size).
* The reader goes on behind the end of a bitstream (it does not know DESYNC), and reads outside the file when the number of bytes there is no multiple of
  four (C118).
* With a tile that has pins in two banks, what the assembler adds depends on whether it is written as lines: additions of the second bank, written out,
  count for the bank of the first pin (C134).
* The progress display of the lint script drifts to the right from 100000 files on (C126).
* A tile type with a name of 235 to 240 bytes, used or not, terminates the program: the name of its block RAM segbits file is too long for the
  system to answer whether it exists (C131).
* `Encode` never updates the ECC of frames (C23); a foreign frame address shifts the whole
  stream (C15), so that a bit of such a frame is read back in the next frame of the part, with status 0 (C95); a type-1 packet longer than 2047 words is truncated (C09); written to a pipe,
  the length field stays 0 (C19); a sync word inside a header string misleads the reader (C18).
* A CFG_CLB bus is filed under CLB_IO_CLK, and with both the result depends on hash order
  (C06, C66); a part taller than the row field or wider than the column field makes `AddMissingFrames` diverge (C08, exactly those), and with it the program, without a message (C114); a column of more than 128 frames makes it add frames of a column that does not exist (`C08_wide_column`); in a part with a row missing the walk ends before it, so frames behind the hole are never completed (`gap_walk`).
* FASM: a value ending in a tick reads past the buffer or swallows the next line (C24);
  17-digit hex values are misread (C26); shifts by 64 or more (C27); a user abort does not
  stop later lines (C31); in the assembler such a line ends in an error or in undefined behaviour,
  depending on the lengths of the lines before it (C72); a line with an inverted range is skipped with whatever follows it, an
  unknown number format still reports the feature with value 1 (C71).
* Text databases: without a final newline one byte behind the file is read, a crash exactly
  for page-multiple lengths (C35, C65); `A[1x]` gets an unspecified address (C36); an empty
  pin file passes without header, empty cells are not positional (C39); base addresses that
  are not numbers become 0 (C42); malformed tile type files are silently dropped (C44).
* JSON texts: everything behind a NUL byte that follows the value is ignored, and any of the three bytes of a byte
  order mark in order is skipped (C82).
* JSON: `bits` or `iobanks` of a wrong type is undefined behaviour, rows out of sequence
  terminate the program (C68).
* The site table of an alias is applied to everything behind the first dot (C48); with two
  aliases the last one iterated wins (C47).
* Zero-valued statements for unknown features are accepted (C53); a STEPDOWN tile without
  bank terminates the program (C54); two PUDC_B pins, or two banks with one location, make
  the output depend on hash order (C66).
* Failures of standard output are ignored (C58).
* The assembler hands the parser one line at a time: every message about the input says that it is line 1 (C97).
* The walk over the database directory stops at the first directory that fails and says nothing: both messages of the loop are dead code, since a failing
  `increment` makes the iterator the end iterator, and `is_regular_file` is false when it fails (C98, C100). Files of a tile type that cannot be opened are
  dropped silently as well. A run that still succeeds has the right output (C99).
* The program writes no NULL command after the frame data, so the "configuration logic suffix" the
  reader prints for its files begins before the frame data and contains all of them (or begins inside
  them, where frame words look like the command) (C80).
* `ProcessFasmFeatures` stores at `frame[word]` without a bounds check, and `ConfigBits` computes the word from the tile's
  `offset`, the alias `start_offset` and the bit number of the segbits file modulo 2^32: a database bit beyond word 100 is
  written outside the frame (C81; exact for C72's conditions).
* Printing an address leaves `showbase` set on the stream and prints no type for the block types
  4 to 7 (C78).
* The lint script does nothing and reports success where `std::thread::hardware_concurrency()` is 0 and `CLANG_TIDY_JOBS` is not set
  (`C94_defect_no_cores`); it insists on `.clang-tidy` in the current directory even if `CLANG_TIDY_CONFIG` names another file (`C94_defect_config`).
* The lint script makes temporary names unique by process number only: two files with the same name and the same key (say, two
  identical headers in different directories) share one when two threads examine them at once; findings are lost, an entry holds bytes no run printed, or the
  process is terminated by the failing `rename` (C84). Without `CLANG_TIDY_JOBS` on a system whose number of processors is unknown nothing is
  examined (C83).
* The key of a file is an XOR of hashes: a header included twice, or two equal headers of one name, cancel out, so their changes
  are not noticed; headers included by headers, and names with two dots, do not count at all (C85).
* The summary skips the second of two finding lines in a row and names of checks with digits or commas; a command killed by
  `SIGINT` ends only its worker, and the files not examined count as clean, with status 0 (C86). Any other failure of the
  command (also a crash) is taken for a complete run and cached.
* A finding whose message mentions a place in another file is filed under that file and dropped (C87).
* The path of the project is put into a pattern as it is: a dot in it also matches sibling directories, in a
  directory with a plus sign in its path (`/src/c++`) names stay absolute (C88), other special characters change its meaning or terminate the script.
* Names are put between single quotes as they are: a quote in a file name changes the command (C91). Projects with the same directory
  name share a cache (C90); only 32 of the 64 bits of the key are used there.
* The message about a missing `]` shows the text up to and including the newline and so breaks over two lines; six messages print
  the line number with `%d`, negative from line 2^31 on; a NUL in the text cuts the message short (C92).
* Messages about the database: an unknown state in a ppips file has no line number (C101); problems of the mapping files name neither line nor
  entry (C102), those of part.json no row or column (C103), and a bad file that can be opened is not named (C105). Bad segbits and ppips files
  give no message at all (`TODO` in `database.cc`).
* Adding a line to a design can clear a bit: a site becomes used, its STEPDOWN feature is no longer added (C106).
* Everything behind a carriage return in a FASM line is ignored without a word, so a file with bare CR line ends loses all but its first
  line (C110); a comment with a quotation mark can complete an annotation left open (C110).
* With CRLF line ends a blank line makes a ppips file unreadable and a blank line or a trailing comma the pin file (C111); a row with an
  empty function, refused with LF, is then accepted.
* With `>>` every byte goes to the end of the file, so the length stays 0 and its bytes follow the data; the file still reads back (C113).
