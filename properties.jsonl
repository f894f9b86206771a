{"id": "C01", "title": "Bit-field set/get law", "statement": "Setting bits top..bottom of a register to a value and reading the same field returns the value truncated to the field width; every bit outside the field is unchanged; writing the same field twice keeps the last value.", "quantifier": "every register value, every field value, every 0<=bottom<=top<width, 32-bit and 64-bit words", "why_tests_cant": "2^32 x 2^32 x 528 combinations; a spot check cannot rule out one off-by-one mask", "anchors": ["fpga/xilinx/bit-ops.h: bit_field_set, bit_field_get, bit_mask_range, bit_mask"]}
{"id": "C02", "title": "Frame address packs and unpacks losslessly", "statement": "Building a frame address from (block type, half, row, column, minor) and reading the five accessors gives back each component truncated to its field (3/1/5/10/7 bits) when the block type is one of the defined ones; conversely any 26-bit word is rebuilt from its own accessors; two different in-range coordinates never share an address.", "quantifier": "every coordinate tuple of the C++ parameter types, every 32-bit word", "why_tests_cant": "the coordinate space is 2^26; aliasing of two coordinates silently corrupts another tile", "anchors": ["fpga/xilinx/arch-xc7-frame.h: FrameAddress, block_type, is_bottom_half_rows, row, column, minor"]}
{"id": "C03", "title": "Frame address order is geometric order", "statement": "Numeric order of frame addresses (the order frames are written to the device) is the lexicographic order of (block type, half, row, column, minor).", "quantifier": "every pair of in-range coordinate tuples", "why_tests_cant": "2^52 pairs; the ordered map and the auto-increment readback both depend on it for all of them", "anchors": ["fpga/xilinx/arch-xc7-frame.h: FrameAddress, operator uint32_t", "fpga/xilinx/frames.h: Frames (absl::btree_map)"]}
{"id": "C04", "title": "Next frame address is valid and strictly increasing", "statement": "For a part whose row indices, column indices and frame counts fit the address fields, the address following a valid address is itself valid for the part and numerically greater.", "quantifier": "every in-range part (any number of rows/columns, any gaps), every 26-bit frame address", "why_tests_cant": "parts are arbitrary maps loaded from JSON; only a proof covers all gap patterns and boundary rows", "anchors": ["fpga/xilinx/arch-xc7-part.cc: Part::GetNextFrameAddress, GlobalClockRegion::GetNextFrameAddress, Row::GetNextFrameAddress, ConfigurationBus::GetNextFrameAddress, ConfigurationColumn::GetNextFrameAddress"]}
{"id": "C05", "title": "Next frame address skips nothing", "statement": "For a dense part the next address after a valid address is the least valid address greater than it, and there is none exactly when the address is the last valid one.", "quantifier": "every dense in-range part, every valid 26-bit frame address", "why_tests_cant": "skipping one frame shifts every following frame of the bitstream; must hold for all part shapes", "anchors": ["fpga/xilinx/arch-xc7-part.cc: Part::GetNextFrameAddress, GlobalClockRegion::GetNextFrameAddress"]}
{"id": "C06", "title": "Part description and address validity agree", "statement": "A part built from a parsed part description accepts an address exactly when the description has a column at that half/row/bus/column with more frames than the minor number.", "quantifier": "every part description, every address", "why_tests_cant": "nested maps with arbitrary contents; one swapped level accepts wrong frames", "anchors": ["fpga/xilinx/arch-xc7-part.cc: Part::FromPart, GlobalClockRegionFrom, RowFrom, BlockTypeFrom, Part::IsValidFrameAddress", "fpga/database-parsers.h: Part"]}
{"id": "C07", "title": "Filling missing frames is complete and preserving", "statement": "Completing a frame map for a part keeps every frame already present bit-for-bit, adds every frame reached from address 0 as an all-zero frame and adds nothing else; for dense parts the result has every valid address of the part.", "quantifier": "every in-range part, every initial frame map", "why_tests_cant": "the loop walks the whole device; only induction shows nothing is overwritten or skipped", "anchors": ["fpga/xilinx/frames.h: Frames::AddMissingFrames", "fpga/xilinx/arch-xc7-part.cc: Part::GetNextFrameAddress"]}
{"id": "C08", "title": "Filling missing frames terminates", "statement": "Completing a frame map terminates for every part whose coordinates fit the address fields (and, as a finding, does not for larger parts, which the loader accepts). For part descriptions of the documented shape it terminates exactly when every described row number is below 32 and column number below 1024.", "quantifier": "every in-range part; every description of the documented shape, of any size, for the exact condition; every initial frame map", "why_tests_cant": "non-termination cannot be observed by a finite test", "anchors": ["fpga/xilinx/frames.h: Frames::AddMissingFrames", "fpga/xilinx/arch-xc7-part.h: ConfigurationBus, GlobalClockRegion"]}
{"id": "C09", "title": "Packet write/read round trip", "statement": "Serialising a configuration packet to its header and data words and decoding the words returns the same packet (type, opcode, register, data) and exactly the remaining words.", "quantifier": "every opcode, register, payload below the count-field limit, every suffix of words, type 1 and type 2", "why_tests_cant": "payload lengths up to 2^27 and arbitrary suffixes", "anchors": ["fpga/xilinx/bitstream-writer.cc: PacketHeader", "fpga/xilinx/bitstream-writer.h: PacketRange/iterator", "fpga/xilinx/arch-xc7-configuration-packet.cc: InitWithWordsImpl"]}
{"id": "C10", "title": "Writer emits exactly header then packets", "statement": "Iterating the bitstream writer yields exactly the sync header words followed, for each packet in order, by its header word and its data words, with no word lost, duplicated or invented.", "quantifier": "every architecture header, every list of (non-null) packets including those with empty payloads", "why_tests_cant": "the iterator is a hand-written state machine over nested optionals; all packet sequences matter", "anchors": ["fpga/xilinx/bitstream-writer.h: BitstreamWriter::iterator::operator++, operator*, begin, end", "fpga/xilinx/bitstream-writer.cc: header_, PacketHeader"]}
{"id": "C11", "title": "Packet reader terminates and only returns slices of the input", "statement": "Iterating packets over any word sequence terminates, each packet payload is a contiguous slice of the input at the position reached so far, and payloads do not overlap.", "quantifier": "every sequence of 32-bit words, including malformed ones", "why_tests_cant": "adversarial bitstreams; termination on all inputs cannot be tested", "anchors": ["fpga/xilinx/bitstream-reader.h: iterator::operator++", "fpga/xilinx/arch-xc7-configuration-packet.cc: InitWithWordsImpl"]}
{"id": "C12", "title": "Type-2 packets inherit the register of the previous packet", "statement": "A type-2 packet is delivered with the register address of the packet that immediately precedes it; with no predecessor its words are consumed without producing a packet; a payload longer than the remaining words yields no packet and consumes nothing.", "quantifier": "every word sequence and every previous packet", "why_tests_cant": "depends on history of the whole stream", "anchors": ["fpga/xilinx/arch-xc7-configuration-packet.cc: InitWithWordsImpl"]}
{"id": "C13", "title": "Big-endian word view inverts serialisation", "statement": "Reading the bytes of serialised 32-bit words through the big-endian view gives the same words; the view of a byte sequence whose length is a multiple of four re-serialises to itself; otherwise the range loop reads outside the buffer.", "quantifier": "every word list and byte list", "why_tests_cant": "all byte lengths and contents", "anchors": ["fpga/xilinx/big-endian-span.h: BigEndianSpan", "fpga/xilinx/bitstream-writer.h: writeBitstream"]}
{"id": "C14", "title": "Bytes before the sync word are ignored", "statement": "The reader finds the first occurrence of AA 99 55 66 and the words it exposes depend only on the bytes after it; without a sync word it returns nothing.", "quantifier": "every byte sequence and every prefix not containing the sync word", "why_tests_cant": "prefixes are arbitrary vendor headers that may overlap the sync word", "anchors": ["fpga/xilinx/bitstream-reader.h: BitstreamReader::InitWithBytes"]}
{"id": "C15", "title": "Frame-data payload round trip", "statement": "Decoding the frame data words generated for a part and a frame map returns exactly the frames that were written, at their addresses.", "quantifier": "every dense in-range part, every complete frame map of that part, every frame content", "why_tests_cant": "device-wide auto-increment address arithmetic on both sides must agree at every row boundary", "anchors": ["fpga/xilinx/configuration.h: CreateType2ConfigurationPacketData, InitWithPackets"]}
{"id": "C16", "title": "Frame-data payload length and separators", "statement": "The payload has exactly (number of frames + two per row boundary + two) times words-per-frame words, padding words are zero, and frame k occupies its computed slot unchanged.", "quantifier": "every frame map and part", "why_tests_cant": "sizes are unbounded; device rejects any other length", "anchors": ["fpga/xilinx/configuration.h: CreateType2ConfigurationPacketData"]}
{"id": "C17", "title": "Wrong IDCODE is rejected", "statement": "A packet stream that writes an IDCODE register value different from the part IDCODE before decoding finishes yields no configuration.", "quantifier": "every packet list, every part", "why_tests_cant": "history property: position of the packet in the stream is arbitrary", "anchors": ["fpga/xilinx/configuration.h: InitWithPackets"]}
{"id": "C18", "title": "Bitstream round trip", "statement": "Encoding a frame map for a part to a bitstream file and reading it back with the reader yields a configuration with the part IDCODE and exactly the completed frames.", "quantifier": "every in-range part (with or without gaps) whose frame data, row padding included, is below 2^27 words - the largest count a packet can announce, every frame map within the part, all strings whose file header does not contain the sync word, output that can seek and output that cannot", "why_tests_cant": "end-to-end statement over unbounded frame maps", "anchors": ["fpga/xilinx/bitstream.h: BitStream::Encode", "fpga/xilinx/bitstream-writer.h: writeBitstream", "fpga/xilinx/bitstream-reader.h", "fpga/xilinx/configuration.h: InitWithPackets"]}
{"id": "C19", "title": "File header and length field", "statement": "The file starts with the documented tag/length/value header for design, part, date and time, and the four length bytes after tag e equal the number of configuration bytes that follow, when the output is seekable.", "quantifier": "all strings below the 16-bit length limit, all packet lists", "why_tests_cant": "lengths range over 2^16 and 2^32; pipe behaviour differs from file behaviour", "anchors": ["fpga/xilinx/bitstream-writer.h: writeBitstream, create_header"]}
{"id": "C20", "title": "ECC update is local, idempotent and self-consistent", "statement": "Updating the ECC of a frame changes only the low 13 bits of word 50, is idempotent, and afterwards the stored ECC equals the recomputed ECC.", "quantifier": "every 101-word frame", "why_tests_cant": "2^3232 frames", "anchors": ["fpga/xilinx/arch-xc7-frame.h: UpdateECC, CalculateECC", "fpga/xilinx/arch-xc7-frame.cc: ICAPECC"]}
{"id": "C21", "title": "ECC detects bit errors", "statement": "After an ECC update, flipping any one bit, any two bits, or any odd number of bits of the frame makes the stored and recomputed ECC differ.", "quantifier": "every frame, every set of flipped positions of the given shape", "why_tests_cant": "3232 choose 2 pairs times all frames", "anchors": ["fpga/xilinx/arch-xc7-frame.cc: ICAPECC"]}
{"id": "C22", "title": "CRC step is a bijection and detects single-word changes", "statement": "The configuration CRC step is linear over XOR; for a fixed (address,data) it is injective in the previous CRC; changing the address/data of a single step always changes the final CRC of any history when the change is one bit.", "quantifier": "every CRC state, address, data, and every suffix of later steps", "why_tests_cant": "2^32 states times arbitrarily long histories", "anchors": ["fpga/xilinx/arch-xc7-frame.h: ICAPCRC"]}
{"id": "C23", "title": "Emitted frames carry valid ECC", "statement": "Every frame in the emitted bitstream has an ECC field consistent with its contents.", "quantifier": "every assembled design", "why_tests_cant": "must hold for all frames of all designs", "anchors": ["fpga/xilinx/bitstream.h: Encode", "fpga/xilinx/arch-xc7-frame.h: UpdateECC", "fpga/xilinx/frames.h"]}
{"id": "C24", "title": "FASM parser never reads outside its input", "statement": "Parsing any newline-terminated text stays inside the buffer.", "quantifier": "every byte string ending in newline", "why_tests_cant": "memory safety over all inputs", "anchors": ["fpga/fasm-parser.h: Parse, fasm_parse_number_with_base, fasm_skip_blank"]}
{"id": "C25", "title": "Well-formed FASM lines produce exactly the described assignment", "statement": "A line NAME[HI:LO] = W'bDIGITS delivers exactly one feature callback with that name, start bit LO, width HI-LO+1 and the numeric value truncated to the width; the bit range and value are optional with documented defaults.", "quantifier": "all names, bit ranges up to 64 wide, values, bases, digit separators, whitespace and trailing comments", "why_tests_cant": "infinite language of lines", "anchors": ["fpga/fasm-parser.h: Parse"]}
{"id": "C26", "title": "Wide values are delivered with their numeric value", "statement": "A value wider than 64 bits is delivered as a sequence of chunks that concatenate (by start bit) to the value written in the file.", "quantifier": "all hex and binary numbers of any length", "why_tests_cant": "arbitrary lengths", "anchors": ["fpga/fasm-parser.h: fasm_parse_number_with_base, Parse"]}
{"id": "C27", "title": "Delivered width and value are consistent", "statement": "Every feature callback has width between 1 and 64 and a value that fits the width; no undefined shift is executed.", "quantifier": "every input", "why_tests_cant": "all inputs", "anchors": ["fpga/fasm-parser.h: Parse"]}
{"id": "C28", "title": "Parse result is the worst severity seen", "statement": "The parse result is the maximum severity over everything that happened; it is success exactly when no diagnostic was produced and no callback aborted; it never improves as more lines are parsed.", "quantifier": "every input", "why_tests_cant": "history property over all lines", "anchors": ["fpga/fasm-parser.h: Parse, ParseResult, operator|="]}
{"id": "C29", "title": "Parsing is line-compositional", "statement": "Parsing a file equals parsing its lines one by one and concatenating callbacks, with the result being the worst line result; the assembler's per-line parse and a whole-file parse deliver the same features.", "quantifier": "every text whose lines are free of the dangling-tick defect", "why_tests_cant": "all inputs and splits", "anchors": ["fpga/fasm-parser.h: Parse", "fpga/assembler.cc: AssembleFrames"]}
{"id": "C30", "title": "Line numbers are correct", "statement": "Each callback and diagnostic carries the 1-based number of the line that produced it.", "quantifier": "every input free of the dangling-tick defect", "why_tests_cant": "all inputs", "anchors": ["fpga/fasm-parser.h: Parse"]}
{"id": "C31", "title": "Callback abort stops the parse", "statement": "When the feature callback returns false no further callbacks are made and the result is user-abort.", "quantifier": "every input, every callback", "why_tests_cant": "history property; documentation promises it", "anchors": ["fpga/fasm-parser.h: ParseCallback, Parse"]}
{"id": "C32", "title": "Comments and blank lines are ignored", "statement": "Blank lines, whitespace, carriage returns and # comments never produce callbacks or diagnostics and do not change the result of neighbouring lines.", "quantifier": "every text and every insertion point", "why_tests_cant": "all insertions", "anchors": ["fpga/fasm-parser.h: Parse, fasm_skip_to_eol"]}
{"id": "C33", "title": "Annotations are delivered exactly", "statement": "A brace-enclosed annotation list after a feature delivers each name = \"value\" pair once, in order, with escapes kept as written.", "quantifier": "all well-formed annotation lists", "why_tests_cant": "infinite language", "anchors": ["fpga/fasm-parser.h: annotation parsing"]}
{"id": "C34", "title": "Annotations do not affect features", "statement": "Supplying or omitting the annotation callback never changes the feature callbacks.", "quantifier": "every input", "why_tests_cant": "all inputs; two-run (relational) property", "anchors": ["fpga/fasm-parser.h: Parse"]}
{"id": "C35", "title": "Line splitting of database files is exact", "statement": "Iterating the lines of a database text yields exactly its newline-separated lines in order, without loss, ending after the last one.", "quantifier": "every text", "why_tests_cant": "all texts incl. without trailing newline", "anchors": ["fpga/database-parsers.cc: LinesGenerator"]}
{"id": "C36", "title": "Segbits database round trip", "statement": "A segbits line rendered from a feature name, an address and a list of (bit, frame) with optional negation parses back to exactly that entry; a file maps every feature to its bits and the first definition of a duplicate wins.", "quantifier": "all feature names, addresses, bit lists, files", "why_tests_cant": "infinite language", "anchors": ["fpga/database-parsers.cc: ParseSegmentsBits, ParseTileFeatureNameAndAddress, line parser"]}
{"id": "C37", "title": "Malformed segbits are rejected", "statement": "A segbits file with any malformed line yields an error, never a partial database.", "quantifier": "every text with a malformed line at any position", "why_tests_cant": "position is arbitrary", "anchors": ["fpga/database-parsers.cc: ParseSegmentsBits"]}
{"id": "C38", "title": "Pseudo-PIP database exact", "statement": "A ppips file maps each feature to always/default/hint exactly as written; unknown types or malformed lines reject the file.", "quantifier": "all texts", "why_tests_cant": "all texts", "anchors": ["fpga/database-parsers.cc: ParsePseudoPIPsDatabase"]}
{"id": "C39", "title": "Package pins CSV exact", "statement": "Parsing a package-pins CSV yields exactly one record per data row with the five columns in place; wrong header or wrong column count or unparsable bank rejects the file.", "quantifier": "all files", "why_tests_cant": "all texts", "anchors": ["fpga/database-parsers.cc: ParsePackagePins"]}
{"id": "C40", "title": "Parts mapping join", "statement": "The part table built from the mapping YAMLs contains a part exactly when it has a device whose fabric is known, with those fabric, device, package and speed values.", "quantifier": "all mapping files", "why_tests_cant": "all inputs", "anchors": ["fpga/database-parsers.cc: ParsePartsInfos, ParseMappingYAML"]}
{"id": "C41", "title": "Part JSON decodes exactly", "statement": "A part description rendered as JSON decodes to the same clock regions, rows, buses, columns and IDCODE; out-of-sequence or missing keys never yield a wrong part.", "quantifier": "all part descriptions, all JSON values", "why_tests_cant": "recursive structure with arbitrary sizes", "anchors": ["fpga/database-parsers.cc: ParsePartJSON, Unmarshal"]}
{"id": "C42", "title": "Tile grid JSON decodes exactly", "statement": "A tile grid rendered as JSON decodes to the same tiles with the same base addresses, offsets, frame and word counts, sites and pin functions.", "quantifier": "all grids", "why_tests_cant": "recursive structure", "anchors": ["fpga/database-parsers.cc: ParseTileGridJSON, Unmarshal"]}
{"id": "C43", "title": "Bank registry is the two-way join of package pins and IO banks", "statement": "Looking up a bank gives exactly the IOB tiles of its pins plus its HCLK tile, and looking up a tile gives exactly the banks it is in.", "quantifier": "all pin tables and bank tables", "why_tests_cant": "relations of any size", "anchors": ["fpga/database.cc: BanksTilesRegistry::Create, Tiles, TileBanks"]}
{"id": "C44", "title": "Tile-type database files are indexed by name", "statement": "Indexing a database directory associates each tile type with its ppips, segbits and BRAM segbits files and with nothing else.", "quantifier": "all directory listings in any order", "why_tests_cant": "any listing order", "anchors": ["fpga/database.cc: IndexTileTypes"]}
{"id": "C45", "title": "Feature bits resolve by base + offset arithmetic", "statement": "The configuration bit for a segbit (frame f, bit b) of a tile with base address A and offset O is frame A+f, word (O*32+b)/32, index (O*32+b)%32, including tile-type aliases with a different start offset.", "quantifier": "all tiles, segbits, bus blocks and aliases", "why_tests_cant": "unbounded integers with wrap-around", "anchors": ["fpga/database.cc: PartDatabase::ConfigBits"]}
{"id": "C46", "title": "Segbits cache is transparent", "statement": "The bits reported for a feature do not depend on which features were queried before.", "quantifier": "every query history", "why_tests_cant": "history property", "anchors": ["fpga/database.cc: PartDatabase::ConfigBits, AddSegbitsToCache"]}
{"id": "C47", "title": "Results do not depend on hash order", "statement": "The bits reported for a feature do not depend on hash-map iteration order.", "quantifier": "every iteration order of every hash container", "why_tests_cant": "iteration order is not controllable by tests", "anchors": ["fpga/database.cc: PartDatabase::ConfigBits"]}
{"id": "C48", "title": "Tile alias maps sites", "statement": "For an aliased tile the site component of a feature is translated through the alias site table.", "quantifier": "all aliased tiles and features", "why_tests_cant": "all inputs", "anchors": ["fpga/database.cc: PartDatabase::ConfigBits"]}
{"id": "C49", "title": "Pseudo PIPs configure nothing", "statement": "A feature listed as a pseudo PIP sets no bits and is never an error.", "quantifier": "all tiles, features", "why_tests_cant": "all inputs", "anchors": ["fpga/database.cc: PartDatabase::ConfigBits"]}
{"id": "C50", "title": "Assembled frame bits are exactly the union of enabled features", "statement": "After assembling a feature list, a bit of a frame is 1 exactly when some enabled feature bit lists it without negation; no other bit is set.", "quantifier": "every feature list, every database", "why_tests_cant": "all designs", "anchors": ["fpga/assembler.cc: ProcessFasmFeatures, AssembleFrames"]}
{"id": "C51", "title": "Feature order and repetition do not matter", "statement": "Permuting or repeating feature statements yields the same frames.", "quantifier": "all permutations of all feature lists", "why_tests_cant": "n! orders", "anchors": ["fpga/assembler.cc: ProcessFasmFeatures, AssembleFrames"]}
{"id": "C52", "title": "Frames of used tiles are all emitted", "statement": "Whenever a feature of a tile is set, every frame of the bus blocks used by it is present in the result.", "quantifier": "all designs", "why_tests_cant": "all designs", "anchors": ["fpga/assembler.cc: ProcessFasmFeatures"]}
{"id": "C53", "title": "Unknown features are never silently ignored", "statement": "A statement for a tile or feature absent from the database never yields a successful frame set.", "quantifier": "all designs, unknown names at any position", "why_tests_cant": "position arbitrary", "anchors": ["fpga/database.cc: ConfigBits", "fpga/assembler.cc: ProcessFasmFeatures"]}
{"id": "C54", "title": "STEPDOWN is propagated bank-wide", "statement": "When a design uses a STEPDOWN tag in a bank, every IOB33 site of that bank that the design does not configure, and its HCLK_IOI3 tile, receive it, and nothing is added otherwise.", "quantifier": "all designs and bank layouts", "why_tests_cant": "relations of any size", "anchors": ["fpga/assembler.cc: AddStepDownFeatures"]}
{"id": "C55", "title": "PUDC_B pin is configured", "statement": "When the tile grid has a PUDC_B pin, exactly the three default features are added for its site, otherwise none.", "quantifier": "all grids and designs", "why_tests_cant": "all grids", "anchors": ["fpga/assembler.cc: AddPUDCBFeatures, FindPUDCBTileSite"]}
{"id": "C56", "title": "A bad FASM line produces no frames", "statement": "If any line has a parse error the assembly returns an error.", "quantifier": "bad line at any position among any lines", "why_tests_cant": "position arbitrary", "anchors": ["fpga/assembler.cc: AssembleFrames"]}
{"id": "C57", "title": "Zero-valued features set nothing", "statement": "A feature bit assigned 0 sets no configuration bit.", "quantifier": "all features, widths and values", "why_tests_cant": "all values", "anchors": ["fpga/assembler.cc: ProcessFasmFeatures"]}
{"id": "C58", "title": "Bitstream output only on success", "statement": "The program writes bitstream bytes only if every earlier stage succeeded, and its exit status is 0 only if the bitstream was produced.", "quantifier": "every outcome of every stage", "why_tests_cant": "combinatorial failure points", "anchors": ["fpga/assembler.cc: main"]}
{"id": "C59", "title": "IOB sites are numbered by parity", "statement": "Site names ending _X..Y.. resolve to IOB_Y0/IOB_Y1 by the parity of the trailing digit for every tile.", "quantifier": "all site maps", "why_tests_cant": "all grids", "anchors": ["fpga/assembler.cc: GetIOBSites, FindPUDCBTileSite"]}
{"id": "C60", "title": "End-to-end: every enabled bit survives to the readback", "statement": "Assembling FASM text and encoding it gives a bitstream whose readback has exactly the enabled bits set.", "quantifier": "all designs, in-range parts with or without holes, database bits in frames the walk over the part reaches", "why_tests_cant": "end-to-end composition", "anchors": ["fpga/assembler.cc: main, AssembleFrames", "fpga/xilinx/bitstream.h: Encode", "fpga/xilinx/configuration.h: InitWithPackets"]}
{"id": "C61", "title": "Settings resolution", "statement": "A command-line option overrides its environment variable, and an unset option with no environment variable is an error.", "quantifier": "all option/environment combinations", "why_tests_cant": "all strings", "anchors": ["fpga/assembler.cc: GetOptFlagOrFromEnv"]}
{"id": "C62", "title": "Part rebuilt from its address list", "statement": "A part constructed from a list of frame addresses accepts exactly the listed columns and their minors up to the maximum listed, independently of list order and duplicates.", "quantifier": "every list of frame addresses", "why_tests_cant": "all permutations of all lists", "anchors": ["fpga/xilinx/arch-xc7-part.h: Part, GlobalClockRegion, Row, ConfigurationBus, ConfigurationColumn iterator constructors"]}
{"id": "C63", "title": "The file programs a device", "statement": "A 7-series configuration engine (registers and commands as documented in UG470) that executes the words of the printed file after the sync word: a device with the IDCODE of the part accepts it, loads exactly one block of frame data starting at frame address 0 in which every frame has its slot, sees the last-frame and start commands in order and desynchronises; any other device reports an ID error, loads nothing and never starts. Before the sync word there are only dummy words and the bus width pattern.", "quantifier": "every part whose coordinates fit, every frame map on its walk, every IDCODE of the device, file or pipe", "why_tests_cant": "all devices and frame maps; a test compares one golden file", "anchors": ["fpga/xilinx/configuration.cc: CreateConfigurationPackage", "fpga/xilinx/bitstream.h: Encode", "fpga/xilinx/bitstream-writer.cc: header_"]}
{"id": "C64", "title": "Read-back of arbitrary configuration sequences", "statement": "When a packet sequence is read back, CMD WCFG + FAR a + FDRI puts the words into consecutive frames from a (skipping two frames at row ends) over what was there; a further FDRI continues where the last one ended; FAR alone begins a new block exactly under WCFG with bit 21 of CTL1 (as masked) clear; packets to other registers, reads, NOPs and empty writes never matter.", "quantifier": "every packet history, every part whose coordinates fit, every frame size, every address and block length", "why_tests_cant": "all histories of register writes", "anchors": ["fpga/xilinx/configuration.h: InitWithPackets"]}
{"id": "C65", "title": "Reading database files from disk", "statement": "A file that cannot be opened is reported as an error; of a regular file the line parsers see exactly its content; they crash exactly when the length is a multiple of the page size, the last line is not newline-terminated and everything before it was accepted; a newline-terminated file never crashes. (A directory given in place of a file is not detected.)", "quantifier": "every file content, every path, the three line-based parsers", "why_tests_cant": "every file length and content; a test directory has a handful of files", "anchors": ["fpga/memory-mapped-file.cc: MemoryMapFile", "fpga/database-parsers.cc: LinesGenerator"]}
{"id": "C66", "title": "Reproducible output", "statement": "For a database in which nothing is left to the hash order (aliases of a tile agree, at most one PUDC_B pin, banks have distinct locations, no row has two buses of one block type) the exit status 0 and the complete output of the program are the same for every iteration order of every hash container. Runs that do not succeed are reproducible too: one that is refused with status 1, never ends, or is broken off or undefined, does the same in every order. (Where a condition fails the output does depend on the order.)", "quantifier": "every database, design, invocation and every pair of iteration orders of all hash maps and sets", "why_tests_cant": "absl randomises hash order per process; a test sees one order", "anchors": ["fpga/assembler.cc: main, AssembleFrames, AddStepDownFeatures, FindPUDCBTileSite", "fpga/database.cc: ConfigBits, BanksTilesRegistry::Create", "fpga/xilinx/arch-xc7-part.cc: RowFrom"]}
{"id": "C67", "title": "From FASM text to device", "statement": "For a part (without holes, or a design that touches only frames the walk over the part reaches) and a design that assembles and touches only frames of the part, the program exits 0 and what it prints, to a file or a pipe, configures a device: a device with the IDCODE of the part loads one block of frame data from frame address 0, starts and leaves configuration mode; in that block bit b of word w of a frame is 1 exactly when the database lists it for a statement of the design; a device with another IDCODE loads nothing and does not start.", "quantifier": "every database, design text, invocation, hash order and device IDCODE", "why_tests_cant": "no board in a test; every design and every bit", "anchors": ["fpga/assembler.cc: main", "fpga/xilinx/bitstream.h: Encode", "fpga/xilinx/configuration.h: CreateConfigurationPackage"]}
{"id": "C68", "title": "Malformed JSON databases are reported", "statement": "A tile grid whose bits members are objects, and a part whose banks are an object of strings and whose rows and columns are numbered in sequence, is either read as what it says or rejected with an error; the program does not crash on it, whatever else is missing or has a wrong type. (Outside these conditions it does crash.)", "quantifier": "every JSON value", "why_tests_cant": "every JSON value, nesting and type confusion", "anchors": ["fpga/database-parsers.cc: ParseTileGridJSON, ParsePartJSON, GetMember, Unmarshal"]}
{"id": "C69", "title": "Statements as written reach the device", "statement": "A file made of blank lines, comments and statements name[hi:lo] = value {annotations} (white space anywhere it is allowed, values up to 64 bits or whole groups of 64 bits) is accepted; the statements assembled are exactly those written, bit by bit; the frames and the configuration of the device follow from the written statements alone.", "quantifier": "every file of such lines, every gap, number format, range, annotation and comment", "why_tests_cant": "infinitely many texts for the same design", "anchors": ["fpga/fasm-parser.h: Parse", "fpga/assembler.cc: AssembleFrames, main"]}
{"id": "C70", "title": "Loading a database directory", "statement": "If mapping/parts.yaml, mapping/devices.yaml, <fabric>/tilegrid.json, <part>/part.json and <part>/package_pins.csv under the root are well-formed and the part is in the table, the database loads and its tile grid, part and bank registry are those of the files; the bits of a tile type are those of the segbits, block_ram and ppips files next to the first tile_type_T.json found below the root; a part missing from the table or a missing file is an error, on which the program exits with status 1 and prints nothing.", "quantifier": "every directory content, part name, fabric, tile type and hash order", "why_tests_cant": "every directory", "anchors": ["fpga/database.cc: PartDatabase::Parse, ParsePartInfo, IndexTileTypes, ParseTileTypeDatabase, CreateBanksRegistry", "fpga/assembler.cc: main"]}
{"id": "C71", "title": "Every line of FASM text", "statement": "Every line has one of six shapes, and for each the report is fixed: no feature name (annotations only, or an error), a feature with a value that fits its range (its calls as far as the callback accepts them, then its annotations, or an error if something else follows), a value that does not fit, an unclosed range (error, no call), an inverted range (skipped, no call), an unknown number format (error). A text is accepted exactly when every one of its lines is a statement of the grammar. A line that ends right after the tick takes the next line with it.", "quantifier": "every byte string, every callback", "why_tests_cant": "every byte string", "anchors": ["fpga/fasm-parser.h: Parse, fasm_parse_number_with_base, fasm_skip_blank"]}
{"id": "C72", "title": "How assembling can fail", "statement": "Once the database is loaded, and every line of the text has a defined reading, the program ends after finitely many steps in exactly one of three ways: status 0 if every line is accepted and every statement (of the PUDC_B pin, the text, the STEPDOWN banks) asks only for listed bits of known tiles; status 1 with nothing printed if a line is not accepted, or the first statement that cannot be assembled has a name without a dot; a stop of the process if that first statement asks for an unlisted bit or STEPDOWN names an unknown bank. Lines without a defined reading (value ending at the tick, value with more chunks than its range) are never accepted, and lead to undefined behaviour when all lines before are accepted; with one exception: a line that stops at the tick of a value for up to 64 bits is an error if the newline of an earlier line, longer than it and than all lines between, is still in memory behind it.", "quantifier": "every usable database, every text, every output stream, every hash order", "why_tests_cant": "every text and database", "anchors": ["fpga/assembler.cc: main, AssembleFrames, ProcessFasmFeatures, ProcessFasmFeature", "fpga/fasm-parser.h: Parse"]}
{"id": "C73", "title": "Tile grids, exactly", "statement": "A tile grid is accepted exactly when the JSON value describes one, field by field, where a base address is a number as C writes it (optional white space and sign; 0x.. hexadecimal, 0.. octal, otherwise decimal; text after it is ignored and text that is no number is 0) that fits 64 signed bits, and the grid loaded is the one described. Only a number out of range is rejected.", "quantifier": "every JSON value and every address text", "why_tests_cant": "all byte strings", "anchors": ["fpga/database-parsers.cc: ParseBaseAddress, ParseTileGridJSON"]}
{"id": "C74", "title": "An interrupted output never passes for a complete one", "statement": "If writing the bitstream is cut short after any number of bytes or the seek, what is in the file, if it has the layout of a bit file at all, holds an initial part of the configuration data, its length field is never larger than that of the complete file, and it agrees with the bytes present only if there are none or the file is the complete one; a device that is given the cut file holds all of the frame data or none and starts only with the right IDCODE and all of it.", "quantifier": "every part, frame map, packet list, output (file or pipe) and crash point", "why_tests_cant": "every crash point", "anchors": ["fpga/xilinx/bitstream-writer.h: writeBitstream", "fpga/xilinx/bitstream.h: Encode"]}
{"id": "C75", "title": "Files and configurations correspond", "statement": "For one part, two written files are equal exactly when names, date, time and every frame are equal; the configuration data are a template with one place per frame, both fixed by the part, so a changed frame changes only its own place; files for parts with different IDCODEs differ; encoding what was read back from a written file gives the same file.", "quantifier": "every part whose coordinates fit, every pair of frame maps on its walk, file or pipe", "why_tests_cant": "all pairs of designs", "anchors": ["fpga/xilinx/bitstream.h: Encode", "fpga/xilinx/configuration.h: CreateType2ConfigurationPacketData, InitWithPackets"]}
{"id": "C76", "title": "The frame ECC is the extended Hamming code", "statement": "For every 101-word frame, UpdateECC leaves all bits but the low 13 of word 50 alone; of these, check bit j < 12 becomes the parity of the set data bits whose Hamming position (frame order from 0x320, skipping the blocks of 0x400 and 0x800) has bit j, and the 13th makes the number of set bits of the frame even. A frame is consistent exactly when it is such a codeword; positions are distinct, below 4096 and no powers of two, and flipping a data bit of a consistent frame makes stored xor recomputed show the position of that bit.", "quantifier": "every frame of 101 words", "why_tests_cant": "2^3232 frames; unit tests check a handful of values", "anchors": ["fpga/xilinx/arch-xc7-frame.h: CalculateECC, UpdateECC", "fpga/xilinx/arch-xc7-frame.cc: ICAPECC"]}
{"id": "C77", "title": "The configuration CRC is a CRC-32C", "statement": "For every history of register writes the CRC register holds the remainder, modulo the Castagnoli polynomial over GF(2), of the bits written (32 data bits, then 5 register address bits, each least significant first) shifted by 32, plus the previous value shifted past them; from a reset register exactly one value has that remainder.", "quantifier": "every initial value and every history of (5-bit register, 32-bit data) writes", "why_tests_cant": "histories of any length; a test checks a few values", "anchors": ["fpga/xilinx/arch-xc7-frame.h: ICAPCRC"]}
{"id": "C78", "title": "Printed addresses and register names identify what they name", "statement": "Printing a frame address on a stream appends [0x...] TOP|BOTTOM Row= Column= Minor= Type= with the word in hexadecimal and the coordinates in decimal whatever base the stream was in; reading the number between the brackets gives the address back, so different addresses never print alike (on a right-aligned, blank-filled, lower-case stream; with another fill they can); block types 4 to 7 print no type; afterwards the stream is decimal with showbase set. A configuration register prints its name, all names differ, and every other value prints Unknown.", "quantifier": "every address word, register value, format state of the stream and sequence of addresses", "why_tests_cant": "2^32 addresses and every state of the stream; no unit test prints one", "anchors": ["fpga/xilinx/arch-xc7-frame.cc: operator<<(FrameAddress), operator<<(BlockType)", "fpga/xilinx/arch-xc7-configuration-packet.cc: operator<<(ConfigurationRegister)"]}
{"id": "C79", "title": "The time stamp in the header", "statement": "Whatever the clock shows, the header carries the UTC date and time of that second as YYYY/MM/DD and HH:MM:SS; stamps of two runs are equal exactly when they were made in the same second and sort as texts in the order of time; building the same design at another time changes only those 18 bytes, at fixed places of the file, and whether and how the program fails does not depend on the time.", "quantifier": "every 64-bit clock reading in nanoseconds, every pair of clock readings, every invocation", "why_tests_cant": "all instants from 1677 to 2262; tests cannot set the clock", "anchors": ["fpga/xilinx/bitstream-writer.h: create_header", "fpga/assembler.cc: main"]}
{"id": "C80", "title": "The auxiliary data printed for a bitstream", "statement": "The header line printed for a file lists exactly the bytes up to and including the first sync word, so that with the words of the reader nothing of the file is lost, and nothing is printed without a sync word. The logic data are the words before the first WCFG command and those from the last NULL command on; both lines can be read back. For every file this program writes the header line is everything before the configuration words and the prefix line the 41 words before the frame data; as no NULL command follows the frame data, the suffix line begins in front of or inside them.", "quantifier": "every byte string, every word list, every part description, frame map and header text", "why_tests_cant": "first and last occurrences in arbitrary data, every frame content", "anchors": ["fpga/xilinx/bitstream-reader.h: PrintHeader, PrintFpgaConfigurationLogicData"]}
{"id": "C81", "title": "Database bits outside a frame", "statement": "For a database whose files can be read but whose bits may lie anywhere, an accepted text assembles; or is an error because of a name without a dot; or stops the program because a bit or bank is not listed; or sets a bit outside the 101 words of its frame, and then the program writes to memory it does not own, as nothing between the database and the frame checks the word: the first statement that cannot be assembled decides, and its first bad bit. With every bit inside its frame (C72) the last case does not occur.", "quantifier": "every readable database, every text, every hash order", "why_tests_cant": "the offset, the alias shift and the bit number add up over all database contents", "anchors": ["fpga/assembler.cc: ProcessFasmFeatures", "fpga/database.cc: ConfigBits"]}
{"id": "C82", "title": "JSON database files as text", "statement": "tilegrid.json and part.json are read exactly when they are JSON texts (RFC 8259, white space around tokens, escapes with surrogate pairs) whose value describes a tile grid or part, and the result is the one described: a text has at most one value, every other text is an error, every grid and every part has a text that loads as it, and with well-formed files the whole database loads from bytes alone. Two things are let through: a byte order mark (or a part of it) at the front, and anything behind a NUL byte after the value.", "quantifier": "every byte string, every tile grid and part, every directory", "why_tests_cant": "all byte strings; the tests try seven malformed texts", "anchors": ["fpga/database-parsers.cc: ParseTileGridJSON, ParsePartJSON", "fpga/database.cc: PartDatabase::Parse"]}
{"id": "C83", "title": "Lint script: every file examined exactly once", "statement": "Every item of the work list is examined exactly once whatever the schedule and the number of workers; the workers always finish, none is ever stuck or brings the process down, and when they are done every item has its entry in the cache, no temporary file is left and the cache is the same for every schedule.", "quantifier": "every interleaving of any number of worker threads and of any number of processes sharing the cache, every work list in which no two files have both name and key in common (for others see C84), every output of the tool", "why_tests_cant": "the number of interleavings is unbounded; a test sees one schedule", "anchors": ["scripts/run-clang-tidy-cached.cc: ClangTidyRunner::RunClangTidyOn"]}
{"id": "C84", "title": "Lint script: cache entries are whole at every crash point", "statement": "Whenever any of the processes is killed, at any moment, an entry of the cache is either what it was before or all of what one run of the tool printed for an item with that entry: no partial, mixed or lost entries.", "quantifier": "every interleaving of any number of processes and threads, every point at which processes are killed", "why_tests_cant": "crash points and schedules are unbounded", "anchors": ["scripts/run-clang-tidy-cached.cc: ClangTidyRunner::RunClangTidyOn, RepairFilenameOccurences, ContentAddressedStore::PathFor"]}
{"id": "C85", "title": "Lint script: what makes a file be examined again", "statement": "A file is examined in a run exactly when the cache has no entry for its name and a key made of its contents and those of the headers it includes; the key does not depend on the order in which the directory is listed; a changed file or a changed included header changes the key unless the hash collides, a changed header it does not include does not; after a run that was not interrupted nothing is left to examine.", "quantifier": "every source tree, directory order, file contents, cache state and hash function", "why_tests_cant": "every tree and every pair of contents", "anchors": ["scripts/run-clang-tidy-cached.cc: FileGatherer::BuildWorkList, ContentAddressedStore::NeedsRefresh"]}
{"id": "C86", "title": "Lint script: the report and the exit status", "statement": "The summary lists every check once with the number of different finding lines of that check in the texts stored for the files of the tree, larger numbers first and equal numbers by name; the exit status is 0 exactly when there are no findings in any file.", "quantifier": "every cache state, every list of files, every output of the tool, every schedule of the workers before the report", "why_tests_cant": "every text and every state of the cache", "anchors": ["scripts/run-clang-tidy-cached.cc: FileGatherer::CreateReport, main"]}
{"id": "C87", "title": "Lint script: only findings about the file itself are kept", "statement": "Of what the tool printed for a file exactly those blocks are kept, in order and unchanged, that begin with a finding about a file of that name (and what is printed before the first finding): a line path:row:column: message [check] is about the file at that path.", "quantifier": "every output of the tool, every file name, directory, message and check", "why_tests_cant": "every text", "anchors": ["scripts/run-clang-tidy-cached.cc: ClangTidyRunner::FilterCheckLines"]}
{"id": "C88", "title": "Lint script: stored names are relative to the project", "statement": "In what is stored for a file every line has lost the first of the execution root of bazel and the current directory it begins with (and a slash), and a ./ at the beginning of what is left; nothing else is changed, and a finding line is still about the same file. (For directories without characters that are special in patterns; a dot in the path stands for any character.)", "quantifier": "every output of the tool, every project directory", "why_tests_cant": "every text and every directory", "anchors": ["scripts/run-clang-tidy-cached.cc: ClangTidyRunner::RepairFilenameOccurences"]}
{"id": "C89", "title": "Lint script: from the output of the tool to the exit status", "statement": "A run from an empty cache in which no command is interrupted ends with status 1 exactly when the tool printed, for some file of the tree, a finding kept for that file; a line path:row:column: message [check] with the name of the file itself is always one, wherever it stands; without a line that ends in a check name there is none.", "quantifier": "every schedule, number of workers and output of the tool, every source tree in which no two files have both name and key in common, every project directory without characters special in patterns other than dots (for others see C84 and C88)", "why_tests_cant": "schedules and texts are unbounded", "anchors": ["scripts/run-clang-tidy-cached.cc: main, RunClangTidyOn, RepairFilenameOccurences, CreateReport"]}
{"id": "C90", "title": "Lint script: one cache for one configuration", "statement": "Runs share a cache directory exactly when the prefix (the name of the project directory), the major version of the tool (the first number behind the word version, or UNKNOWN) and the lower 32 bits of the key agree; another configuration file, other arguments or another tool give another key unless the hashes agree in these bits.", "quantifier": "every prefix, version text, argument list, configuration and hash function", "why_tests_cant": "every pair of configurations", "anchors": ["scripts/run-clang-tidy-cached.cc: ClangTidyRunner::AssembleProjectCacheDir, ToHex"]}
{"id": "C91", "title": "Lint script: the tool gets the names that are meant", "statement": "For names without a single quote the shell starts the tool on exactly the file meant, with exactly the options and the arguments given to the script, whatever other characters they contain, and its output goes to the temporary file. (With a quote in a name it does not.)", "quantifier": "every file name, configuration name, argument list and temporary name", "why_tests_cant": "every byte string as a name", "anchors": ["scripts/run-clang-tidy-cached.cc: ClangTidyRunner::AssembleArgs, RunClangTidyOn"]}
{"id": "C92", "title": "FASM: what is printed", "statement": "What the parser prints is determined by the lines: for each line, in order, the messages its shape calls for, each with the number of the line in front, a newline at the end and the tag of its severity, and nothing else; there is one message for each diagnostic, success is silent, and a result worse than success other than user abort is explained by a message. It does not depend on the answers of the callback.", "quantifier": "every text of fewer than 2^31 lines, every callback", "why_tests_cant": "texts are unbounded", "anchors": ["fpga/fasm-parser.h: Parse (fprintf calls)"]}
{"id": "C93", "title": "FASM: names and values are pieces of the text", "statement": "Every string given to a callback is a piece of the content: a feature name stands on a line after blanks only, an annotation behind its feature and a brace or comma, its value between the quotes; the line number given is the number of that line unless an earlier line stops right after a tick (then it is smaller).", "quantifier": "every text of fewer than 2^32 lines, every callback", "why_tests_cant": "texts are unbounded", "anchors": ["fpga/fasm-parser.h: Parse (comment on lifetime of the views)"]}
{"id": "C94", "title": "Lint script: when it starts and where it works", "statement": "The script gives up with status 1 before examining anything, and without touching a cache, exactly when the configuration file, the .clang-tidy of the current directory or every compilation database is missing or the tool says nothing about its version; otherwise it works only in one directory below CACHE_DIR, the .cache of the home directory or the temporary directory (in this order), with as many workers as CLANG_TIDY_JOBS says or else as there are cores; reports of different checkouts do not overwrite each other or entries of the cache.", "quantifier": "all environments, file systems, directories and outputs of the tool", "why_tests_cant": "the environment and the file system are inputs; tests see a few", "anchors": ["scripts/run-clang-tidy-cached.cc: : main, EnvWithFallback, GetCacheBaseDir, AssembleProjectCacheDir, RunClangTidyOn, CreateReport"]}
{"id": "C95", "title": "Frames the part does not have do not disturb the others", "statement": "A bit at a frame address that the part does not have never changes the other frames: when the generated bitstream is decoded, every frame of the part has exactly the bits given for it and no other frame appears.", "quantifier": "all parts whose coordinates fit the address fields, all frame maps and all designs", "why_tests_cant": "which addresses are foreign depends on the part; the damage depends on where the address falls between those of the part", "anchors": ["fpga/xilinx/bitstream.h: Encode", "fpga/xilinx/configuration.h: CreateType2ConfigurationPacketData, InitWithPackets", "fpga/assembler.cc: main"]}
{"id": "C96", "title": "A failing run says why, a successful one only comments", "statement": "A run of the assembler that ends with status 1 prints nothing on standard output and says on standard error why: the usage, the missing setting, the bad path, the missing part, the database that does not load, the file that does not open, the messages about the first line that is not accepted (at least one), or the first feature name without a dot. A run that ends with status 0 prints on standard error only what there is to say about the lines, in their order: skipped lines, informations and warnings.", "quantifier": "all invocations, file systems, databases, texts, hash orders and output streams", "why_tests_cant": "which message is right depends on every input and on the first thing that goes wrong", "anchors": ["fpga/assembler.cc: main, AssembleFrames, ProcessFasmFeatures, GetOptFlagOrFromEnv, Usage, StatusToErrorMessage", "fpga/fasm-parser.h: Parse"]}
{"id": "C97", "title": "Messages about the input name the line", "statement": "What the assembler says about a line of its input carries the number of that line.", "quantifier": "all invocations and texts", "why_tests_cant": "texts are unbounded; the number depends on the position of the line", "anchors": ["fpga/assembler.cc: AssembleFrames", "fpga/fasm-parser.h: Parse"]}
{"id": "C98", "title": "Every tile type below the database directory is found", "statement": "The program finds a tile type exactly if there is a regular file tile_type_T.json somewhere below the database directory, at any depth (not behind a symbolic link to a directory or a directory without permission), and then looks for its other files in the directory of that file; a directory that cannot be read for another reason ends the search but never makes a type be found that is not there or in another place, and nothing is printed; only if the database directory itself cannot be read loading fails.", "quantifier": "all directory trees: any depth, number, order and kind of entries, refusals and failures anywhere", "why_tests_cant": "trees are unbounded, and failures of readdir cannot be provoked by a test", "anchors": ["fpga/database.cc: IndexTileTypes, GetDatabasePaths"]}
{"id": "C99", "title": "Trouble reading the database never changes a bitstream", "statement": "If files of the database cannot be opened, or the walk over the directory breaks off or misses directories, a run that still ends with status 0 has exactly the output it has with the complete database.", "quantifier": "all databases, all sets of unreadable files and directories, all inputs, hash orders and streams", "why_tests_cant": "the number of ways in which part of a database can be missing is exponential", "anchors": ["fpga/database.cc: PartDatabase::Parse, IndexTileTypes, ParseTileTypeDatabase, AddSegbitsToCache, ConfigBits", "fpga/assembler.cc: main"]}
{"id": "C100", "title": "Trouble reading the database is reported", "statement": "When part of the database cannot be read, the user is told: the status is not 0, or there is a message on standard error.", "quantifier": "all databases, all sets of unreadable files and directories, all inputs", "why_tests_cant": "failures of the file system are hard to provoke, and there are exponentially many combinations", "anchors": ["fpga/database.cc: PartDatabase::Parse, IndexTileTypes, ParseTileTypeDatabase"]}
{"id": "C101", "title": "An error in a file of lines names the line", "statement": "When a segbits, ppips or package pins file is rejected, the message is about its first bad line: it begins with the number of that line and says what is wrong with it (not the fields of such a line, a coordinate or bank that is not a number, an unknown state, a missing header).", "quantifier": "every file of fewer than 2^32 lines", "why_tests_cant": "which line is the first bad one depends on all lines before it; tests look at a handful of files and never at the message", "anchors": ["fpga/database-parsers.cc: ParseSegmentsBitsDatabase, ParsePseudoPIPsDatabase, ParsePackagePins, LinesGenerator, MakeInvalidLineStatus"]}
{"id": "C102", "title": "The message about the part table says what is wrong", "statement": "When mapping/devices.yaml and mapping/parts.yaml do not give a part table, the message is about the first problem, devices first: a line at the left margin that does not end in a colon, an indented line without one, a device without fabric, or the first thing missing of device, package, speed grade and fabric of a part; an entry is looked at when the next line at the margin, or the end, is reached.", "quantifier": "every pair of texts", "why_tests_cant": "the first problem depends on all lines before it, and an entry is judged lines after it began", "anchors": ["fpga/database-parsers.cc: ParseMappingYAML, ParsePartsInfos"]}
{"id": "C103", "title": "The message about a JSON file says what is wrong", "statement": "When tilegrid.json or part.json does not describe a tile grid or part, the message is about the first trouble in the order in which members are looked at: a missing attribute, a value of the wrong type (shown with its type), an unknown bus, a key or base address that is not a number; a tile grid message names the tile. The troubles that are not noticed (undefined behaviour) or terminate the program are exactly: bits or banks that are no object, bank locations that are no strings, and keys out of sequence.", "quantifier": "every JSON value, any way of writing a value", "why_tests_cant": "JSON values are unbounded, and the first trouble depends on everything before it", "anchors": ["fpga/database-parsers.cc: ParseTileGridJSON, ParsePartJSON, GetMember, Unmarshal"]}
{"id": "C104", "title": "A database that cannot be loaded: the first trouble decides, and is told", "statement": "Loading looks at mapping/parts.yaml, mapping/devices.yaml, the part table, tilegrid.json of the fabric, the directory, part.json and package_pins.csv, in this order. It succeeds exactly if there is no trouble with any; otherwise the first trouble decides whether there is an error and which message the program prints (a file that cannot be opened with path and reason, a text that is no JSON with reason and offset, the messages of C101 to C103, an unknown part by name), or whether the program is terminated or its behaviour undefined. The program then prints that message, nothing on standard output, and ends with status 1.", "quantifier": "all directory contents, part names, hash orders and invocations", "why_tests_cant": "failures at the different stages combine with the content of five unbounded files", "anchors": ["fpga/database.cc: PartDatabase::Parse, ParsePartInfo, ParseTileGrid, IndexTileTypes, CreateBanksRegistry", "fpga/memory-mapped-file.cc: MemoryMapFile", "fpga/assembler.cc: main"]}
{"id": "C105", "title": "The message about the database names the file", "statement": "When a file of the database is missing or bad, the message says which file it is.", "quantifier": "all directories that load except for one file", "why_tests_cant": "any of the files can be bad in any way", "anchors": ["fpga/database.cc: PartDatabase::Parse, ParsePartInfo", "fpga/memory-mapped-file.cc: MemoryMapFile"]}
{"id": "C106", "title": "Designs are made of parts", "statement": "Adding lines to a design, anywhere, never clears a bit, drops a frame or mends a design that fails, except that configuring an IOB33 site takes away the STEPDOWN tag the program had added there. Without STEPDOWN tags a design assembles exactly if its parts do, and has exactly the bits and frames of its parts together.", "quantifier": "all pairs of texts, databases, hash orders and query histories", "why_tests_cant": "texts are unbounded and any two can be combined", "anchors": ["fpga/assembler.cc: AssembleFrames, AddStepDownFeatures, ProcessFasmFeatures"]}
{"id": "C107", "title": "A design takes from the database what it names, and nothing else", "statement": "Two databases that agree on the features a design asks for, the PUDC_B pin and the banks whose STEPDOWN tags it uses accept the design alike and give it the same frames; in particular a database extended by tiles and tile types gives every design the frames it had.", "quantifier": "all texts, all pairs of databases, hash orders and query histories", "why_tests_cant": "every tile and tile type a design does not name would have to be varied", "anchors": ["fpga/database.cc: PartDatabase::ConfigBits", "fpga/assembler.cc: AssembleFrames"]}
{"id": "C108", "title": "Every bit of the configuration has its place in the file", "statement": "For a part, a date and a time all files the program prints have the same size, and every bit of every frame has one fixed place in them, whatever the design; bytes outside the frames are the same in all of them. Files of two designs differ in exactly those bytes that hold a bit one design wants and the other does not.", "quantifier": "all parts without holes, all pairs of designs, all bits of all frames, files and pipes", "why_tests_cant": "the number of designs is exponential in the number of bits", "anchors": ["fpga/assembler.cc: main", "fpga/xilinx/bitstream.h: Encode", "fpga/xilinx/bitstream-writer.h: writeBitstream", "fpga/xilinx/configuration.h: CreateType2ConfigurationPacketData"]}
{"id": "C109", "title": "Bitstreams can be merged byte by byte", "statement": "For a design without STEPDOWN tags whose lines are those of two parts, the file of the design is the bytewise OR of the files of the two parts assembled alone (same chip, date and time).", "quantifier": "all pairs of texts whose bits are in frames of the chip, databases, chips and hash orders", "why_tests_cant": "pairs of designs are unbounded and the property compares three runs", "anchors": ["fpga/assembler.cc: AssembleFrames", "fpga/xilinx/configuration.h: Configuration", "fpga/xilinx/bitstream-writer.h: BitstreamWriter"]}
{"id": "C110", "title": "Blanks, comments and carriage returns at the end of FASM lines mean nothing", "statement": "Adding blanks, a comment, or a carriage return to the end of lines of a FASM text changes neither the callbacks nor the diagnostics nor the result (a trailer with a quotation mark may at most turn a rejected line into another reading); a design assembles with CRLF line endings exactly when it does with LF endings, into the same frames and the same output file.", "quantifier": "all FASM lines, trailers, callbacks, texts, databases and invocations", "why_tests_cant": "lines, trailers and texts are unbounded; the claim compares two runs", "anchors": ["fpga/fasm-parser.h: Parse", "fpga/assembler.cc: AssembleFrames", "fpga/assembler.cc: main"]}
{"id": "C111", "title": "Database files may have CRLF line endings", "statement": "With CRLF line endings segment-bit files, mapping files and JSON files are read as with LF endings, whatever they contain; so are pseudo-PIP files without blank lines and pin files without blank lines and without lines ending in a comma, which otherwise are refused; the whole program then behaves the same.", "quantifier": "all file contents, directories, hash orders and invocations", "why_tests_cant": "file contents are unbounded; the claim compares two runs", "anchors": ["fpga/database-parsers.cc: LinesGenerator", "fpga/database-parsers.cc: ParsePseudoPIPDatabaseLine", "fpga/database-parsers.cc: ParsePackagePinCSVLine", "fpga/database-parsers.cc: ParseMappingYAML", "fpga/database.cc: PartDatabase::Parse"]}
{"id": "C112", "title": "Lint script: the report files and their links", "statement": "After a run the two links in the working directory lead to the report files of this checkout, replacing whatever file or link had their names before: the details file has, for every file of the tree about which a text is stored, in the order of the tree, its path, a colon, a newline and that text, and nothing for the others; the summary file has exactly what was printed on standard output, one line per check with the number right-aligned in five columns; the headline on standard error says that there are no complaints exactly when the status is 0, and names the links otherwise. No other file is touched; a directory that is not empty keeps its name and then there is no link.", "quantifier": "every cache state, every list of files, every stored text, every earlier state of the file system in which the report files can be created", "why_tests_cant": "the stored texts, paths and what the names stood for before are unbounded", "anchors": ["scripts/run-clang-tidy-cached.cc: CreateReport, main"]}
{"id": "C113", "title": "Output appended to a file still reads back", "statement": "When the output is a file opened for appending (`fpga-as ... >> file`), where every write goes to the end, what the file held stays; behind it come the header with a length of 0, the configuration data and the four bytes of the length. Made from an empty file, the result reads back to the same part and frames as the file written plainly.", "quantifier": "all parts whose coordinates fit the address fields and whose frame data fit a packet, all frames on the walk, all names without a sync word, all previous contents", "why_tests_cant": "any frames, names and previous contents; the length is written by a seek that has no effect here", "anchors": ["fpga/xilinx/bitstream-writer.h: BitstreamWriter::writeBitstream", "fpga/xilinx/bitstream.h: BitStream::Encode", "fpga/xilinx/bitstream-reader.h: BitstreamReader"]}
{"id": "C114", "title": "When the assembler never ends", "statement": "Started on a database whose part description has the documented shape (no CFG_CLB bus, no empty column, at most 128 frames per column, rows and columns numbered without gaps, any number of them), the program runs forever exactly when the design can be assembled and the description has a row number of 32 or more or a column number of 1024 or more; in all other cases it ends, with a result that does not depend on how long it is given. For a part description of any other shape it runs forever exactly when the design can be assembled and the walk over the frame addresses of the part comes to some address twice.", "quantifier": "every environment, database, input text, output stream, hash order and load order; part descriptions of any size", "why_tests_cant": "running forever cannot be observed, and the condition ranges over part descriptions of every size", "anchors": ["fpga/assembler.cc: main", "fpga/xilinx/frames.h: Frames::AddMissingFrames", "fpga/xilinx/bitstream.h: BitStream::Encode", "fpga/xilinx/arch-xc7-part.cc: GetNextFrameAddress"]}
{"id": "C115", "title": "Base addresses count modulo 2^32", "statement": "Frame addresses are 64-bit numbers in the tile grid and 32-bit numbers in a bitstream: adding a multiple of 2^32 to the base addresses of tiles (negative ones included) changes neither whether a design is accepted nor a byte of the output. In the library, encoding a frame map sees the lower half of each address, and of frames whose lower halves agree only the one with the smallest address is written.", "quantifier": "every pair of databases that differ in base addresses by multiples of 2^32, every design and invocation; every map from 64-bit addresses to frames", "why_tests_cant": "Two address widths meet in two places (the frames a tile touches are created with 64-bit addresses, its bits are set with 32-bit ones, the encoder narrows): no finite set of grids covers the combinations.", "anchors": ["fpga/xilinx/bitstream.h: BitStream::Encode", "fpga/database.cc: PartDatabase::ConfigBits", "fpga/assembler.cc: ProcessFasmFeatures", "fpga/database-parsers.cc: ParseBaseAddress"]}
{"id": "C116", "title": "How many words a packet can announce", "statement": "A packet of more words than its count field has room for is written with the count reduced (modulo 2^11 for type 1, 2^27 for type 2), and whoever reads it takes the rest of its data for packets. So the file of a part gives back all the frames of the part exactly when its frame data (two frames more after each row and at the end) is below 2^27 words; beyond that, assembling still succeeds, but frames are missing from the file: those whose place begins behind the cut (for every design in frames of the part, unless a word of a frame happens to be the header of a write of frames or of an ID).", "quantifier": "every packet of any length; every part description in range, every header text free of the sync word, output that can seek and output that cannot", "why_tests_cant": "a part beyond the limit has over a million frames; the statement is about all part sizes", "anchors": ["fpga/xilinx/bitstream-writer.cc: PacketHeader", "fpga/xilinx/configuration.h: CreateType2ConfigurationPacketData", "fpga/xilinx/arch-xc7-configuration-packet.cc: InitWithWordsImpl"]}
{"id": "C117", "title": "JSON values shown in messages", "statement": "Every message about tilegrid.json or part.json shows only values and names that stand in the file (the catalogue of messages is complete), and a value is shown as a JSON text without control characters, so on one line, that is read as the same value again; different values are shown differently.", "quantifier": "every JSON file and every value inside it, with any strings (control characters, quotes, any bytes) and 64-bit integers", "why_tests_cant": "a test shows a few values; that any value survives being quoted is a statement about all nested values and strings", "anchors": ["fpga/database-parsers.cc: ValueAsString, UnexpectedTypeError, GetMember, Unmarshal"]}
{"id": "C118", "title": "What stands behind a bitstream", "statement": "Bytes behind the end of a bitstream do not change what is read back: a device has left the configuration mode there.", "quantifier": "all parts, frames, names, all bytes behind the file", "why_tests_cant": "any number of bytes with any contents can follow a bitstream (padding of a flash memory, a second file)", "anchors": ["fpga/xilinx/bitstream-reader.h: BitstreamReader::InitWithBytes, iterator", "fpga/xilinx/configuration.h: Configuration::InitWithPackets", "fpga/xilinx/arch-xc7-configuration-packet.cc: ConfigurationPacket::InitWithWordsImpl"]}
{"id": "C119", "title": "How every run ends", "statement": "Every run of the assembler ends in one of four ways, and which one is decided by the invocation, the files and the text alone: status 1 with nothing printed exactly when the settings are not complete, the database or the input cannot be read, the first line that is not accepted is refused by the parser, or all lines are accepted and nothing goes wrong before a statement whose name has no dot; status 0 with a bitstream exactly when the design assembles and the walk over the frame addresses of the part ends; no end exactly when it assembles and that walk has no end (for a part of the documented shape: the part is larger than frame addresses can name); a signal or undefined behaviour in the remaining, listed cases. The order in which hash containers are walked and what standard output already holds make no difference to this.", "quantifier": "every invocation, environment, database directory, input with lines below 2^28 characters, container order and output stream", "why_tests_cant": "a classification of all runs cannot be sampled: each case excludes the others for every directory and text", "anchors": ["fpga/assembler.cc: main, AssembleFrames, ProcessFasmFeatures, AddStepDownFeatures, GetOptFlagOrFromEnv", "fpga/database.cc: PartDatabase::Parse", "fpga/xilinx/frames.h: Frames::AddMissingFrames"]}
{"id": "C120", "title": "The order of members in JSON files", "statement": "Rewriting tilegrid.json and part.json with the members of their objects in any other order, at every depth, changes neither whether the assembler succeeds nor a byte of its output, as long as no object has two members of the same name, no two members of iobanks name the same bank, and rows and columns of part.json still stand in sequence (the program insists on that), for a database in which nothing is left to the iteration order of hash maps. Each of the first three conditions is needed.", "quantifier": "every pair of directories whose JSON files stand for values that differ in the order of members at any depth; every invocation and every iteration order of hash maps", "why_tests_cant": "the number of orders of the members of a grid with thousands of tiles is astronomical; tests use the one the database was published in", "anchors": ["fpga/database-parsers.cc: ParseTileGridJSON, ParsePartJSON, GetMember, Unmarshal", "fpga/database.cc: PartDatabase::Parse"]}
{"id": "C121", "title": "The order of lines in the text files of the database", "statement": "Rewriting segbits, ppips and package_pins.csv files with their lines (of the pin file: its rows behind the header) in any other order changes neither how the run ends (success, status 1, no end, a stop of the process) nor a byte of its output, as long as no file lists a feature twice, no bracketed address is anything but a number, all pins of a tile are in one bank, and every file can be read to its end, for a database in which nothing is left to the iteration order of hash maps. A feature listed twice means its first line; a tile with pins in two banks belongs to the banks in the order of the file; a last line without newline cannot always be read.", "quantifier": "every pair of directories whose files differ in the order of lines; every invocation and every iteration order of hash maps", "why_tests_cant": "a segbits file of n lines has n! orders; tests use the one the database was published in", "anchors": ["fpga/database-parsers.cc: ParseSegmentsBits, ParsePseudoPIPs, ParsePackagePins", "fpga/database.cc: BanksTilesRegistry::Create, PartDatabase::Parse"]}
{"id": "C122", "title": "How the mapping files are written", "statement": "Rewriting parts.yaml and devices.yaml so that they list the same entries with the same properties - entries in any order, properties within an entry in any order, comments, blank lines, indentation and quotes as one likes - changes nothing about the assembler: not whether the database loads, not its exit status, not a byte of its output, as long as no file names an entry twice and no entry a property twice. Of two entries of one name the first counts, of two values of a property the last.", "quantifier": "every pair of directories whose mapping files list the same entries; every invocation and every iteration order of hash maps", "why_tests_cant": "the ways to write a mapping file are without number; tests use the published one", "anchors": ["fpga/database-parsers.cc: ParseMappingYAML, ParsePartsInfos", "fpga/database.cc: ParsePartInfo, PartDatabase::Parse"]}
{"id": "C123", "title": "How the JSON files are written", "statement": "Writing tilegrid.json and part.json in another way that stands for the same JSON value - other white space, other escapes in strings, a byte order mark, bytes behind a NUL, -0 for 0 - changes nothing about the assembler: not whether the database loads, not its exit status, not a byte of its output or of its messages.", "quantifier": "every pair of directories whose JSON files are the same text or texts of one value by the grammar of RFC 8259; every invocation", "why_tests_cant": "the ways to write a JSON value are without number; tests use the one the database was published in", "anchors": ["fpga/database-parsers.cc: ParseTileGridJSON, ParsePartJSON", "fpga/memory-mapped-file.cc: MemoryMapFile", "fpga/database.cc: PartDatabase::Parse", "fpga/assembler.cc: main"]}
{"id": "C124", "title": "A database written in another way", "statement": "Rewriting a database in any number of steps, each of which moves members of JSON objects (C120), moves lines of text files (C121), rewrites the mapping files (C122) or respells JSON texts (C123), changes neither whether the assembler gets as far as assembling, nor - if it does - how the run ends (success, status 1, no end, a stop of the process), nor a byte of its output, for a database in which nothing is left to the iteration order of hash maps; and that condition carries over to every rewriting and to every iteration order.", "quantifier": "every pair of directories connected by such steps; every invocation and every iteration order of hash maps", "why_tests_cant": "combinations of rewritings multiply the numbers of C120 to C123; tests use the published database", "anchors": ["fpga/database-parsers.cc: all parsers", "fpga/database.cc: PartDatabase::Parse", "fpga/assembler.cc: main"]}
{"id": "C125", "title": "The files a design needs", "statement": "Of a database the assembler uses the part table, the tile grid of the fabric of the part, the description and the pins of the part, and of each tile type of which the design asks for a bit the segbits and ppips files next to its first tile_type file. Every other file can be missing, added, rewritten or unreadable - a broken file of a tile type the design does not name included - without any change to how the run ends (success, status 1, no end, a stop of the process) or to a byte of its output.", "quantifier": "every pair of directories that agree on these files, every text, every invocation, every iteration order of hash maps", "why_tests_cant": "the set of files a design does not need depends on the design and is unbounded; tests load one database", "anchors": ["fpga/database-parsers.cc: ParseSegmentsBits, ParsePseudoPIPs", "fpga/database.cc: PartDatabase::Parse, IndexTileTypes, ParseTileTypeDatabase, PartDatabase::ConfigBits", "fpga/assembler.cc: main"]}
{"id": "C126", "title": "The progress display of the lint script", "statement": "While the lint script works through up to 99999 files, the terminal shows the announcement (number of files, number of jobs) followed by a number in five columns which goes down one by one from the number of files, whatever the number of workers, the order in which they take up files, other instances of the script, or the moment it is killed; if nothing interrupts it, the last number shown is 1 and in the end the number is replaced by blanks and a new line is begun. Sent to a file, only the announcement is there. (From 100000 files on the number is wider than the five backspaces behind it, and the display drifts to the right.)", "quantifier": "every schedule of the workers, every number of instances, every tool, every number of files", "why_tests_cant": "the numbers are printed by threads that race for the queue; no test sees every schedule", "anchors": ["scripts/run-clang-tidy-cached.cc: RunClangTidyOn"]}
{"id": "C127", "title": "What the lint script says", "statement": "If the lint script does not start, it says exactly one of four sentences - the first reason that applies - names the missing file or program in it, and does nothing else. If it starts, it names its cache directory, the number of files of interest, the progress of the work if there is any, one line for each file of interest of which no result can be read, and in the end either that there are no complaints or where the details and the summary are, followed by the summary; the first of these exactly when there is nothing in the report, and then the exit status is 0. Outside of its cache it changes no more than the two links in the project and the two files they lead to, which have the texts of the files and what was printed. Paths are shown quoted so that they can be read back. If nothing interrupts the tool and no two files share a place in the store, no line says that a result is missing.", "quantifier": "every file tree, every cache, every environment, every tool and schedule of its runs", "why_tests_cant": "every combination of project, cache state and schedule has its own output", "anchors": ["scripts/run-clang-tidy-cached.cc: main, CreateReport, AssembleProjectCacheDir, GetContent, ClangTidyRunner, FileGatherer"]}
{"id": "C128", "title": "A design said in another way", "statement": "Two files of correct FASM lines (dots in the names) that write the same bits of the same features as 1 give the same bitstream, and if one of them cannot be assembled neither can the other, and it fails in the same way: whatever ranges the statements have, however wide values are cut into statements, in what number format, order or number of repetitions the bits are written, with or without lines that write 0, annotations, comments and blank lines. In particular every design can be written with one line name[n] for each of its bits.", "quantifier": "every two files of correct lines; every database, hash order and exit of the program", "why_tests_cant": "a design can be written in endless ways; a test has one of them", "anchors": ["fpga/assembler.cc: AssembleFrames, main", "fpga/fasm-parser.h: ParseFeature"]}
{"id": "C129", "title": "From the files to the device", "statement": "For a database directory whose tile grid has no aliased tiles and no pin that mentions PUDC_B, and a design of correct lines (names with a dot, none mentioning STEPDOWN): if the files know every bit the design writes as 1, the program writes a bitstream, and after the device of the part has loaded it a bit of its configuration memory is 1 exactly if the design writes a bit of a feature of a tile as 1 for which the segbits file of the type of the tile (tilegrid.json) lists a non-negated bit column_bit, the feature not being a pseudo PIP, and that bit lies in frame base address + column of the tile, at bit 32 * offset + bit. Conversely, a run that succeeds proves that the files know every bit of the design. Nothing else is in the device: the statement speaks of the files, the text and the device alone.", "quantifier": "every directory, part and design of this shape; every hash order; every frame, word and bit of the device", "why_tests_cant": "the whole chain - eight file formats, look-up, assembly, packets, the device - has to keep every single bit; tests compare a few frames of a few designs, and never through a device", "anchors": ["fpga/assembler.cc: main, AssembleFrames", "fpga/database.cc: PartDatabase::Parse, PartDatabase::ConfigBits", "fpga/database-parsers.cc: ParseTileGridJSON, ParseSegmentsBitsDatabase", "fpga/xilinx/bitstream.h: BitStream::Encode"]}
{"id": "C130", "title": "From the files to the device, with everything the assembler adds", "statement": "For any database directory in which nothing is left to the order of hash containers (aliased blocks of a tile agree, one PUDC_B pin at most, no two banks share a location, no row with two clashing buses), and a design of correct lines with dotted names: if the files suffice (every bit to be 1 is known within the 101 words of a frame, tiles with a STEPDOWN tag in use have a bank whose IOB33 tiles are in the grid with well-formed sites, the PUDC_B pin has a name), the program writes a bitstream, and after the device of the part has loaded it a bit of its configuration memory is 1 exactly if the segbits file of a tile type lists a non-negated bit there for a bit that is to be 1. To be 1 are the bits the design writes as 1, bit 0 of the three features for the PUDC_B pin, and, in every bank in which a feature with a tag mentioning STEPDOWN is in use, that tag for the unused sites of its IOB33 tiles and STEPDOWN for its HCLK_IOI3 tiles. The type and name looked up are those of the alias of the tile, and its start offset is taken off the word. Conversely, a run that succeeds has found all of this in the files.", "quantifier": "every directory content of this kind, every part and pin list, every design of correct lines, all hash orders, both seekable and unseekable outputs", "why_tests_cant": "A test runs one design on one database; the equality between files, design, additions and device memory ranges over all of them, over every bit position and every hash order.", "anchors": ["fpga/assembler.cc: main, AssembleFrames", "fpga/database.cc: PartDatabase::Parse, PartDatabase::ConfigBits", "fpga/database-parsers.cc: ParseTileGridJSON, ParseSegmentsBitsDatabase", "fpga/xilinx/bitstream.h: BitStream::Encode"]}
{"id": "C131", "title": "Questions the system does not answer", "statement": "Before it assembles anything the program asks whether the database directory exists, and, once the part table and the tile grid are read, whether there are four files (segbits, block RAM segbits, ppips, mask) next to every tile_type_T.json below the directory. If the system refuses to answer one of these questions (name too long, no permission, too many links) the program is terminated, whether the design needs the file or not, and even for mask files, which nothing reads; if it answers all of them, the program does what it does otherwise, and a bitstream is written exactly if all are answered and the design assembles. What the answer would have been is irrelevant. With the 255 byte limit for names, in a directory in which every name is within the limit, a question is refused exactly if some tile type has a name of 235 bytes or more.", "quantifier": "every set of paths the system refuses to answer about, every directory, part, design, hash order and exit", "why_tests_cant": "the questions depend on what else lies in the directory; a test database has no such files", "anchors": ["fpga/assembler.cc: main", "fpga/database.cc: GetDatabasePaths, IndexTileTypes, PartDatabase::Parse"]}
{"id": "C132", "title": "What is in the memory of a device", "statement": "Whatever a device of the part held before, after it has loaded the bitstream of a design every frame that part.json describes holds exactly the frame of the file: for a design of correct lines, a bit is 1 if and only if the files of the database list it for what the design writes as 1 and for what the assembler adds. The device counts its frames itself, in the order of their addresses, swallows two frames between rows and takes a frame over only when a whole frame stands behind it; addresses of which the part has no frame, and devices with another IDCODE, keep what they have. So loading a second file leaves nothing of the first. (Descriptions without gaps in rows and columns, with a frame at address 0, whose frame data fit a packet.)", "quantifier": "every description of this shape, every design in frames of the part, every earlier content of the memory, every frame and bit", "why_tests_cant": "the program writes no frame addresses between the frames: that each frame arrives where it belongs depends on the program and the device counting alike through every row and column of every part", "anchors": ["fpga/assembler.cc: main", "fpga/xilinx/configuration.h: Configuration, CreateType2ConfigurationPacketData", "fpga/xilinx/frames.h: Frames::AddMissingFrames", "fpga/xilinx/arch-xc7-part.cc: GetNextFrameAddress", "fpga/xilinx/bitstream.h: BitStream::Encode"]}
{"id": "C133", "title": "Loading can be interrupted", "statement": "If loading the printed bitstream into a device of the part stops after any number of words, in the middle of the frame data included, then some first frames, the more the more words came, hold what the complete file puts there and all others hold what they held before - no frame holds a mixture - and the device has not started unless it has all frames; a device of another part is as it was. Loading the file from its beginning afterwards leaves exactly what loading it at once leaves.", "quantifier": "every description as in C132, every design in frames of the part, every earlier content of the memory, every number of words after which loading stops", "why_tests_cant": "the points at which a cable can be pulled are as many as the file has words, for every file and every earlier content of the device", "anchors": ["fpga/assembler.cc: main", "fpga/xilinx/configuration.h: Configuration, CreateType2ConfigurationPacketData", "fpga/xilinx/configuration.cc: CreateConfigurationPackage", "fpga/xilinx/bitstream.h: BitStream::Encode"]}
{"id": "C134", "title": "Writing out what the assembler adds changes nothing", "statement": "If a second file of lines writes as 1 exactly the bits that the first asks for or that the assembler adds to it (the features for the PUDC_B pin, the STEPDOWN tags for unused IOB33 sites and for HCLK_IOI3 tiles), then the program turns the second into a bitstream exactly when it turns the first into one, and into the same bitstream; and where the one run never ends or breaks off, so does the other. This needs that no tile has pins in two banks: with such a tile the written-out lines can set off additions in a bank that was not concerned before. More generally, two designs that come to the same bits, additions included, give the same bitstream. And every design has such a form, with one plain line for each bit, provided the names of the database can stand in a FASM file.", "quantifier": "all databases on disk, all designs of correct lines and all files that write them out, all hash orders", "why_tests_cant": "The additions depend on the whole design and on the whole database; a test sees a few designs on one part and does not ask whether adding is idempotent.", "anchors": ["fpga/assembler.cc: AddStepDownFeatures, AddPUDCBFeatures, AssembleFrames", "fpga/database.cc: BanksTilesRegistry"]}
{"id": "C135", "title": "What a bitstream tells about its design", "statement": "Two designs for one part, assembled with the same date and time, give equal bitstreams exactly when they, with what the assembler adds, set the same places (frame, word, bit) according to the files of the database. A feature bit that sets a place that no other sets is therefore in both designs or in none of them when the bitstreams are equal; where each feature bit has such a place, equal bitstreams mean equal designs.", "quantifier": "all databases on disk, all pairs of designs of correct lines whose bits lie in frames of the part, all vocabularies of feature bits that contain both, all hash orders", "why_tests_cant": "That different designs never collide is a statement about all pairs of designs.", "anchors": ["fpga/assembler.cc: AssembleFrames, main", "fpga/database.cc: PartDatabase::ConfigBits", "fpga/xilinx/bitstream-writer.h: BitstreamWriter"]}
{"id": "C136", "title": "Reading a design back from a device", "statement": "If every feature bit of a list has a place in the configuration memory that no other feature bit of the list sets, then after loading an assembled bitstream those places tell the design: the place of a feature bit is set exactly when the design asks for it or the assembler adds it, whatever the device held before. Where no tile serves two I/O banks, lines printed for the places that are set are an input which assembles, with the same date and time, to the very same bitstream.", "quantifier": "every database in the stated form, part description, design over the listed feature bits, list of feature bits with places of their own, hash iteration order, prior contents of the memory, and file of lines naming the places that are set", "why_tests_cant": "A test reads back one design from one simulated device; the claim ranges over all designs, databases and prior memory contents, and closes the loop through the whole program twice.", "anchors": ["fpga/assembler.cc: AssembleFrames, main", "fpga/database.cc: PartDatabase::ConfigBits", "fpga/xilinx/bitstream-writer.h: BitstreamWriter", "fpga/xilinx/configuration.h: Configuration"]}
{"id": "C137", "title": "What a change of a design changes in a device", "statement": "Two designs for one part, loaded into two devices whatever these held before: a place of the configuration memory (frame, word, bit) has different contents only if the database gives it to a feature bit that one of the designs asks for or has added and the other does not (precisely: exactly if one design sets the place and the other does not), and a frame without such a place is word for word the same. If the assembler adds the same to both, which it does when both use the same STEPDOWN tags and the same IOB33 sites, and their lines differ only about some tiles, then the devices differ only in places which the database gives to these tiles, and every other frame is the same.", "quantifier": "all databases on disk, all pairs of designs of correct lines whose bits lie in frames of the part, all sets of tiles, hash orders, and prior contents of both devices", "why_tests_cant": "A test changes one line of one design; the claim is about all pairs of designs and about every place that does not change.", "anchors": ["fpga/assembler.cc: AssembleFrames, AddStepDownFeatures, main", "fpga/database.cc: PartDatabase::ConfigBits", "fpga/xilinx/bitstream-writer.h: BitstreamWriter", "fpga/xilinx/configuration.h: Configuration"]}
