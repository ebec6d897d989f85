{"id": "C01", "title": "Size fields written by the muxer read back exactly", "statement": "Whatever value the muxer accepts for an EBML variable-length size field (chosen width or a requested width of 1..8 bytes), the reader's variable-length integer routine applied to the bytes written returns that same value and a length equal to the number of bytes written, and the muxer refuses (returns an error, writes nothing) exactly the values that do not fit the requested width.", "quantifier": "every unsigned value, every requested width 1..8, and the automatic width", "why_tests_cant": "the domain is 2^64 values times 8 widths and the failures sit on the all-ones boundaries of each width", "anchors": ["mkvmuxer/mkvmuxerutil.cc:GetCodedUIntSize,WriteUIntSize,WriteUInt", "mkvparser/mkvparser.cc:ReadUInt,GetUIntLength"]}
{"id": "C02", "title": "Automatic size fields are minimal and never look like 'unknown size'", "statement": "When the width is chosen automatically the muxer uses the smallest width whose value space can hold the value without the all-ones pattern, so a finite size is never written as the reserved unknown-size pattern and never wastes a byte.", "quantifier": "every unsigned value that fits in the 8-byte form", "why_tests_cant": "an off-by-one at any of the seven boundaries is invisible except at one value in 2^56", "anchors": ["mkvmuxer/mkvmuxerutil.cc:GetCodedUIntSize,WriteUInt"]}
{"id": "C03", "title": "Element IDs survive write and read", "statement": "For every element ID that is a well-formed EBML ID of one to four bytes, the bytes written by the muxer are decoded by the reader's ID routine and by the incremental ID parser to the same ID with the same length.", "quantifier": "every well-formed 1..4 byte EBML ID (hence every ID constant the library defines)", "why_tests_cant": "2^28 identifiers and two independent decoders", "anchors": ["mkvmuxer/mkvmuxerutil.cc:WriteID", "mkvparser/mkvparser.cc:ReadID", "webm_parser/src/id_parser.cc", "common/webmids.h"]}
{"id": "C04", "title": "Unsigned integer elements round-trip", "statement": "An unsigned integer element written by the muxer is read back with the same value by the incremental parser for every 64-bit value, and by mkvparser for every value below 2^63 (mkvparser returns signed values and cannot represent the rest).", "quantifier": "every unsigned 64-bit value and every payload width the writer picks", "why_tests_cant": "needs every value, not a sample: each of the eight widths has its own boundary and the top bit changes the result", "anchors": ["mkvmuxer/mkvmuxerutil.cc:GetUIntSize,SerializeInt,WriteEbmlElement", "mkvparser/mkvparser.cc:UnserializeUInt", "webm_parser/src/int_parser.h"]}
{"id": "C05", "title": "Signed integer elements round-trip", "statement": "A signed integer element written by the muxer (for example DiscardPadding) is read back with the same value by mkvparser and by the incremental parser, for every signed 64-bit value, and the width chosen is the smallest that can hold it in two's complement.", "quantifier": "every signed 64-bit value", "why_tests_cant": "sign-extension errors only show at the two ends of each of eight widths", "anchors": ["mkvmuxer/mkvmuxerutil.cc:GetIntSize,SerializeInt,WriteEbmlElement", "mkvparser/mkvparser.cc:UnserializeInt", "webm_parser/src/int_parser.h"]}
{"id": "C06", "title": "Declared sizes equal bytes written", "statement": "For every element writer of the muxer utility layer (unsigned, signed, float, string, binary, date, master header, fixed-width unsigned), the byte count reported by the corresponding size function is exactly the number of bytes the writer emits when it succeeds.", "quantifier": "every ID, value, string, buffer and fixed width accepted by the writers", "why_tests_cant": "parents are sized before children are written; one disagreement at one width corrupts the file", "anchors": ["mkvmuxer/mkvmuxerutil.cc:EbmlElementSize,EbmlMasterElementSize,EbmlDateElementSize,WriteEbmlElement,WriteEbmlMasterElement,WriteEbmlDateElement"]}
{"id": "C07", "title": "Void padding has exactly the requested total size or fails", "statement": "Asking for a padding element of total size n produces exactly n bytes that read back as one Void element filling n bytes, for every n for which that is possible; the sizes for which the routine reports failure are exactly characterised.", "quantifier": "every requested size", "why_tests_cant": "the gaps lie at isolated sizes around each size-field boundary", "anchors": ["mkvmuxer/mkvmuxerutil.cc:WriteVoidElement"]}
{"id": "C08", "title": "Element headers never claim bytes outside their parent", "statement": "Whenever mkvparser accepts a child element header inside a parent, the child's payload is non-negative in length, starts after its header, and lies inside the parent; when the header or payload would cross the parent's end, a format error is returned.", "quantifier": "every file content, every start position and every parent end", "why_tests_cant": "hostile files choose any bytes; this is the property that stops runaway reads", "anchors": ["mkvparser/mkvparser.cc:ParseElementHeader,ReadID,ReadUInt"]}
{"id": "C09", "title": "Both parsers agree on variable-length integers and IDs", "statement": "On every byte string, mkvparser's integer/ID decoders and the incremental parser's integer/ID parsers either both succeed with the same value and length or both reject (modulo the documented difference on unknown-size and on IDs whose value bits are all zero or all one).", "quantifier": "every byte sequence", "why_tests_cant": "two implementations written years apart must coincide on the whole input space", "anchors": ["mkvparser/mkvparser.cc:ReadUInt,ReadID", "webm_parser/src/var_int_parser.cc", "webm_parser/src/id_parser.cc"]}
{"id": "C10", "title": "Scalar parsing does not depend on how data arrives", "statement": "Feeding an incremental scalar parser (variable-length integer, ID, size, integer, boolean, float, date, string/binary, block header) in arbitrary pieces, with any number of 'would block' interruptions, yields the same final value, the same status and the same number of consumed bytes as feeding it all at once.", "quantifier": "every byte string and every partition of it into feeds, including empty ones", "why_tests_cant": "the number of schedules is exponential in the length", "anchors": ["webm_parser/src/var_int_parser.cc", "webm_parser/src/id_parser.cc", "webm_parser/src/size_parser.cc", "webm_parser/src/int_parser.h", "webm_parser/src/bool_parser.h", "webm_parser/src/float_parser.cc", "webm_parser/src/date_parser.cc", "webm_parser/src/byte_parser.h", "webm_parser/src/block_header_parser.cc"]}
{"id": "C11", "title": "A failing output is always reported", "statement": "If any individual write to the output fails, the muxer routine that issued it returns failure; conversely a routine that returns success performed only successful writes and appended exactly the element's encoding.", "quantifier": "every writer routine, every argument and every pattern of write failures", "why_tests_cant": "failure may strike at any of the writes: the crash-point space is unbounded", "anchors": ["mkvmuxer/mkvmuxerutil.cc", "mkvmuxer/mkvmuxer.cc:WriteEbmlHeader,Cluster,Cues,SeekHead"]}
{"id": "C12", "title": "SimpleBlock round trip", "statement": "A frame written as a SimpleBlock by the muxer is parsed by mkvparser as an unlaced block with the same track number, relative timecode, key flag and exactly one frame whose bytes are the original payload.", "quantifier": "every track number, every relative timecode in range, key or not, every non-empty payload", "why_tests_cant": "unbounded payloads and all boundary values of three fields", "anchors": ["mkvmuxer/mkvmuxerutil.cc:WriteSimpleBlock,WriteFrame", "mkvparser/mkvparser.cc:Block::Parse"]}
{"id": "C13", "title": "BlockGroup round trip", "statement": "A frame written as a BlockGroup (duration, additional data, discard padding or explicit reference) is parsed with the same payload, timecode, duration and discard padding, and is reported as a key frame exactly when the muxer was told it is one.", "quantifier": "every frame with any combination of optional fields", "why_tests_cant": "2^4 optional-field combinations times unbounded payloads and values", "anchors": ["mkvmuxer/mkvmuxerutil.cc:WriteBlock", "mkvparser/mkvparser.cc:Cluster::CreateBlockGroup,BlockGroup::Parse"]}
{"id": "C14", "title": "Frames of an accepted block tile the block exactly", "statement": "For every block mkvparser accepts, whatever its lacing, the reported frames are non-empty, lie in order and contiguously inside the block, and the last one ends exactly at the block's last byte; the frame count equals the lace count in the block (or one when unlaced).", "quantifier": "every block content, start and size", "why_tests_cant": "lace headers are attacker-controlled; only a proof covers all size combinations", "anchors": ["mkvparser/mkvparser.cc:Block::Parse"]}
{"id": "C15", "title": "Lacing is decoded according to the format", "statement": "Any list of frames encoded with Xiph, fixed-size or EBML lacing as the Matroska format prescribes is decoded by mkvparser to exactly those frames.", "quantifier": "every list of 2..256 non-empty frames of encodable sizes, for the three lacing kinds", "why_tests_cant": "the size space is unbounded and signed EBML deltas have many widths", "anchors": ["mkvparser/mkvparser.cc:Block::Parse"]}
{"id": "C16", "title": "Incremental block parsing keeps frames inside the block", "statement": "For every block the incremental parser accepts, the frames it announces lie inside the block, their sizes sum to the bytes after the lace header, and the announced absolute positions are the true positions of those bytes.", "quantifier": "every block content and size, three lacing kinds", "why_tests_cant": "wrap-around and bookkeeping errors appear only for particular size combinations", "anchors": ["webm_parser/src/block_parser.cc"]}
{"id": "C17", "title": "Track numbers are unique and encodable", "statement": "After any history of adding tracks with requested or automatic numbers, all track numbers are distinct, at least 1 and at most the maximum the block header can encode, and a request that cannot be honoured fails without changing the track list.", "quantifier": "every history of track additions", "why_tests_cant": "collisions between automatic and explicit numbers depend on the whole history", "anchors": ["mkvmuxer/mkvmuxer.cc:Tracks::AddTrack,Segment::AddTrack,AddVideoTrack,AddAudioTrack"]}
{"id": "C18", "title": "Relative timecodes always fit", "statement": "No block is ever written whose timecode relative to its cluster is outside the signed 16-bit range accepted by the format or negative; frames for which it would be are refused or start a new cluster.", "quantifier": "every history of frames handed to the muxer", "why_tests_cant": "depends on cluster limits, queueing and the order of arbitrary timestamps", "anchors": ["mkvmuxer/mkvmuxer.cc:Cluster::GetRelativeTimecode,Segment::TestFrame,Segment::AddGenericFrame"]}
{"id": "C19", "title": "Cluster bookkeeping equals the bytes on disk", "statement": "At every point the cluster's payload size equals the number of payload bytes written, and after finalisation on a seekable output the size field patched into the header equals that payload size, so the cluster reads back with exactly its blocks.", "quantifier": "every sequence of frames added to a cluster, every write failure", "why_tests_cant": "the invariant must survive any interleaving of block kinds and sizes", "anchors": ["mkvmuxer/mkvmuxer.cc:Cluster::AddFrame,Cluster::PostWriteBlock,Cluster::Finalize,Cluster::WriteClusterHeader"]}
{"id": "C20", "title": "Frames of one cluster come out in timestamp order with accurate durations", "statement": "When accurate cluster duration is requested, the frames held back per track are released at finalisation in non-decreasing timestamp order across tracks, none is lost or duplicated, and the per-track order is kept.", "quantifier": "every multiset of tracks and frames", "why_tests_cant": "a k-way merge over any number of queues", "anchors": ["mkvmuxer/mkvmuxer.cc:Cluster::Finalize,Cluster::QueueOrWriteFrame"]}
{"id": "C21", "title": "Accepted frames are written exactly once, in order", "statement": "Every frame the muxer accepts is eventually written exactly once, per track in the order of acceptance, and the overall timestamps of a cluster are non-decreasing.", "quantifier": "every history of accepted frames followed by finalisation", "why_tests_cant": "queued audio frames interact with key frames, cluster limits and the order of calls", "anchors": ["mkvmuxer/mkvmuxer.cc:Segment::AddGenericFrame,QueueFrame,WriteFramesAll,WriteFramesLessThan,DoNewClusterProcessing"]}
{"id": "C22", "title": "Cue points address real clusters", "statement": "Every cue entry's cluster position is the offset, from the segment payload start, of the header of the cluster that contains the cued block, also after the cues have been moved before the clusters.", "quantifier": "every history of frames and every choice of cue placement", "why_tests_cant": "moving cues changes their own encoded size, which shifts the clusters again", "anchors": ["mkvmuxer/mkvmuxer.cc:Segment::AddCuePoint,Segment::MoveCuesBeforeClusters,MoveCuesBeforeClustersHelper"]}
{"id": "C23", "title": "Moving cues before clusters terminates with consistent offsets", "statement": "The computation that shifts cluster positions for cues placed in front always terminates and ends with every stored cluster position (cues and seek head) increased by exactly the final encoded size of the cues element.", "quantifier": "every set of cue points and every seek head", "why_tests_cant": "the fix-point recursion depends on size-field boundaries of every stored position", "anchors": ["mkvmuxer/mkvmuxer.cc:Segment::MoveCuesBeforeClusters,MoveCuesBeforeClustersHelper"]}
{"id": "C24", "title": "The seek head fits the space reserved for it", "statement": "The seek head written at finalisation never exceeds the bytes reserved for it when the header was written, exactly fills it together with its padding, and its entries read back as the (id, position) pairs recorded. On any file, a Seek entry is taken only if it consists of exactly one ID and one position.", "quantifier": "every set of up to the maximum number of entries and every position", "why_tests_cant": "padding arithmetic has isolated failing sizes", "anchors": ["mkvmuxer/mkvmuxer.cc:SeekHead::Write,SeekHead::Finalize,SeekHead::MaxEntrySize,AddSeekEntry"]}
{"id": "C25", "title": "EBML header round trip", "statement": "The file header written by the muxer is accepted by mkvparser and reports the same document type and versions; the declared size equals the bytes written; while the header is incomplete the parser asks for more data.", "quantifier": "every non-empty document type of up to 20,000,000 bytes and every version from 1 to 2^63-1; every prefix of the header for incremental reading", "why_tests_cant": "sizes vary with the version value", "anchors": ["mkvmuxer/mkvmuxer.cc:WriteEbmlHeader", "mkvparser/mkvparser.cc:EBMLHeader::Parse"]}
{"id": "C26", "title": "Cue points round trip", "statement": "A cue point (time, track, cluster position, block number) written by the muxer is loaded by mkvparser with the same values, and its size accounting is exact.", "quantifier": "every cue point the muxer accepts", "why_tests_cant": "four 64-bit fields with eight widths each", "anchors": ["mkvmuxer/mkvmuxer.cc:CuePoint::Write,CuePoint::PayloadSize,CuePoint::Size,Cues::Size", "mkvparser/mkvparser.cc:CuePoint::Load,TrackPosition::Parse"]}
{"id": "C27", "title": "Cluster lookup by time is correct", "statement": "Whenever cluster times are sorted and fit in 64 bits as nanoseconds, looking a cluster up by time returns the first cluster when no cluster is earlier than the requested time, and otherwise the last cluster whose time does not exceed it.", "quantifier": "every sorted list of clusters and every time", "why_tests_cant": "binary-search boundary errors show only for particular lengths and keys", "anchors": ["mkvparser/mkvparser.cc:Segment::FindCluster"]}
{"id": "C28", "title": "Cue lookup by time is correct", "statement": "Looking up a cue by time returns the first cue point when none is earlier than the requested time and otherwise the last cue point whose time does not exceed it, with its first entry for the requested track, whenever cue times are sorted.", "quantifier": "every sorted cue list, every time and track", "why_tests_cant": "binary-search boundary errors show only for particular lengths and keys", "anchors": ["mkvparser/mkvparser.cc:Cues::Find,CuePoint::Find"]}
{"id": "C29", "title": "The cluster table stays sorted and complete", "statement": "After any interleaving of appending parsed clusters and pre-loading clusters found through cues, the table of loaded clusters keeps its index order, the pre-loaded part stays sorted by position without duplicates, and no entry is lost when the table grows.", "quantifier": "every history of append and pre-load operations", "why_tests_cant": "array growth and insertion interact over unbounded histories", "anchors": ["mkvparser/mkvparser.cc:Segment::AppendCluster,PreloadCluster,FindOrPreloadCluster"]}
{"id": "C30", "title": "Block timestamps never overflow silently", "statement": "The absolute time of a block is either the exact product of the timecode scale and the (cluster + relative) timecode or the reported error value; it never wraps.", "quantifier": "every cluster timecode, relative timecode and scale", "why_tests_cant": "overflow needs extreme values that tests do not combine", "anchors": ["mkvparser/mkvparser.cc:Block::GetTimeCode,Block::GetTime"]}
{"id": "C31", "title": "Element-tree parsing does not depend on how data arrives", "statement": "For every input and callback policy, the sequence of events and values delivered by the incremental parser and its final status do not depend on how the input is split into available chunks.", "quantifier": "every byte string, every chunking, every skip/read policy", "why_tests_cant": "state machines suspended at any byte of any nesting depth", "anchors": ["webm_parser/src/master_parser.cc", "webm_parser/src/webm_parser.cc"]}
{"id": "C32", "title": "Parse errors are sticky", "statement": "Once the incremental parser has reported a parsing error, every later call reports the same error without touching the reader or the callback, until the user announces a seek.", "quantifier": "every history of calls", "why_tests_cant": "quantifies over all call histories after all errors", "anchors": ["webm_parser/src/webm_parser.cc:WebmParser::Feed"]}
{"id": "C33", "title": "A completed element consumes exactly its declared size", "statement": "When the incremental parser completes an element of known size, the bytes consumed equal the declared size, whether the element was read or skipped.", "quantifier": "every element, content, policy", "why_tests_cant": "a one-byte drift desynchronises everything after it", "anchors": ["webm_parser/src/master_parser.cc", "webm_parser/src/skip_parser.cc", "webm_parser/src/virtual_block_parser.cc"]}
{"id": "C34", "title": "Seeking restores the right element context", "statement": "After a seek, an element's chain of ancestors deduced from its ID is the chain prescribed by the format, for every ID the parser knows, and is reported as unknown otherwise.", "quantifier": "every element ID", "why_tests_cant": "a table of about a hundred entries with shared slices", "anchors": ["webm_parser/src/ancestory.cc"]}
{"id": "C35", "title": "WebVTT lines are split independently of terminator style", "statement": "Reading lines yields the same lines whichever of LF, CR or CRLF terminates each of them, loses no character, and reports end of stream exactly when nothing is left.", "quantifier": "every text and every choice of terminators", "why_tests_cant": "CR look-ahead interacts with end of file and the next line", "anchors": ["webvtt/webvttparser.cc:LineReader::GetLine,Parser::GetChar,UngetChar"]}
{"id": "C36", "title": "WebVTT numbers never overflow", "statement": "Parsing a digit string returns its value exactly when it fits in an int and an error otherwise, consuming exactly the digits.", "quantifier": "every digit string of any length", "why_tests_cant": "overflow boundary at every length", "anchors": ["webvtt/webvttparser.cc:Parser::ParseNumber"]}
{"id": "C37", "title": "WebVTT timestamps denote the written time", "statement": "A timestamp accepted by the parser denotes the time written in it: hours, minutes, seconds in range and milliseconds equal to the fraction.", "quantifier": "every timestamp in the three syntaxes", "why_tests_cant": "leading zeros in the fraction change its value", "anchors": ["webvtt/webvttparser.cc:Parser::ParseTime"]}
{"id": "C38", "title": "WebVTT time arithmetic is exact", "statement": "Converting a cue time to milliseconds and back is the identity on normalised times, comparison agrees with the millisecond order, and adding then subtracting a duration restores the time within the representable range.", "quantifier": "every normalised time and every duration in range", "why_tests_cant": "carry across four fields", "anchors": ["webvtt/webvttparser.cc:Time::presentation,Time::operator<,Time::operator+="]}
{"id": "C39", "title": "Escaped PES payloads contain no start code", "statement": "The escaped form of any payload contains no 00 00 01 sequence, so a receiver never mistakes payload for a packet start.", "quantifier": "every payload", "why_tests_cant": "needs every zero-run position", "anchors": ["m2ts/webm2pes.cc:CopyAndEscapeStartCodes"]}
{"id": "C40", "title": "Unescaping inverts escaping", "statement": "Removing emulation-prevention bytes from an escaped payload gives the payload back and reports the number of bytes consumed.", "quantifier": "every payload", "why_tests_cant": "zero runs of any length before 01/03", "anchors": ["m2ts/webm2pes.cc:CopyAndEscapeStartCodes", "m2ts/vpxpes_parser.cc:RemoveStartCodeEmulationPreventionBytes"]}
{"id": "C41", "title": "Transport packets carry the PES bytes", "statement": "Splitting any PES data into transport packets yields only 188-byte packets with the sync byte, the start flag exactly on the first, counters increasing modulo 16, and concatenating their payloads gives the PES data back.", "quantifier": "every PES data of any length", "why_tests_cant": "stuffing arithmetic at each residue modulo 184", "anchors": ["m2ts/vpxpes2ts.cc:VpxPes2Ts::ReceivePacket,TsHeader::Write"]}
{"id": "C42", "title": "PTS survives the PES header", "statement": "The presentation timestamp stored by the PES writer is the one the PES reader reports.", "quantifier": "every 33-bit timestamp", "why_tests_cant": "bit-slicing errors affect single bits of a 33-bit field", "anchors": ["m2ts/webm2pes.cc:PesOptionalHeader::SetPtsBits", "m2ts/vpxpes_parser.cc:ParsePesOptionalHeader"]}
{"id": "C43", "title": "Superframe index entries are disjoint, ordered and in bounds", "statement": "When a VP9 superframe index is accepted, the ranges reported start at 0, follow each other without gap, lie before the index, and are exactly the sizes stored in the index; out-of-bounds indexes are refused.", "quantifier": "every frame content", "why_tests_cant": "sizes are attacker-controlled", "anchors": ["common/libwebm_util.cc:ParseVP9SuperFrameIndex"]}
{"id": "C44", "title": "VP9 header parsing never reads outside the frame", "statement": "Whatever the frame content and length, header parsing reads only bits of the frame, in order, treats bits past the end as zero, and terminates.", "quantifier": "every frame content and length", "why_tests_cant": "truncation can happen at any bit", "anchors": ["common/vp9_header_parser.cc"]}
{"id": "C45", "title": "VP9 level statistics are exact window maxima", "statement": "After any sequence of frames the reported maxima equal the true maxima over the sequence: picture size, breadth, the largest compressed size of any four consecutive frames, and the largest luma sample count in any one-second window.", "quantifier": "every sequence of frames with arbitrary sizes and non-decreasing times", "why_tests_cant": "sliding windows over unbounded sequences", "anchors": ["common/vp9_level_stats.cc:Vp9LevelStats::AddFrame"]}
{"id": "C46", "title": "VPx codec private data is validated in bounds", "statement": "Parsing VPx codec private data never reads past its length, and when it succeeds every feature reported has a legal value equal to the one stored.", "quantifier": "every byte string and length", "why_tests_cant": "feature records are attacker-controlled", "anchors": ["common/hdr_util.cc:ParseVpxCodecPrivate"]}
{"id": "C47", "title": "PES streams are read back as the frames written", "statement": "The concatenation of the PES packets produced for a list of frames, read packet by packet, yields exactly the frames (or, for a VP9 superframe, its frames), in order, each with its presentation time, and then reports that there is no more.", "quantifier": "every list of frames, times and contents, including contents longer than one packet and contents that need escaping", "why_tests_cant": "the packets depend on lengths, escapes and superframe indices of arbitrary payloads", "anchors": ["m2ts/webm2pes.cc:Webm2Pes::WritePesPacket", "m2ts/vpxpes_parser.cc:VpxPesParser::ParseNextPacket"]}
{"id": "C48", "title": "VP9 header parsing reports what the header encodes", "statement": "For every key frame, intra-only frame and inter frame whose header is laid out as the VP9 bitstream defines, parsing succeeds and reports the profile, bit depth, colour, subsampling, refresh flags, dimensions and tile counts that were encoded.", "quantifier": "every combination of encoded header values, for every frame content that follows the header", "why_tests_cant": "field positions depend on earlier fields, so the number of layouts is the product of all options", "anchors": ["common/vp9_header_parser.cc:Vp9HeaderParser::ParseUncompressedHeader"]}
{"id": "C49", "title": "The VP9 level reported is the lowest that fits", "statement": "The level reported for a stream is the lowest one whose limits the stream keeps, and no level is reported if there is none.", "quantifier": "all statistics of a stream", "why_tests_cant": "the limits of fourteen levels interact and the statistics are unbounded", "anchors": ["common/vp9_level_stats.cc:Vp9LevelStats::GetLevel"]}
{"id": "C50", "title": "A WebVTT file of cues is read back cue by cue", "statement": "A file with the WebVTT signature (with or without a byte order mark and a title), a blank line and well-formed cues separated by blank lines is accepted, and successive Parse calls return exactly the cues written - identifier, start and stop times, settings in order, payload lines - and then report the end of the stream.", "quantifier": "every list of well-formed cues of any size, every mixture of line terminators, any number of blank lines", "why_tests_cant": "a file is an unbounded sequence of lines and the parser's look-ahead and line buffer are carried from cue to cue", "anchors": ["webvtt/webvttparser.cc:Parser::Init,Parser::Parse,ParseTimingsLine,ParseSettings"]}
{"id": "C51", "title": "No WebVTT input makes the parser look outside a line", "statement": "Whatever bytes the stream delivers, and even if it ends in an error, parsing a cue never reads a character outside the current line, never overflows a number, and comes to an end.", "quantifier": "every byte stream, regular or failing, at every point of the parse", "why_tests_cant": "the scanner relies on NUL characters it plants in the line and on the file not containing surprises", "anchors": ["webvtt/webvttparser.cc:Parser::ParseTimingsLine,ParseTime,ParseSettings,ParseNumber"]}
{"id": "C52", "title": "Accurate cluster durations: the last block of each track lasts to the end of the cluster", "statement": "When a cluster is finalised with its end time, the last block of every track that came without a duration is written with the time from its timestamp to that end as its duration (and, if it is not a key frame, with a reference to the previous block of its track); every other block is written as it was offered.", "quantifier": "every set of tracks and every history of frames a cluster can take", "why_tests_cant": "which frame is a track's last is known only at finalisation, after an arbitrary interleaving of releases", "anchors": ["mkvmuxer/mkvmuxer.cc:Cluster::Finalize,Cluster::QueueOrWriteFrame"]}
{"id": "C53", "title": "The incremental parser decodes every well-formed block to its frames", "statement": "Any block the format allows - unlaced, or one to 256 frames with Xiph, fixed-size or EBML lacing and any integer widths, the last frame not empty - is accepted by the incremental parser however its bytes arrive, consuming exactly the block; the callback is told the header's track, time code and flags and the number of frames, then exactly the frames in order with their bytes, then the end.  A size too small for a block is refused at once.", "quantifier": "every list of frames, every lacing, every header, every way of delivering the bytes in pieces", "why_tests_cant": "lace sizes are sums of unbounded byte runs or biased differences, and the parser can be interrupted inside any of them", "anchors": ["webm_parser/src/block_parser.cc:BasicBlockParser::Feed,BasicBlockParser::Init", "webm_parser/src/block_header_parser.cc"]}
{"id": "C54", "title": "Strings, binary data, floats and dates are read back as written, and malformed ones refused", "statement": "A string, binary, finite float or date element written by the muxer is found with exactly the bytes written and its value read back exactly by the readers of both parsers; over-long strings, infinities, NaNs, integers of more than eight bytes and payloads that are not completely available are refused instead of giving a value.", "quantifier": "every value, every position in every file, every following content", "why_tests_cant": "values and payload sizes are unbounded and every bit pattern counts", "anchors": ["mkvmuxer/mkvmuxerutil.cc:WriteEbmlElement,WriteEbmlDateElement,SerializeFloat", "mkvparser/mkvparser.cc:UnserializeString,UnserializeFloat,UnserializeUInt,UnserializeInt", "webm_parser/src/byte_parser.h", "webm_parser/src/float_parser.cc", "webm_parser/src/date_parser.cc"]}
{"id": "C55", "title": "A parse that completes has read the whole input", "statement": "When the incremental parser, created or told of a seek and then fed until it stops asking for more, reports completion, every byte of the input has been read; an input that ends inside an element never completes.", "quantifier": "every byte string, every way of delivering it, every callback", "why_tests_cant": "where an input ends relative to nested elements of known and unknown size has unboundedly many forms", "anchors": ["webm_parser/src/webm_parser.cc:DocumentParser::Feed", "webm_parser/src/master_parser.cc:MasterParser::Feed"]}
{"id": "C56", "title": "Skipping an element silences that element and nothing else", "statement": "When the callback asks to skip an element, no call is made for anything inside it, the bytes after it are parsed as if it had been read, and every other element is reported as before.", "quantifier": "every element tree and every choice of skipped elements", "why_tests_cant": "the answer to skip can come at any level and the parser has to find the end of the element by itself", "anchors": ["webm_parser/src/master_parser.cc:MasterParser::Feed", "webm_parser/src/master_value_parser.h:MasterValueParser::Feed", "webm_parser/src/skip_callback.h"]}
{"id": "C57", "title": "A file that is still being written can be read up to its end", "statement": "At every moment between two calls of a muxer segment that writes frames at once, the bytes in the output are the header elements, then complete clusters with their right sizes, then possibly one cluster of unknown size that extends to the end; the accepted frames are exactly those of the clusters, in order, each once and whole, followed only by frames that still wait for a video frame. So a crash between calls loses at most the waiting frames.", "quantifier": "every segment configuration, every history of well-formed frames and requests for new clusters, every moment between calls, live and file mode", "why_tests_cant": "the statement is about every prefix of every history; tests look at finished files of a few histories", "anchors": ["mkvmuxer/mkvmuxer.cc: Segment::AddGenericFrame, Segment::DoNewClusterProcessing, Segment::MakeNewCluster, Segment::WriteSegmentHeader", "mkvmuxer/mkvmuxer.cc: Cluster::AddFrame, Cluster::Finalize"]}
{"id": "C58", "title": "Well-formed documents are read as the format says", "statement": "For a well-formed Matroska/WebM document (elements nested as the element table allows, with known or unknown sizes, unknown and void elements, blocks with any lacing; an element of unknown size stands only inside elements of unknown size, is followed by something it cannot contain and, at the top level, is the last element; recursive ChapterAtom/SimpleTag elements have known sizes), WebmParser::Feed, called until it stops asking for more data, returns kOkCompleted after reading exactly the whole document, and the callback receives exactly the calls of a simple reference reading of the element tree: every element announced with its true ID, header size, size and position, the begin and end calls of Segment, Cluster and BlockGroup in place, every value and every frame with its bytes, and nothing for elements the callback chose to skip.  In particular a callback that skips nothing is given every frame, once and in order.", "quantifier": "all well-formed documents (any nesting and length), all callbacks that accept and read everything, choosing any set of known-size elements to skip, all ways the data arrives", "why_tests_cant": "the set of documents is infinite and the interplay of unknown sizes, cached headers and skipping only shows for particular nestings; tests feed a handful of hand-made trees", "anchors": ["webm_parser/src/webm_parser.cc:DocumentParser::Feed", "webm_parser/src/master_parser.cc:MasterParser::Feed", "webm_parser/src/master_value_parser.h:MasterValueParser::Feed", "webm_parser/src/block_parser.cc:BasicBlockParser::Feed"]}
{"id": "C59", "title": "New clusters start exactly when the frame and the settings call for one", "statement": "When a muxer segment (not in accurate-duration mode) accepts a frame, exactly one of three things happens. The frame is kept waiting, if it is an audio frame of a file with video, no new cluster was asked for and it is within 32767 ticks of the open cluster. Or a new cluster begins with it, if one was asked for, there is none yet, it lies more than 32767 ticks after the start of the open cluster, it is a key frame of a video track, or the open cluster has reached the configured maximal duration or payload size; the waiting frames that are followed by another waiting frame not later than it end the old cluster, the others open the new one, whose time is that of its earliest frame. Or else the waiting frames and then the frame are appended to the open cluster. A request for a new cluster is remembered until a frame is written and then used up. Consequently, at every moment, no cluster has a video key frame, or a frame that did not wait and is as late as the maximal duration, after the frame it was begun for.", "quantifier": "every segment configuration, every history of well-formed frames and requests, every limit of duration and size", "why_tests_cant": "the rules interact (held-back audio, limits, requests, key frames) and the cluster in which a frame lands depends on the whole history", "anchors": ["mkvmuxer/mkvmuxer.cc: Segment::TestFrame, Segment::MakeNewCluster, Segment::DoNewClusterProcessing, Segment::WriteFramesLessThan, Segment::ForceNewClusterOnNextFrame, Segment::set_max_cluster_duration, Segment::set_max_cluster_size"]}
{"id": "C60", "title": "Tracks, chapters and tags are written exactly as they were set up, or the write fails", "statement": "For every list of tracks (with any combination of numbers, strings, codec private data, encryptions, video size, cropping, colour with mastering metadata, projection, audio settings), every list of chapters and every list of tags: if each of them can be written (a track has a type, a codec, private data if it is AV1, keys for its encryptions and acceptable colour values; a chapter has an identifier and its displays titles; a simple tag has a name and a value) and no value is 4 GiB or longer, then the Tracks, Chapters or Tags element in the file is exactly the tree of elements that stands for them: every value that was set, none that was not, each element with the right size; if one of them cannot be written, the call fails whatever the output does; and with failing outputs the call reports the failure and leaves only a prefix.", "quantifier": "all tracks, chapters and tags, all outputs with failing or short writes", "why_tests_cant": "The size functions and the write functions are separate code with separate conditions over some fifty optional fields; they must agree for every combination of fields and every value, which no finite set of tests covers.", "anchors": ["mkvmuxer/mkvmuxer.cc: ContentEncoding, PrimaryChromaticity, MasteringMetadata, Colour, Projection, Track, VideoTrack, AudioTrack, Tracks::Write, Chapter, Chapters::Write, Tag, Tags::Write"]}
{"id": "C61", "title": "A recording made with the muxer is read back by the parser frame for frame", "statement": "For every segment configuration (tracks, chapters, tags, cues, seekable or not, live or not) and every history of frames, the file the muxer leaves is read by WebmParser to its end with success, however the bytes arrive, and from the calls the callback receives one reconstructs exactly the accepted frames, in order, each with its time in timecode units, track number, data, key-frame flag, duration, discard padding and additional data. The same holds for a live file, for the copy with the cues moved to the front, and for the file between any two calls, where only frames still waiting for a video frame are missing. (Reference times are the exception: they are written unsigned and read signed.)", "quantifier": "all segment configurations, header objects, frame histories, ways the data arrives and callbacks that read everything", "why_tests_cant": "the writer and the reader are separate code bases; agreement must hold for every combination of settings and frames and every chunking of the data", "anchors": ["mkvmuxer/mkvmuxer.cc: Segment::AddGenericFrame, Segment::Finalize, Segment::CopyAndMoveCuesBeforeClusters", "mkvmuxer/mkvmuxerutil.cc: WriteFrame", "webm_parser/src/webm_parser.cc: WebmParser::Feed", "webm_parser/src/block_group_parser.h", "webm_parser/src/cluster_parser.h"]}
{"id": "C62", "title": "Every element is read with the type and under the parent the format defines", "statement": "WebmParser recognises below EBML and Segment exactly the elements of the WebM/Matroska format (RFC 8794 and RFC 9559, plus the few additions of the parser's own documentation), each only inside the parents the format allows, and reads each as the kind of value the format gives it (unsigned, signed, float, string, UTF-8, date, binary, flag, block or further elements). No parent has two readers for one ID.  MaxBlockAdditionID and ColourSpace, which the muxer can write, are the exceptions: the parser treats them as unknown.", "quantifier": "all element IDs below all parents", "why_tests_cant": "the table is spread over some fifty classes; a test exercises an element only if somebody thought of it, and a missing or mistyped row goes unnoticed", "anchors": ["webm_parser/src/*_parser.h: constructors with MakeChild", "webm_parser/include/webm/id.h: Id"]}
{"id": "C63", "title": "The tracks and segment information set up in the muxer are what mkvparser shows", "statement": "For every list of tracks with distinct numbers and settings within the limits of mkvparser (strings up to 20 MB, signed 64-bit numbers, finite floats that are not denormal, luminances below 9999.99 and 999.9999, AES-CTR encryption with a key), the Tracks element written by the muxer is parsed by mkvparser to exactly these tracks, with every value that was set: number, UID, type, name, language, codec and private data, durations, delays, encryptions, video size, frame rate, colour, mastering metadata, projection, sampling rate, channels, depth. The same holds for the time scale, the names and the duration in the Info element, and GetDuration gives the written duration in nanoseconds, rounded down.", "quantifier": "all lists of tracks, all segment informations within the limits, all positions in all files", "why_tests_cant": "about fifty optional values with separate writers and readers must agree in every combination and for every value", "anchors": ["mkvparser/mkvparser.cc: Tracks::Parse, Tracks::ParseTrackEntry, VideoTrack::Parse, AudioTrack::Parse, Colour::Parse, MasteringMetadata::Parse, Projection::Parse, ContentEncoding::Parse, SegmentInfo::Parse, SegmentInfo::GetDuration", "mkvmuxer/mkvmuxer.cc: Tracks::Write, SegmentInfo::Write"]}
{"id": "C64", "title": "The chapters and tags set up in the muxer are what mkvparser shows", "statement": "Every list of chapters (identifier, UID, start and end, titles with language and country) and every list of tags (names and values) that the muxer can write is parsed by mkvparser to the same chapters, in one edition, and the same tags, empty strings being shown as missing; the times are shown in nanoseconds as they were given, rounded down to the time scale.", "quantifier": "all lists of chapters and tags with strings up to 20 MB and times below 2^63", "why_tests_cant": "nested optional elements of any number, and values of any width", "anchors": ["mkvparser/mkvparser.cc: Chapters::Parse, Chapters::Edition::Parse, Chapters::Atom::Parse, Chapters::Display::Parse, Chapters::Atom::GetTime, Tags::Parse, Tags::Tag::Parse, Tags::SimpleTag::Parse", "mkvmuxer/mkvmuxer.cc: Chapters::Write, Tags::Write"]}
{"id": "C65", "title": "A recording made with the muxer is what an application sees through mkvparser", "statement": "For every segment configuration within the limits of mkvparser and every history of frames, the file the muxer leaves can be opened with EBMLHeader::Parse, Segment::CreateInstance and Segment::Load without error (given a reader that knows the length of the file); the segment then shows the document type, information, tracks, chapters and tags that were set up, and going through clusters, block entries and frames with GetFirst/GetNext shows exactly the accepted frames, in order, each with its time, track, data, key-frame flag, duration and discard padding. The same holds for a live file (clusters and segment of unknown size), for the copy with the cues moved to the front, and for the file between any two calls, where only frames waiting for a video frame are missing. (With a reader that does not know the length, Load never succeeds.)", "quantifier": "all segment configurations, header objects and frame histories", "why_tests_cant": "writer and reader are separate code; parsing is lazy and stateful (clusters are created, loaded and parsed block by block on demand), so what is seen depends on the whole history of calls and the whole file", "anchors": ["mkvparser/mkvparser.cc: Segment::CreateInstance, Segment::ParseHeaders, Segment::DoLoadCluster, Segment::DoLoadClusterUnknownSize, Segment::Load, Segment::GetFirst, Segment::GetNext, Cluster::Load, Cluster::Parse, Cluster::HasBlockEntries, Cluster::GetFirst, Cluster::GetNext, Block::Parse, Block::GetTimeCode", "mkvmuxer/mkvmuxer.cc: Segment::AddGenericFrame, Segment::Finalize", "mkvparser_sample.cc: main"]}
{"id": "C66", "title": "No file makes mkvparser go wrong, whatever calls are made on it", "statement": "For every sequence of bytes read as a file, EBMLHeader::Parse, Segment::CreateInstance at any place, and after it every series of calls of ParseHeaders, LoadCluster, Load, of GetTimeCode, GetFirst, GetNext, GetLast on any of the clusters found and of Track::GetFirst and Track::GetNext on any track, in any order and also after errors: no assertion fails, no arithmetic overflows, no uninitialised value is used, every call returns, and every block entry handed out has frames that lie inside the file and can be read. The same holds for any number of Cues::LoadCuePoint calls, and for looking up a cue point, the time of a cluster and of a chapter as long as the time in nanoseconds fits into 63 bits. (If it does not, these three overflow: a counterexample is given for each.)", "quantifier": "all files, all places to look for a segment, all histories of calls", "why_tests_cant": "a hostile or damaged file can have any bytes, and the lazily built state depends on every earlier call; a test or a fuzzer tries some files and mostly one order of calls", "anchors": ["mkvparser/mkvparser.cc: EBMLHeader::Parse, Segment::CreateInstance, Segment::ParseHeaders, Segment::LoadCluster, Segment::Load, Cluster::Load, Cluster::Parse, Cluster::GetFirst, Cluster::GetNext, Cluster::GetLast, Cluster::GetTime, Cues::LoadCuePoint, Cues::Find, CuePoint::GetTime, Chapters::Atom::GetTime, Block::Parse"]}
{"id": "C67", "title": "A seek through the cues of a finished recording arrives where the cues say", "statement": "For every segment configuration with cues within the limits of mkvparser and every history of frames whose frames of the cue track are in order of time: in the file the muxer leaves, and in the copy with the cues moved to the front, every seek with mkvparser (load the cue points, Cues::Find for a time and the cue track, Cues::GetBlock) arrives at the first frame of that track in some cluster, namely the last such frame not later than the time, or the first of all if none is earlier; and playing on from there with GetNext shows every following frame of the recording. Block numbers must be written (the default) unless there is one track only. (The frame need not be a key frame; without block numbers the seek can find nothing: counterexamples are given.)", "quantifier": "all segment configurations, header objects, frame histories and times", "why_tests_cant": "the cue is written by one code base and resolved by another through a file offset, a block number and a time; an error of one byte, one block or one tick in a single cluster of a long recording shows only in a seek to just that place", "anchors": ["mkvparser/mkvparser.cc: Cues::LoadCuePoint, Cues::Find, Cues::GetBlock, Segment::GetBlock, Cluster::GetEntry", "mkvmuxer/mkvmuxer.cc: Segment::AddCuePoint, Cues::Write, Segment::CopyAndMoveCuesBeforeClusters"]}
{"id": "C68", "title": "Following one track of a recording shows its frames, and Seek on a track arrives at the right one", "statement": "For every segment configuration within the limits of mkvparser and every history of frames, in the file the muxer leaves and in the copy with the cues moved to the front: Track::GetFirst goes to the first frame of the track with which playing can begin (on a video track a key frame) and Track::GetNext from there through every following frame of the track, in order, to the end. Seek(time) on a video track whose frames are in order of time goes to the last key frame not later than the time, or to the first key frame; on another track it goes to the first frame of the track in the last cluster that has one and does not begin later than the time, or to the first frame if that is not earlier. (Limits of the code, with counterexamples or theorems: a track without frames in the first 100 clusters is taken to be empty, GetNext ends after 99 clusters without the track, an audio seek may arrive later than asked, and Seek goes wrong on files with frames earlier than their cluster, which the muxer does not make.)", "quantifier": "all segment configurations, header objects and frame histories, all tracks, all times", "why_tests_cant": "the search goes over lazily parsed clusters and depends on how the frames of several tracks are spread over them, on the times of all clusters and on earlier calls", "anchors": ["mkvparser/mkvparser.cc: Track::GetFirst, Track::GetNext, Track::Seek, VideoTrack::Seek, VideoTrack::VetEntry, Track::VetEntry, Cluster::GetEntry, Block::GetTime, Segment::DoneParsing", "mkvmuxer/mkvmuxer.cc: Segment::AddGenericFrame, Segment::MakeNewCluster, Segment::Finalize"]}
{"id": "C69", "title": "Following a cue point leads to the frame it names, whoever wrote the cue point", "statement": "For every segment configuration within the limits of mkvparser and every history of frames, in the file the muxer leaves and in the copy with the cues moved to the front, and for every cue point with any time, track, cluster position and block number (not only those the muxer writes): Segment::GetBlock leads to the frame with that number in the cluster at that position if the frame has the track and time of the cue point; otherwise, or without a number, to the first frame of the track in the cluster that is not earlier, if it has the time and is on an audio track or a key frame of a video track; and else nowhere. It never leads to a frame of another track or time, and playing on from the frame shows all following frames of the recording. A position before the last cluster where no cluster begins leads nowhere. (A block number larger than the number of blocks leads nowhere although the frame is there: a counterexample is given.)", "quantifier": "all segment configurations, header objects and frame histories, all cue points", "why_tests_cant": "cue points come from other writers too and can have any combination of values, and the search is over lazily parsed clusters", "anchors": ["mkvparser/mkvparser.cc: Segment::GetBlock, Cluster::GetEntry, Block::GetTimeCode, Tracks::GetTrackByNumber", "mkvmuxer/mkvmuxer.cc: Segment::AddGenericFrame, Segment::Finalize, Segment::CopyAndMoveCuesBeforeClusters"]}
{"id": "C70", "title": "A file loaded while it arrives looks as if it had all been there", "statement": "For every file, every series of calls of ParseHeaders, LoadCluster and of GetTimeCode, GetFirst, GetNext, GetLast on the clusters found, and every schedule of arrival: an application that makes a call again whenever it answers that more data is needed gets the answers, and in the end the segment, that it would get if the whole file were there; the same holds for Segment::CreateInstance and, once four bytes are there, for EBMLHeader::Parse. Nothing undefined happens on the way. So every recording made with the muxer is shown in full however it arrives. (Limits of the code, with counterexamples: Load cannot be called again, EBMLHeader::Parse refuses the file if fewer than four bytes are there, a block may be handed out before its frames are there, and damaged content encodings may be accepted.)", "quantifier": "all files of known or unknown length, all histories of calls, all schedules of arrival", "why_tests_cant": "each call can be interrupted at every byte and leaves a partly built state from which it is taken up again; there are as many schedules as subsets of the bytes", "anchors": ["mkvparser/mkvparser.cc: EBMLHeader::Parse, Segment::CreateInstance, Segment::ParseHeaders, Segment::LoadCluster, Segment::DoLoadCluster, Segment::DoLoadClusterUnknownSize, Cluster::Load, Cluster::Parse, Cluster::ParseSimpleBlock, Cluster::ParseBlockGroup, Cluster::HasBlockEntries, Cluster::GetFirst, Cluster::GetNext, Cluster::GetLast, GetUIntLength", "mkvparser/mkvparser.h: IMkvReader"]}
{"id": "C71", "title": "A WebVTT cue put into a WebM file comes back out as the same cue", "statement": "Every cue the WebVTT parser hands out can stand in a WebVTT file. The frame SampleMuxerMetadata makes of a cue holds its identifier, settings and payload in the documented layout, and vttdemux turns a block with these data, shown with the start and duration of the cue, into text which the WebVTT parser reads as the same cue, for any number of cues in one file, whatever the timecode scale, cluster and block. (Limits of the code, with counterexamples: a NUL cuts the line, and a cue of length zero makes vttdemux fail on the whole file.)", "quantifier": "all cues that can be parsed, all files and blocks that hold them", "why_tests_cant": "identifiers, settings and payload lines of any content must survive two translations in which line feeds, spaces, colons and empty lines have a meaning", "anchors": ["sample_muxer_metadata.cc: SampleMuxerMetadata::MakeFrame, SampleMuxerMetadata::WriteCueIdentifier, SampleMuxerMetadata::WriteCueSettings, SampleMuxerMetadata::WriteCuePayload", "vttdemux.cc: WriteCue, WriteCueIdentifier, WriteCueTimings, WriteCueTime, WriteCuePayload, FrameParser", "webvtt/webvttparser.cc: Parser::Parse"]}
{"id": "C72", "title": "A recording with WebVTT tracks and chapters is taken apart by vttdemux into the cues that were put in", "statement": "For every segment configuration and header objects within the limits of mkvparser whose timecode scale divides a millisecond, and every history of frames in which the frames of the WebVTT tracks are made from cues: vttdemux succeeds on the file the muxer leaves, makes exactly one output file for each WebVTT track and one for the chapters, and the WebVTT parser reads each of them as exactly the cues that were put in, in order.", "quantifier": "all segment configurations, tracks, other frames and cue lists", "why_tests_cant": "the text goes through muxer, file, mkvparser and demuxer, mixed with the frames of other tracks in clusters", "anchors": ["sample_muxer_metadata.cc: SampleMuxerMetadata::AddTrack, SampleMuxerMetadata::SortableCue::Write", "vttdemux.cc: BuildMap, WriteFiles, InitializeFiles, ProcessCluster, ProcessBlockEntry, WriteChaptersFile", "mkvmuxer/mkvmuxer.cc: Segment::AddGenericFrame, Segment::Finalize"]}
{"id": "C73", "title": "mkvmuxer_sample writes every cue once, in time, between the copied frames", "statement": "For every set of WebVTT files (subtitles, captions, descriptions, metadata, chapters) and every source file mkvparser can show, loading a WebVTT file succeeds exactly when the parser accepts all of it, its cues start in order and none ends before it starts, and then exactly its cues have been added, in order; its loop hands to the muxer the frames of the source in order, and before each frame the cues that start not later, and the remaining cues at the end, so that every cue is written exactly once, no cue is written before an earlier one, and the times handed to the muxer never fall if those of the source do not.", "quantifier": "all WebVTT files, all files mkvparser can show, all numbers of cues and frames", "why_tests_cant": "cues of several files are sorted and interleaved with frames of another; a cue lost or written late depends on the whole sequence of times", "anchors": ["mkvmuxer_sample.cc: main, LoadMetadataFiles", "sample_muxer_metadata.cc: SampleMuxerMetadata::Load, SampleMuxerMetadata::Parse, SampleMuxerMetadata::Write, SampleMuxerMetadata::SortableCue"]}
{"id": "C74", "title": "Cues made into chapters come back as the same cues", "statement": "Every list of cues with identifiers and without settings that SampleMuxerMetadata makes into chapters is turned back by vttdemux into text which the WebVTT parser reads as the same cues, for every timecode scale that divides a millisecond. (Limits of the code, with theorems: with a cue without identifier the chapters can never be written, and settings are lost.)", "quantifier": "all lists of cues, all such timecode scales, all UIDs", "why_tests_cant": "times are scaled in both directions and texts are translated twice", "anchors": ["sample_muxer_metadata.cc: SampleMuxerMetadata::AddChapter", "mkvmuxer/mkvmuxer.cc: Chapter::set_time, Chapter::add_string", "vttdemux.cc: WriteChaptersFile, WriteChaptersCue, WriteChaptersCueIdentifier, WriteChaptersCueTimings, WriteChaptersCuePayload"]}
{"id": "C75", "title": "vttdemux never writes two tracks into one output file", "statement": "The names of the output files vttdemux makes for the tracks and chapters of one WebM file are all different, whatever kinds and numbers the tracks have.", "quantifier": "all files with any number of WebVTT tracks and any track numbers", "why_tests_cant": "two names could agree only for particular pairs of kinds and numbers", "anchors": ["vttdemux.cc: OpenFiles, BuildMap"]}
{"id": "C76", "title": "The file mkvmuxer_sample makes of a recording shows the same frames, and the cues that were added", "statement": "For every recording made with the muxer and shown by mkvparser as in C65, copied with mkvmuxer_sample: the new file shows, on the new audio and video tracks, exactly the frames of the old file that are on its audio and video tracks, in order, each with its time, data, key-frame flag and discard padding; and from WebVTT files given with it vttdemux gets back the same cues. (Limits of the code: durations and additional data of the frames are lost.)", "quantifier": "all recordings, all lists of cues", "why_tests_cant": "every frame passes through four stateful programs", "anchors": ["mkvmuxer_sample.cc: main", "sample_muxer_metadata.cc: SampleMuxerMetadata::Write, SampleMuxerMetadata::MakeFrame", "vttdemux.cc: main", "mkvparser/mkvparser.cc: Block::GetFrame"]}
{"id": "C77", "title": "mkvmuxer_sample keeps the settings of the tracks and the tags", "statement": "For every file whose video and audio tracks (at most 126) can be written and read, with whole sampling rates and sizes below 2^31, copying with mkvmuxer_sample makes a file whose tracks are read as: the video and audio tracks of the old file in order, numbered from 1, each with its type, name, codec, codec data, picture size, frame rate, colour and mastering metadata, projection, sampling rate, channels, bit depth, codec delay and seek pre-roll; with one video and one audio track the frames of each go to its copy; tags with non-empty names and values are read as before. (Limits of the code, with theorems: the frames of several tracks of one kind are mixed in one track; sampling rates lose their fraction, from 2^31 on the conversion is undefined; after a tag with an empty value the tags cannot be written.)", "quantifier": "all lists of tracks and tags with all their settings", "why_tests_cant": "every setting has its own path and its own number for not set; floats are converted to integers and back", "anchors": ["mkvmuxer_sample.cc: main, CopyVideoProjection", "common/hdr_util.cc: CopyColour, CopyMasteringMetadata, CopyPrimaryChromaticity", "mkvmuxer/mkvmuxer.cc: Segment::AddVideoTrack, Segment::AddAudioTrack, VideoTrack::SetColour, VideoTrack::SetProjection, Tag::add_simple_tag"]}
{"id": "C78", "title": "The readers and writers that come with the library stand for the file", "statement": "BufferReader, FileReader and IstreamReader answer every series of Read, Skip and Position calls as a reader that delivers exactly the bytes of the buffer, file, pipe or stream would, possibly in pieces, so long as nothing is skipped behind the end of a file; behind the end, FileReader and file-backed IstreamReader report the skip as complete, so a file cut off inside something skipped is not noticed; on a pipe one Skip passes over at most 1024 bytes. MkvReader answers every Read as the whole file does, whatever was read before, and reports its length. MkvWriter answers and stores as an output some of whose calls fail.", "quantifier": "every content, every series of calls, every choice of failing C library calls (for the writer), seekable or not", "why_tests_cant": "a test runs some series of calls on some file; that the parser theorems apply to these readers needs all of them", "anchors": ["webm_parser/src/buffer_reader.cc: BufferReader::Read, Skip", "webm_parser/src/file_reader.cc: FileReader::Read, Skip", "webm_parser/src/istream_reader.cc: IstreamReader::Read, Skip", "mkvparser/mkvreader.cc: MkvReader::Open, Read, Length", "mkvmuxer/mkvwriter.cc: MkvWriter::Write, Position"]}
{"id": "C79", "title": "The structures handed to the callbacks hold what the document says", "statement": "For every document, however its data arrives, and every callback that reads it, possibly leaving out elements of some kinds: the structures webm_parser hands to the callback at the end of EBML header, seek entries, segment information, clusters, tracks, cue points, editions and tags are those of the elements of the document in order; each member that can occur once has the value of its last occurrence, each that can occur repeatedly all its values in order; a member is marked present exactly if there is an element for it; a missing or empty element has the default of the format, where the output sampling frequency and the display size default to the sampling frequency and the pixel size; nested structures alike. What the callback leaves out is as if it were not in the document.", "quantifier": "all well-formed documents, all ways the data arrives in pieces, all callbacks that leave out elements of known size by kind, or nothing", "why_tests_cant": "there are 27 structures with about 140 members, any of which can be missing, empty or repeated in any combination", "anchors": ["webm_parser/include/webm/dom_types.h: Ebml, Info, TrackEntry, Audio, Video, CuePoint, Cluster, Tag, \u2026", "webm_parser/src/master_value_parser.h: MasterValueParser, SingleChildFactory, RepeatedChildFactory", "webm_parser/src/audio_parser.h: FixMissingOutputFrequency", "webm_parser/src/video_parser.h: FixMissingDisplaySize"]}
{"id": "C80", "title": "The settings made at the muxer arrive at the callbacks of webm_parser", "statement": "For every recording made with the muxer (finished, live, interrupted between two calls, or copied with the cues moved to the front) and read with WebmParser, however the bytes arrive: a callback that takes what it is offered is told, in this order and nothing else of these kinds, about the EBML header, the segment information (timecode scale, duration, date, applications), each track with its video, audio, colour, projection and encryption settings, the chapters with their titles, and the tags; each member of each structure is what was set, marked present, or the default, marked missing, where nothing was written. (Limits of the formats: the largest ID of additional data and the colour space are written but are not members of the structures.)", "quantifier": "all settings, tracks, chapters, tags and frames, all ways the data arrives in pieces", "why_tests_cant": "about 90 settings in any combination go through two libraries that share no code", "anchors": ["mkvmuxer/mkvmuxer.cc: SegmentInfo::Write, Track::Write, VideoTrack::Write, AudioTrack::Write, Chapters::Write, Tags::Write", "webm_parser/include/webm/callback.h: Callback", "webm_parser/include/webm/dom_types.h", "webm_parser/src/master_value_parser.h: MasterValueParser"]}
{"id": "C81", "title": "Converting a WebM file to MPEG-2 sends the frames of its video track", "statement": "For every file that mkvparser can load and show, Webm2Pes::ConvertToFile writes the packets of the frames of the first video track (VP8 or VP9), all of them, in order and nothing else, each with its time in ticks of 1/90000 s; VpxPes2Ts::ConvertToFile writes transport packets whose payloads are, put together, exactly that stream. For a recording made with the muxer these are the frames that were accepted for the track.", "quantifier": "all files that load, all recordings (settings, tracks, series of frames), all fuel for the loops", "why_tests_cant": "the frames pass through muxer, parser, superframe splitting, escaping and packetizing; which track is taken depends on the table of tracks", "anchors": ["m2ts/webm2pes.cc: Webm2Pes::ConvertToFile, Webm2Pes::ConvertToPacketReceiver, Webm2Pes::InitWebmParser, ReadVideoFrame", "m2ts/vpxpes2ts.cc: VpxPes2Ts::ConvertToFile, VpxPes2Ts::ReceivePacket"]}
{"id": "C82", "title": "Times in nanoseconds and in 90 kHz ticks agree", "statement": "NanosecondsTo90KhzTicks and Khz90TicksToNanoseconds never turn the order of two times around; for every time below 2^63 ns the number of ticks is at most one off ns * 9 / 100000 rounded down, and a time below 2^49 ns converted to ticks and back is at most 22224 ns off. (The result is not always exact: the conversion goes through double.)", "quantifier": "all times in the range of the type", "why_tests_cant": "rounding errors occur for isolated values among 2^63", "anchors": ["common/libwebm_util.cc: NanosecondsTo90KhzTicks, Khz90TicksToNanoseconds"]}
{"id": "C83", "title": "A recording can be played and sought through its seek head without loading it", "statement": "For every finished recording made on an output that can seek (also after the cues were moved to the front), an application can parse only the headers, call ParseCues with the place the seek head gives, and then seek to any times in any order and any number of times and play from the first cluster the seek head names: no call fails, nothing is loaded in advance, every seek shows exactly the frames from the landing place on that it would show after Load, and playing shows every accepted frame once, in order. ParseCues never fails an assertion for any file whose offsets can be added. (Not so: a place of 2^63 - 1 in the seek head overflows; GetNext behind a cluster that was read ahead asserts that the size of the segment is known and that the data behind the cluster is intact.)", "quantifier": "all settings, tracks, chapters, tags and series of frames, all lists of seek times before and after playing; any file and offset for the safety of ParseCues", "why_tests_cant": "which clusters are in the table, and where, depends on the history of seeks; every seek and every step to the next cluster may insert into the middle of the table", "anchors": ["mkvparser/mkvparser.cc: Segment::ParseCues, Segment::FindOrPreloadCluster, Segment::PreloadCluster, Segment::GetBlock, Segment::GetNext", "mkvmuxer/mkvmuxer.cc: SeekHead::Finalize, Segment::Finalize"]}
{"id": "C84", "title": "Clusters can be loaded, jumped to and stepped through in any order", "statement": "For every finished recording made on an output that can seek, with or without cues, also after the cues were moved to the front, once ParseHeaders has succeeded: every history of calls of LoadCluster, FindOrPreloadCluster (with places of clusters), GetNext, ParseNext and of GetFirst and GetNext for the frames of a cluster is answered as follows. LoadCluster gives the first cluster not loaded so far, whether it was read ahead or not. Behind a loaded cluster, GetNext gives the next loaded one or nothing, ParseNext loads it if need be; behind a cluster that was read ahead both give the cluster that follows in the file. A cluster shows its own frames, in order; all clusters together show the accepted frames, each once. (Not so: ParseNext never succeeds for a cluster that was read ahead and not looked into; with a cluster without blocks, ParseNext can go back and never end.)", "quantifier": "all settings, tracks, chapters, tags and series of frames, all histories of calls", "why_tests_cant": "the table holds loaded and preloaded clusters whose places shift with every call; the histories are unbounded", "anchors": ["mkvparser/mkvparser.cc: Segment::LoadCluster, Segment::DoLoadCluster, Segment::FindOrPreloadCluster, Segment::GetNext, Segment::ParseNext, Segment::DoParseNext, Segment::AppendCluster, Segment::PreloadCluster, Cluster::GetFirst, Cluster::GetNext"]}
{"id": "C85", "title": "The duration of a finished file is the time of its last frame and that frame's duration", "statement": "For every series of frames in order of time handed to the muxer in file mode on an output that can seek, with no duration set: after Finalize, the Duration in the file, and what mkvparser's GetDuration tells, is the time of the last accepted frame plus its own duration, up to one part in 2^23 (the precision of the float that is written), provided the frame is of a track whose frames do not wait and no estimate is made; in any case no accepted frame is later than the duration by more than that. A duration set with set_duration is written as the float next to it. With set_estimate_file_duration the duration is the greatest of this and of the estimates for the tracks. (Not so: frames that are accepted out of order, a last frame that waits, whose own duration is not looked at, tracks whose numbers are not the first ones, which get no estimate, a file with frames at time 0 only, which lasts one unit.)", "quantifier": "all settings, tracks and series of frames and calls, all time scales below 2^53, all times below 2^64 ns", "why_tests_cant": "the result goes through five roundings in two formats and depends on which frames were waiting at which call", "anchors": ["mkvmuxer/mkvmuxer.cc: Segment::Finalize, Segment::AddGenericFrame, Segment::WriteFramesAll, SegmentInfo::Finalize", "mkvparser/mkvparser.cc: SegmentInfo::Parse, SegmentInfo::GetDuration"]}
{"id": "C86", "title": "A file is labelled webm exactly if it has only the codecs of WebM", "statement": "For every set of tracks that have a codec: the document type in the EBML header of a file made with the muxer, as mkvparser shows it, is 'webm' if the codec of every track shown is one of V_VP8, V_VP9, V_AV1, A_VORBIS, A_OPUS and the four D_WEBVTT kinds, and 'matroska' otherwise; in file mode, in live mode, in a file left behind by a crash and after the cues were moved to the front.", "quantifier": "all lists of tracks with all codec names, all series of frames, all moments between calls", "why_tests_cant": "the claim is about all codec names, and about the header of every file the muxer can leave behind", "anchors": ["mkvmuxer/mkvmuxer.cc: Segment::DocTypeIsWebm, Segment::WriteSegmentHeader, Segment::Finalize", "mkvparser/mkvparser.cc: EBMLHeader::Parse"]}
{"id": "C87", "title": "Chapters and tags are built as ordered and nothing is leaked or freed twice", "statement": "For every series of calls AddChapter, set_id, set_time, set_uid and add_string (each on the chapter added last), and of AddTag and add_simple_tag, and whichever memory allocations fail: no call reads or writes memory outside the arrays or memory that was freed; as long as only AddChapter or AddTag fail, the chapters and tags that will be written are those that were added, in order, with the last identifier, times and UID set and with all displays and simple tags; when no allocation fails, every call succeeds; and destroying the object frees every allocation exactly once. (Not so: a pointer from AddChapter or AddTag is dangling after the array has grown; a set_id that fails loses the identifier there was; an add_string that fails may leave a display that is written.)", "quantifier": "all series of fewer than 2^30 calls with all texts, all patterns of failing allocations", "why_tests_cant": "leaks, double frees and dangling pointers depend on which of the allocations fails and on how often the arrays grew", "anchors": ["mkvmuxer/mkvmuxer.cc: Chapters::AddChapter, Chapters::ExpandChaptersArray, Chapters::~Chapters, Chapter::set_id, Chapter::add_string, Chapter::ExpandDisplaysArray, Chapter::Clear, Tags::AddTag, Tag::add_simple_tag, Tag::Clear, Tags::~Tags, StrCpy"]}
{"id": "C88", "title": "Clusters tell the times of their first and last frames", "statement": "When a recording that finished without an error, or the copy with its cues moved to the front, has been loaded, GetFirstTime and GetLastTime of every cluster are the times of the first and the last frame in it, in nanoseconds and in whole ticks of the timecode scale. They can be asked for any number of times and in any order without changing an answer or the frames that the clusters show. GetLast of the segment is the last cluster, so the first time of the first cluster and the last time of the last one are those of the first and the last accepted frame, and all others are between them when the frames were added in order of time.", "quantifier": "all recordings within the parser's limits, all orders and numbers of questions to the clusters", "why_tests_cant": "The answers depend on how far a cluster has been parsed by earlier calls, so a test of one order says nothing about another; the times depend on the frames and on how they were divided into clusters.", "anchors": ["mkvparser/mkvparser.cc: Cluster::GetFirstTime, Cluster::GetLastTime, Cluster::GetFirst, Cluster::GetLast, Segment::GetLast", "mkvmuxer/mkvmuxer.cc: Segment::AddGenericFrame, Segment::Finalize"]}
{"id": "C89", "title": "Setting up a track keeps what was set last and gives all memory back", "statement": "For every series of calls set_codec_id, set_language, set_name, set_colour_space, SetCodecPrivate, SetColour, SetProjection, AddContentEncoding and SetEncryptionID on a new track: none has undefined behaviour, whichever allocations fail; with memory enough the getters show what was set last, and null texts or empty data change nothing; a SetColour, SetProjection or AddContentEncoding that fails leaves what was there; and destroying the track frees every allocation exactly once.", "quantifier": "all series of calls with all arguments, all patterns of failing allocations", "why_tests_cant": "leaks, double frees and half-made copies depend on which allocation fails in which call and on what was set before", "anchors": ["mkvmuxer/mkvmuxer.cc: Track::set_codec_id, Track::set_language, Track::set_name, Track::SetCodecPrivate, Track::AddContentEncoding, Track::~Track, VideoTrack::set_colour_space, VideoTrack::SetColour, VideoTrack::SetProjection, VideoTrack::~VideoTrack, Colour::SetMasteringMetadata, MasteringMetadata::SetChromaticity, CopyChromaticity, Projection::SetProjectionPrivate, ContentEncoding::SetEncryptionID"]}
{"id": "C90", "title": "Match does not find elements, and does no harm", "statement": "Both functions Match of mkvparser are meant to read an element with a given ID at a given place. For every reader that cannot read more than it says is available, every place and every ID they answer no (also where there is such an element), have no undefined behaviour, set no number, hand out no buffer, and move the position only from an ID that is the last thing available to the end.", "quantifier": "all readers, places and IDs, all contents", "why_tests_cant": "that a function never succeeds is a claim about all inputs; a test shows one failure", "anchors": ["mkvparser/mkvparser.cc: Match", "mkvparser/mkvparser.h: Match"]}
{"id": "C91", "title": "Parsing content encodings gives all memory back", "statement": "Whatever the ContentEncodings element of a video or audio track holds, whichever of its parts are malformed or cannot be read, and whichever memory allocations fail: parsing it and destroying the track has no undefined behaviour (no null or freed pointer is used, nothing is written outside an array) and frees every allocation exactly once.", "quantifier": "all contents of the element, all patterns of failing reads and allocations", "why_tests_cant": "leaks, double frees and stale pointers depend on where parsing stops and on which allocation fails", "anchors": ["mkvparser/mkvparser.cc: Track::ParseContentEncodingsEntry, Track::~Track, ContentEncoding::ParseContentEncodingEntry, ContentEncoding::ParseCompressionEntry, ContentEncoding::ParseEncryptionEntry, ContentEncoding::~ContentEncoding"]}
{"id": "C92", "title": "Chapters, tags and segment information are complete when parsed with success, and give all memory back", "statement": "Whatever the chapters, the tags and the texts of the segment information in a file are, whichever reads and memory allocations fail: parsing them and destroying the object has no undefined behaviour and frees every allocation exactly once; when parsing succeeds, what the getters show (editions, atoms, string UIDs, displays, tags, simple tags, texts) is what is in the file, in order, with the last text of each kind; and with memory enough everything that can be read is parsed with success.", "quantifier": "all contents with fewer than 2^30 children in each element, all patterns of failing reads and allocations", "why_tests_cant": "leaks, double frees and silently missing parts depend on where parsing stops, on how often the arrays grew and on which allocation fails", "anchors": ["mkvparser/mkvparser.cc: UnserializeString, Chapters::Parse, Chapters::~Chapters, Chapters::Edition::Parse, Chapters::Edition::Clear, Chapters::Atom::Parse, Chapters::Atom::Clear, Chapters::Display::Parse, Chapters::Display::Clear, Tags::Parse, Tags::~Tags, Tags::Tag::Parse, Tags::Tag::Clear, Tags::SimpleTag::Parse, Tags::SimpleTag::Clear, SegmentInfo::Parse, SegmentInfo::~SegmentInfo"]}
{"id": "C93", "title": "Tracks are complete when parsed with success, and give all memory back", "statement": "Whatever the track entries of a file are (texts, codec private data, video with colour, mastering metadata, projection and colour space, audio, content encodings), whichever reads and memory allocations fail: parsing the tracks and destroying them has no undefined behaviour and frees every allocation exactly once; when parsing succeeds, all the tracks in the file are shown in order, each with the last number, name, language, codec id, codec name (each as far as its first zero byte) and codec private data of its entry; when it fails, the first ones are, whole; no two tracks have the same number. With memory enough, parsing succeeds exactly if nothing is malformed, every text and data can be read, and every track has a number of its own and the elements its kind demands. (Fails for a content encoding that is both a compression and an encryption when memory is short, and the content encodings of a track may be missing though parsing succeeds.)", "quantifier": "all contents of the Tracks element, all patterns of failing reads and allocations", "why_tests_cant": "leaks, double frees and silently missing parts depend on where parsing stops and on which of the allocations fails", "anchors": ["mkvparser/mkvparser.cc: Tracks::Parse, Tracks::ParseTrackEntry, Tracks::~Tracks, Track::Create, Track::~Track, Track::Info::Clear, Track::Info::Copy, Track::Info::CopyStr, VideoTrack::Parse, VideoTrack::~VideoTrack, AudioTrack::Parse, Colour::Parse, MasteringMetadata::Parse, PrimaryChromaticity::Parse, Projection::Parse", "mkvparser/mkvparser.h: MasteringMetadata, Colour, Projection"]}
{"id": "C94", "title": "Cue points are loaded whole and in order, and give all memory back", "statement": "Whatever the Cues element of a file holds, whichever memory allocations fail and however often LoadCuePoint is called: there is no undefined behaviour; the first calls answer yes and all later ones no; GetFirst and GetNext show as many cue points as calls answered yes, and these are the first cue points of the file, whole, each with its time and all its track positions; destroying the cues frees every allocation exactly once. With memory enough and nothing malformed between the cue points, every call loads the next one as long as they are whole. (A failing allocation is not told apart from the end of the cues.)", "quantifier": "all contents of the Cues element, all numbers of calls, all patterns of failing allocations", "why_tests_cant": "half-loaded cue points, leaks and writes behind the table depend on which allocation fails, on how often the table grew and on which call stopped", "anchors": ["mkvparser/mkvparser.cc: Cues::LoadCuePoint, Cues::Init, Cues::PreloadCuePoint, Cues::~Cues, Cues::GetFirst, Cues::GetNext, CuePoint::Load, CuePoint::Find, CuePoint::~CuePoint"]}
{"id": "C95", "title": "The blocks of a cluster are kept whole and in order, and give all memory back", "statement": "Whatever blocks a cluster has and whichever memory allocations fail: parsing one block after the other (also again after a failure) has no undefined behaviour and no failing assertion; each attempt returns 0 or 'invalid format' as the block deserves, or -1 if memory ran out; the entries of the cluster are exactly the blocks for which 0 was returned, in order, each with all its frames, also after the table of entries grew; and destroying the cluster frees every allocation exactly once. (Fails for an attempt after there was no memory for the first table: an assertion fails.)", "quantifier": "all sequences of blocks, well formed or not, of any length, all patterns of failing allocations", "why_tests_cant": "leaks, lost entries and writes behind the table depend on which allocation fails, on how often the table grew and on what was refused before", "anchors": ["mkvparser/mkvparser.cc: Cluster::CreateBlock, Cluster::CreateBlockGroup, Cluster::CreateSimpleBlock, Cluster::GetEntry, Cluster::~Cluster, Block::Parse, Block::GetFrame, Block::~Block"]}
{"id": "C96", "title": "The clusters of a segment stay whole and in order in any history, and give all memory back", "statement": "For every history of loading clusters, looking for clusters at places in the file (FindOrPreloadCluster) and parsing blocks of any of them, and whichever memory allocations fail: there is no undefined behaviour; a call that fails changes nothing that can be seen; loading puts the cluster behind the ones loaded (the preloaded one, with the blocks it has, if it is the next); looking for a cluster finds it or adds an empty one among those not yet loaded; a block that is accepted is the last of its cluster; no other cluster or block changes, also when a table grows; destroying the segment frees every allocation exactly once. With memory enough, loading always succeeds, and so does looking behind the clusters loaded. (Left out: a block tried again in a cluster for which there was no memory for the table of its entries.)", "quantifier": "all histories of calls of any length, all positions and blocks, all patterns of failing allocations", "why_tests_cant": "leaks, lost clusters and dangling slots depend on the order of loading and preloading, on how often the tables grew and on which allocation fails", "anchors": ["mkvparser/mkvparser.cc: Segment::DoLoadCluster, Segment::AppendCluster, Segment::PreloadCluster, Segment::FindOrPreloadCluster, Segment::~Segment, Cluster::Create, Cluster::CreateBlock, Cluster::~Cluster"]}
{"id": "C97", "title": "The headers of a segment are complete if parsing them has success, and give all memory back", "statement": "However often the headers of a segment are parsed (ParseHeaders), whatever elements are found each time and whichever memory allocations fail: there is no undefined behaviour, and destroying the segment frees every allocation exactly once. If the first call has success, there are a segment info and tracks, and the segment shows all that the first info, tracks, seek head, chapters and tags in the file say. (Fails for a call after one that failed: chapters for which memory ran out are passed over, and the call has success.)", "quantifier": "all sequences of calls and of elements in front of the first cluster, all patterns of failing allocations", "why_tests_cant": "leaks, double deletes and objects half parsed depend on which allocation fails in which element and on what was parsed before", "anchors": ["mkvparser/mkvparser.cc: Segment::ParseHeaders, Segment::~Segment, SeekHead::Parse, SeekHead::~SeekHead, Tracks::Parse, Chapters::Parse, Tags::Parse, SegmentInfo::Parse"]}
