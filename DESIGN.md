# A Lean 4 model of libwebm

Source modelled: `/repo` (webmproject/libwebm at the pinned commit), read as text only.
Everything below is about the model in `lean/Verif/`; the only tie between model and
code is the reading of the code, which is why every definition cites the file and lines
it transcribes.

## Trusted base

* Lean 4.33.0's kernel.
* Axioms: at most `propext`, `Classical.choice`, `Quot.sound` (the standard three; the
  per-theorem list is printed by `#print axioms`).  No axiom is added, there is no
  `sorry`, no `native_decide`, no `bv_decide`.
* The transcription from C++ to Lean (reviewed by hand, cited line by line).
* Environment assumptions written into the model:
  * The output (`IMkvWriter`) is a byte sink with a write cursor; each write either
    succeeds and stores the bytes or fails, following an arbitrary failure plan.
  * The input (`IMkvReader`) is a fixed byte string; a read of `len` bytes at `pos`
    succeeds iff `0 ≤ pos`, `0 ≤ len` and `pos + len ≤ available`.
  * The incremental reader (`webm::Reader`) delivers a byte string in arbitrary chunks,
    answering "would block" between chunks.
  * `new` succeeds (allocation failure is not modelled) unless a definition says so.
  * `int`, `long`, `long long` are 32/64/64 bits wide (LP64).
* C++ undefined behaviour is a distinct outcome (`Res.ub` or an explicit side
  condition) wherever a modelled function can reach it.

## Conventions

* `Verif/Base/*` – byte strings, big-endian numerals, list facts.
* `Verif/Model/*` – the transcription of the code.  Every definition has a citation.
* `Verif/Spec/*` – small independent specifications (formats, reference answers).
* `Verif/Lemmas/*` – helper lemmas.
* `Verif/Props/*` – the property theorems, one file per area, each followed by an
  `example` showing the hypotheses are met by a concrete non-trivial case.

C++ unsigned/signed arithmetic is modelled with `Nat`/`Int` where the code guards
against overflow or where the cited range makes it impossible; where wrap-around is
observable the model reduces modulo `2^n` explicitly or reports `ub`.

## Plan per property

| id | what is modelled | how it is proved |
|----|------------------|------------------|
| C01 | `WriteUIntSize`, `WriteUInt`, `GetCodedUIntSize` (writer), `ReadUInt` (reader) | round trip by big-endian numeral lemmas; the refusals exactly |
| C02 | same | boundary arithmetic, minimality by cases on width |
| C03 | `WriteID`, `ReadID`, incremental `IdParser` | round trip for every ID of one to four bytes |
| C04, C05 | `GetUIntSize`, `GetIntSize`, `SerializeInt`, element writers, `UnserializeUInt/Int`, `IntParser` | numeral and two's complement lemmas |
| C06 | all `EbmlElementSize`/`WriteEbmlElement` pairs | length of the emitted bytes computed from the writer model |
| C07 | `WriteVoidElement` | exact characterisation of the successful sizes |
| C08 | `ReadID`, `ReadUInt`, `ParseElementHeader` and the container walks on a byte-string reader | case analysis with explicit bounds; for the containers, `Spec/Children.lean` says what it is to be a row of elements filling a payload, and induction over the common loop shows that an accepted payload is one. Partial: without EBML header, cues and clusters; the content encodings do not check (`C08_encodings_unchecked`) |
| C09 | both decoders | equality of functions of the byte string |
| C10 | scalar parsers as resumable state machines | every chunking reaches the state of the one-shot run |
| C11 | output with arbitrary failure plan | composition lemma: success exactly if every write call succeeded, a prefix otherwise |
| C12, C13 | `WriteSimpleBlock`, `WriteBlock`, `Block::Parse`, `CreateBlockGroup` | round trip |
| C14, C15 | `Block::Parse` with all lacings; reference encoder in Spec | invariant of the frame loops; round trip |
| C16 | `BasicBlockParser` | as C14; the position defect shown by a witness |
| C17 | `Tracks::AddTrack` | invariant over operation lists |
| C18 | `Cluster::DoWriteBlock`, the segment's frame path | induction over frame lists, as C21 |
| C19 | `Cluster` size and position bookkeeping | invariant over operation lists, arbitrary outputs |
| C20 | `Cluster` with accurate duration: the per-track queues | merge of the queues, induction |
| C21 | `Segment::AddGenericFrame` … `Finalize` | invariant over call histories: the file as a list of parts |
| C22 | `AddCuePoint`, `Cues`, `CopyAndMoveCuesBeforeClusters` | as C21; offsets computed from the parts |
| C23 | `MoveCuesBeforeClusters*` | well-founded recursion, fixpoint equation |
| C24 | `SeekHead` | size arithmetic, round trip through `SeekHead::Parse` |
| C25, C26 | EBML header and cue point writers and parsers | round trip |
| C27, C28 | binary searches of `FindCluster`, `Cues::Find` | loop invariant |
| C29 | `AppendCluster`, `PreloadCluster`, `FindOrPreloadCluster` | invariant over operation lists |
| C30 | `Block::GetTimeCode/GetTime` | exact arithmetic, overflow as `ub` |
| C31 | `MasterParser`, all element parsers, `WebmParser::Feed` | resumable state machine; induction over schedules |
| C32, C33 | same | invariants of the resumable parsers |
| C34 | `Ancestory::ById`, `InitAfterSeek` | the whole finite table, all other IDs by case analysis |
| C35, C36 | `VttReader`/`Parser` lines, `ParseNumber` | list induction, arithmetic |
| C37, C38 | `ParseTime`, `Time` | arithmetic |
| C39, C40 | PES start code escaping | list induction |
| C41 | `WriteTransportPackets` | list induction, counters modulo 16 |
| C42 | `WritePesOptionalHeader` | bit fields as arithmetic |
| C43 | `ParseVP9SuperFrameIndex` | list induction |
| C44, C48 | `Vp9HeaderParser` | bit reader invariant; round trip of encoded headers |
| C45, C49 | `Vp9LevelStats` | window invariant; table search |
| C46 | `ParseVpxCodecPrivate`, Opus header | case analysis |
| C47 | `VpxPes2Ts` / `VpxPesParser` | list induction over the stream of frames |
| C50, C51 | `VttReader` over a whole file, index bounds | list induction, invariant |
| C52 | `Cluster::WriteLastFrame…`, block durations | invariant over frame histories |
| C53, C54 | lace decoding in the incremental parser; scalar payloads | round trip |
| C55, C56 | whole parses; skipped elements | invariant of the resumable parsers |
| C57 | segment without `Finalize` | prefix of the file walked by `ParseElementHeader` |
| C58 | `DocumentParser`, `MasterParser`, all leaf parsers, the whole element table | induction over document trees against the reference reading `Tree.read` (Spec/Document.lean), then C31 for schedules |
| C59 | `Segment::TestFrame`, `MakeNewCluster`, `DoNewClusterProcessing`, `WriteFramesLessThan`, `AddGenericFrame` | one call as a step on (closed clusters, open cluster, waiting frames) described by `Filed` (Spec/ClusterStart.lean), then an invariant over histories |
| C60 | `ContentEncoding`, `Colour`, `MasteringMetadata`, `Projection`, `Track`, `VideoTrack`, `AudioTrack`, `Tracks`, `Chapters`, `Tags`: sizes and writers | each object as a tree of elements (Spec/Headers.lean); sizes and bytes computed from the tree; float order via the value in units of 2⁻¹⁴⁹ |
| C61 | the muxer side of C21/C22/C57/C60 and the parser side of C58, composed | the frames an application sees are computed from the calls alone (Spec/Timeline.lean: `timeline`); the file is shown to be a well-formed document (Spec/FileTree.lean names its tree) whose reference reading shows the accepted frames; with C58 the real reading does too. Partial: conditions of C21 (no accurate cluster durations, output that does not fail, files below 2^48 bytes). Negative: `C61_reference_sign` |
| C62 | Model/WebmGrammar.lean (the parsers' child tables) against Spec/Elements.lean, a table copied from the RFCs | finite tables, both directions, by evaluation in the kernel. Negative: `C62_unknown_to_parser` |
| C63 | `SegmentInfo::Parse`, `GetDuration`, `Tracks::Parse`, `ParseTrackEntry`, `VideoTrack`, `AudioTrack`, `Colour`, `MasteringMetadata`, `Projection`, `ContentEncoding` of mkvparser, with the writers of C60 | the element loops walked over the trees of Spec/Headers.lean; what should be seen and which settings are readable are in Spec/Reading.lean. Doubles as bit patterns with exact values; the product in `GetDuration` with rounding, shown to be exact here. Negative: `C63_luminance_limit_refused`, `C63_duration_limit` |
| C64 | `Chapters` and `Tags` of mkvparser, with the writers of C60 | as C63. Partial: a chapter UID is read as a signed number, `C64_uid_changed` |
| C65 | `Segment::CreateInstance`, `ParseHeaders`, `DoLoadCluster`, `DoLoadClusterUnknownSize`, `Load`, `GetFirst`, `GetNext` and `Cluster::Load`, `Parse`, `HasBlockEntries`, `GetFirst`, `GetNext` of mkvparser as functions on the segment and cluster objects (Model/ParserSegment.lean, Model/ParserCluster.lean), with the block parsing of C17 and the muxer of C21 | the application's loop of mkvparser_sample.cc is the specification (Spec/Watching.lean). Invariants of a partly parsed cluster (`Partway`) and of a partly loaded segment (`StateA`, `StateB`), induction over the clusters of the file. Partial: as C21; settings within mkvparser's limits; the reader knows the length. Negative: `C65_unknown_length` |
| C66 | everything of mkvparser modelled for C17, C20, C63–C65, now for arbitrary bytes, with `Cluster::GetLast`, `Cluster::GetTime`, `Track::GetFirst` and `Track::GetNext`; a call that fails leaves the object as the code does (`kept`: a cluster whose `Parse` failed stays loaded) | the application's calls are an inductive type (Spec/AnyFile.lean), `answers` runs any list of them. Absence of `ub` for every parsing function (Lemmas/ParserSafe*.lean), an invariant of clusters and segments kept by every call, successful or not (Lemmas/AnyFile.lean), induction over the calls. Partial: times in nanoseconds overflow (three negative theorems); the reader has the whole file. An Info or Tracks element whose parsing failed is not remembered between calls of `ParseHeaders` |
| C67 | `Cues::GetBlock`, `Segment::GetBlock`, `Cluster::GetEntry(cp, tp)` (Model/ParserSeek.lean) with the cue loading and lookup of C26 and C28, the cluster and segment objects of C65 and the muxer of C21 and C22 | the application's seek and the places it should arrive at are in Spec/Seeking.lean. Each cue of the file is matched with a cluster, an entry and what follows (`cues_places`), the binary search over the loaded clusters finds it, lazily parsing up to the entry keeps `Partway`. Partial: as C65; negative: `C67_lands_on_non_key`, `C67_unnumbered` |
| C68 | `Track::GetFirst`, `Track::GetNext`, `Track::VetEntry`, `VideoTrack::VetEntry`, `Track::Seek`, `VideoTrack::Seek`, `Cluster::GetEntry(track, time)`, `Block::GetTime`, `Segment::DoneParsing` (Model/ParserTrack.lean) on the files of C21 and C22 as loaded in C65 | the application that follows a track and the places where it should be are in Spec/OneTrack.lean. Lazily parsing keeps `Partway` for each cluster; the binary search over the cluster times needs that they do not decrease, which is proved of the muxer (last conjunct of `C21_file_partial` and `C22_after_moving_partial`). `C68_recording_partial` says what is shown, `C68_plays_all`, `C68_video_seek`, `C68_other_seek` what that means. Partial: as C65, and the limit of 100 clusters (`C68_gives_up`); negative: `C68_audio_seek_late`, `C68_seek_before_cluster` |
| C69 | `Segment::GetBlock`, `Cluster::GetEntry(cp, tp)` (Model/ParserSeek.lean) as for C67, for arbitrary cue points | where a cue point should lead is computed from the frames of the cluster alone (Spec/AnyCue.lean: `named`); the search over lazily parsed entries is followed by induction (`scanFor_any`). `C69_right_frame`, `C69_by_number`, `C69_by_search` say what `named` means. Partial: as C65, and cue points behind the last cluster; negative: `C69_number_beyond` |
| C70 | all of the parser model under a reader that has only the first n bytes (Spec/Arriving.lean: `arrived`, `patiently`, `streamed`) | each function is compared with itself under a reader that has more (`Rdr.Ext`): same answer, or it waits, or both fail (`Same`, `Agree`); a call that waits leaves a state from which the call with more data does what it would have done from the start (`Resumes`, `Redo`); induction over the schedule and over the calls (`patiently_fits`, `streamed_fits`). Partial: content encodings, which of two errors, calls on tracks and cues; negative: `C70_load_cannot_be_repeated`, `C70_header_too_early`, `C70_frame_not_there`, `C70_encodings_differ` |
| C71 | `SampleMuxerMetadata::MakeFrame` and its helpers (Model/VttMux.lean), `WriteCue` and its helpers, `FrameParser` (Model/VttDemux.lean), the WebVTT parser of C37 | what the parser can hand out is characterised (`Proper`); text of a cue → lines → cue by induction over characters, lines, settings and cues (Lemmas/VttText, VttProper, VttFrame). Partial: cues that a line limit or a NUL cuts; negative: `C71_nul`, `C71_zero_length` |
| C72 | the loop of vttdemux over tracks, clusters, entries and chapters (Model/VttDemux.lean) on the file of C65 | the walk is shown to make of the frames seen (Spec/Watching.lean) one text for each WebVTT track (Lemmas/VttWalk, VttFile); then C65 and C71. Partial: as C65; timecode scales that do not divide a millisecond |
| C73 | `SampleMuxerMetadata::Load`, `Parse`, `Write`, `SortableCue` (Model/VttMux.lean), the copy loop of `mkvmuxer_sample.cc` main (Model/Sample.lean) | the ordered set is a list kept in order; the loop is compared with `schedule` (Spec/Sample.lean), a merge of two lists, by induction over clusters, entries and frames (Lemmas/Sample, SampleLoad) |
| C74 | `AddChapter`, `WriteChaptersFile` and its helpers | arithmetic of the times and C71's text lemmas (Lemmas/VttChapters). Partial: identifiers needed, settings lost; negative: `C74_unnamed`, `C74_settings_lost` |
| C75 | the names made in `OpenFiles` | decimal numerals determine their number, suffixes begin differently |
| C76 | all of C65, C71–C73 together | the frames seen in the old file are the schedule, the schedule is a history of the muxer, the new file shows them (C65), vttdemux reads back the cues (C72). Partial: as C65; durations and additional data are lost |
| C77 | the part of mkvmuxer_sample.cc before the loop, hdr_util.cc | what is read of a track is copied to a track that is read the same (C63); numbering by induction over the tracks; whole numbers as floats and back |
| C78 | the readers and writers that come with the library, over C and C++ streams | each call passes over a piece of the data; induction over the calls, building what the ideal reader delivers (or which calls of the ideal output fail) |
| C79 | the structures of `dom_types.h` and how children are put into them, over the tree parser of C58 | the list of children folded into the structure equals, member by member, the last or all occurrences; the announcements of the whole parse follow by induction over the document; defaults and completeness of the tables by evaluation of the whole tables |
| C80 | the muxer side of C61 and the structures of C79, composed | for each object a user sets up, `Spec/Announced.lean` writes out the members of the structure to be told; the children of the tree of the object (`Spec/Headers.lean`) give these members one by one; nothing else in the file (seek head, clusters, cues) announces such a structure, by a walk over the whole grammar. Partial: conditions of C61. Not told: `C80_not_told` |
| C81 | `Webm2Pes` and `VpxPes2Ts` over mkvparser, with the packets of C39–C43 | the loops follow those of C65's `watch`, so for any file the stream is that of the frames shown; the packets sent do not depend on the receiver, so the transport stream carries the elementary stream (C41); recordings with C65. Partial: as C65; false if the number of the video track is not its index plus one (`C81_wrong_track`) |
| C82 | `NanosecondsTo90KhzTicks` and back, with the arithmetic of `double` | doubles as multiples of 2⁻¹⁰⁷⁴ and rounding to nearest, ties to even; monotone and within half a unit of the last place, hence bounds on the result |
| C83 | `ParseCues`, `FindOrPreloadCluster`, `GetBlock` with preloading, `GetNext` for preloaded clusters (Model/ParserAhead.lean) on top of C65 and C67; the application is in Spec/Ahead.lean | the table holds an ordered part of the clusters of the file (invariant over all seeks); following the chain of sized clusters to the next one; the seek head is kept by `ParseHeaders`; where a seek should arrive as in C67; negations: overflow, segment of unknown size, damaged data |
| C84 | `LoadCluster`, `DoLoadCluster` and `ParseNext`, `DoParseNext` with preloaded clusters (Model/ParserNext.lean) on top of C83; calls and answers are in Spec/Stepping.lean | the table holds the loaded clusters and an ordered part of the rest; each call keeps this and gives the answer of a small state machine (`Progress.answer`); induction over the history. Negations: `C84_unread` (any file), `C84_empty_cluster` |
| C85 | the computation in `Segment::Finalize` with the members it uses (Model/MuxerDuration.lean), in the `double` arithmetic of Model/Ticks.lean and with conversion to `float`; Spec/Duration.lean says what "about" is | the invariant of C21 also follows the time of the last frame; relative errors of the roundings are multiplied (`About`); the reader's side is C63. Negations: `C85_too_short`, `C85_other_frame`, `C85_no_estimate`, `C85_placeholder` |
| C86 | `Segment::DocTypeIsWebm` and the choice of the document type (Model/MuxerDocType.lean); Spec/DocType.lean lists the codecs of WebM by name | induction over the tracks; what the reader sees is C65. Negations: `C86_no_codec`, `C86_kind_not_checked` |
| C87 | `Chapters`, `Chapter`, `Tags`, `Tag`: the growing arrays, the strings they own, failing allocations, destructors (Model/MuxerBuild.lean, over a heap of live addresses); Spec/Building.lean says what a series of calls should have built | invariant over histories: every live address has exactly one owner, counted; refinement to the list of chapters or tags. Negations: `C87_stale`, `C87_failed_id_forgets`, `C87_failed_display_stays` |
| C88 | `Cluster::GetFirstTime`, `GetLastTime`, `Segment::GetLast` (Model/ParserTimes.lean) on the clusters as loaded and partly parsed (C68); Spec/Times.lean: an application that asks any questions in any order | induction over the questions with the invariant that every cluster is loaded and parsed some way (`LoadedAll`), over any recording or moved recording that opens; `C88_not_the_latest` and `C88_empty_cluster` show what the answers do not tell |
| C89 | the setters of `Track` and `VideoTrack` that copy texts, data, colours, projections and content encodings, with failing allocations, and the destructors (Model/MuxerTrackBuild.lean, over the heap of C87); Spec/TrackBuilding.lean says what each call may change given its answer | invariant over histories: every live address has exactly one owner; partial because the destructor never deletes the colour space (`C89_colour_space_leaks`) |
| C90 | both `Match` (Model/ParserMatch.lean) over the readers of `ParserPrims` | case analysis over `ReadID` and `ReadUInt` as functions of the bytes: the test of what is available is the wrong way round, so that after a matching ID nothing is left to read |
| C91 | what parsing a `ContentEncodings` element allocates, with failing reads and allocations, and the destructors of `ContentEncoding` and `Track` (Model/ParserEncodingMem.lean, over the heap of C87); the elements are a list of what is found, not bytes | invariant over the lists of elements: every live address has exactly one owner, there is room for the elements still to come, and an array that is null has a null end; partial because of a null array whose end is not null (`C91_null_used`) |
| C92 | `UnserializeString`, the parsing of chapters, tags and the texts of the segment information with failing reads and allocations, and the destructors (Model/ParserTextMem.lean, over the heap and the growing arrays of C87); the elements are a list of what is found, not bytes; Spec/TextMem.lean says what such a list says | one lemma for arrays of anything, used for each level: every live address has one owner, and status 0 means that the items are those of the list; partial because a positive answer of the reader is taken for success one level up (`C92_positive_read`) |
| C93 | `Tracks::Parse`, `Tracks::ParseTrackEntry`, the copy of `Track::Info`, `VideoTrack::Parse` with colour, mastering metadata, projection and colour space, and the destructors (Model/ParserTrackMem.lean, over the heap of C87, the pointer arrays of C91 and the texts of C92); the elements are a list of what is found, not bytes, and the numbers except the track number are left out; Spec/TrackMem.lean says what such a list says | every live address has one owner, level by level; status 0 means that the tracks are those of the list, by induction with the part already read; partial because of the null pointer of C91 (`C93_null_used`) |
| C94 | `Cues::LoadCuePoint`, `Init`, `PreloadCuePoint`, `CuePoint::Load`, the getters and the destructors with failing allocations (Model/ParserCuesMem.lean, over the heap of C87); the elements are a list of what is found, not bytes; Spec/CuesMem.lean says what such a list says | invariant of the states between calls: untouched, ready with a place for each cue point left, or done; induction over the number of calls |
| C95 | `Cluster::CreateBlock`, `CreateBlockGroup`, `CreateSimpleBlock`, `GetEntry`, the allocations of `Block::Parse` and the destructors with failing allocations (Model/ParserBlockMem.lean, over the heap of C87); a block is what the reader finds, not bytes; Spec/BlockMem.lean says which blocks should be kept | invariant over histories of calls: every live address has one owner, the table has room for the entries, and the entries are the blocks for which 0 was returned; partial because an assertion fails when a block is tried after there was no memory for the first table (`C95_retry`) |
| C96 | `DoLoadCluster` from where it has found a cluster, `AppendCluster`, `PreloadCluster`, `FindOrPreloadCluster` and the destructors with failing allocations, with the blocks of C95 in each cluster (Model/ParserClustersMem.lean, over the heap of C87); the table is the list of what its slots hold (Model/ParserTable.lean has the moving of slots); Spec/ClustersMem.lean says what each call may change given its answer | invariant over histories: every live address has one owner, each cluster is untouched, or has a table, or got none for lack of memory; partial because of `C95_retry` |
| C97 | `Segment::ParseHeaders` called any number of times, `SeekHead::Parse` and the destructor of the segment with failing allocations, with the tracks of C93 and the info, chapters and tags of C92 (Model/ParserHeadersMem.lean, over the heap of C87); an element is what the reader finds, not bytes; Spec/HeadersMem.lean says what the first element of each kind says | each object parsed in any memory keeps what others own; induction over the elements and the calls; partial because of the conditions of C92 and C93, and because a call after a failure passes over what failed (`C97_retry_drops`) |

Status of each claim: `MANIFEST.json`.  No property of the list was found to be inexpressible; where a
property is false of the code, a theorem with a concrete witness says so and the proved part carries the
suffix `_partial`.

## What is modelled, what is not

Modelled (file in `lean/Verif/Model`, part of `/repo`):

* `MuxerUtil`, `Sink`: `mkvmuxer/mkvmuxerutil.cc` (all writers and sizes), `IMkvWriter`.
* `MuxerBlock`, `MuxerCluster`: blocks, block groups, `Cluster`, with and without accurate duration.
* `MuxerDuration`: the duration `Segment::Finalize` computes, with `double` and `float` arithmetic.
* `MuxerDocType`: the choice between "webm" and "matroska".
* `MuxerBuild`: `Chapters`, `Chapter`, `Tags` and `Tag` while they are built and destroyed, with failing allocations.
* `ParserTimes`: `Cluster::GetFirstTime`, `Cluster::GetLastTime` and `Segment::GetLast`.
* `MuxerTrackBuild`: the texts, private data, colour, projection and content encodings of a track while they are set and destroyed, with failing allocations.
* `ParserMatch`: both functions `Match`.
* `ParserEncodingMem`: the allocations and deletions of `Track::ParseContentEncodingsEntry`, `ContentEncoding::ParseContentEncodingEntry`, `ParseCompressionEntry`, `ParseEncryptionEntry` and the destructors; the values are in `ParserTracks`.
* `ParserTextMem`: the allocations, deletions and statuses of parsing chapters, tags and segment information, and their destructors; the numbers and the bytes are in `ParserChapters` and `ParserWalk`.
* `ParserTrackMem`: the allocations, deletions and statuses of parsing the tracks, and their destructors; the bytes are left out (`ParserTracks` has them), as are the numbers except the track number.
* `ParserCuesMem`: the allocations and deletions of loading cue points, the table that grows, and the destructors; the bytes are left out (`ParserCues` has them).
* `ParserBlockMem`: the allocations and deletions of the blocks of a cluster, the table of entries that grows, and the destructors; the bytes are left out (`ParserBlock` has them).
* `ParserClustersMem`: the allocations and deletions of the clusters of a segment, the table that grows, the search, loading and preloading, and the destructors; the bytes and the positions of reading are left out (`ParserSegment`, `ParserTable` and `ParserNext` have them).
* `ParserHeadersMem`: the allocations and deletions of the objects of the headers in `Segment::ParseHeaders`, the arrays of the seek head, and the destructors; the bytes are left out (`ParserSegment` has them).
* `MuxerTracks`: track numbers.  `MuxerHeaders`: everything inside Tracks, Chapters and Tags.
* `MuxerCues`, `SeekHead`, `EbmlHeader`, `MuxerSegment`, `MuxerMove`: the rest of `mkvmuxer.cc`, i.e. header, seek head, info,
  cues, frames, cluster choice, queues, `Finalize`, moving the cues.
* `ParserPrims`, `ParserWalk`, `ParserBlock`, `ParserCues`, `ParserTable`, `ParserTracks`, `ParserChapters`, `ParserCluster`, `ParserSegment`, `ParserSeek`, `ParserAhead`, `ParserNext`, `ParserTrack`: `mkvparser.cc`: primitives, EBML header,
  seek head, segment information, tracks, chapters, tags, blocks with all lacings, cue points and their lookup, the cluster table and its lookup, block times,
  creating and loading a segment, loading and parsing clusters, seeking through cues, parsing cues and clusters ahead of loading, loading clusters that were read ahead, `ParseNext`, following and seeking on one track.
* `WebmReader`, `WebmScalar`, `WebmLoop`, `WebmBlock`, `WebmTree`, `WebmIds`, `Ancestory`, `WebmGrammar`, `WebmDoc`, `WebmDom`: `webm_parser`: every
  element parser, the element table, skipping, seeking, the document parser, the structures given to callbacks.
* `Superframe`, `Vp9Header`, `Vp9Level`, `CodecPrivate`: `common/`.  `Ticks`: the tick conversions of `common/libwebm_util.cc`.  `Pes`, `Ts`, `Webm2Pes`: `m2ts/`.  `WebVtt`: `webvtt/`.  `Readers`: `mkvreader.cc`, `mkvwriter.cc`, and the three readers of `webm_parser`.

Not modelled: the command-line tools and samples except `sample_muxer_metadata.cc`, `vttdemux.cc` (without command line and stdio) and `mkvmuxer_sample.cc` with its default options (copying of tracks, tags and frames), `webm2pes.cc` and `vpxpes2ts.cc` (without command line and stdio); what is under `FILE*` and `std::istream` (buffering, read errors, errors that only `fclose` would report, the Windows branches of `mkvreader.cc`); allocation failure; splitting into chunk files (`SetChunking`); UID generation (`MakeUID`
is an arbitrary number); the text of version strings (arbitrary bytes).

Simplifications that a reader should know (each is repeated at the definition):

* Reader and writer objects of the user are byte strings with failure plans; they do not call back into the library.
* In the tree parser of `webm_parser`, the value of an element is the list of its children in order; `WebmDom` turns that list into the
  structure of `dom_types.h`, where the code fills the structure while it reads.
* Values kept in floating point are bit patterns.  Where the code computes with them (`Vp9LevelStats`), the comparison is
  a parameter with the assumption stated at the theorem; `Ticks` models the arithmetic itself (IEEE 754 double precision, round to
  nearest; no overflow to infinity occurs for the values of the type).

## Findings

Places where the code does not do what the property says, each with a theorem: C06 (strings of 4 GiB), C07 (size 128 refused), C10
(booleans), C16 (frame positions under fixed lacing), C17 (automatic numbers beyond 126), C19 (failed writes), C20 and C21 (lost
frames, decreasing times, freed memory), C22 (cues with accurate durations, live mode), C24 (full seek head overruns its space),
C26 (large times), C33 (BlockVirtual), C34 (Colour, MasteringMetadata and Projection missing from the ancestor table), C37 (`.005` is
500 ms), C38 (overflow), C40, C42, C47 (M2TS), C46, C49 (levels), C54 (a missing byte read as 0), C56 (skipped groups), C58 (limits), C61 (reference times), C60 (maximal luminance alone,
projection type 2⁶⁴ - 1), C63 (a luminance of 9999.99 makes a file unreadable, a duration of 2⁶³), C64 (chapter UIDs with a high first byte), C65 (`Load` never succeeds with a reader that does not know the length of the data), C66 (signed overflow in `Cluster::GetTime`, `Chapters::Atom::GetTime` and `CuePoint::GetTime` for a file with a large timecode scale), C67 (a seek that arrives at a frame that is not a key frame; a seek that finds nothing without block numbers), C68 (a track that begins after 100 clusters, an audio seek that arrives late, `Seek` reading before the table of clusters when a block is earlier than its cluster), C69 (a cue point with a block number that is too large), C70 (`Load` cannot be repeated, the header refused before its ID is there, blocks handed out before their frames, settings of a compression that overrun their element), C71 (a NUL cuts a cue, a cue of length zero makes vttdemux fail on the whole file), C74 (chapters that can never be written, settings lost), C76 (durations and additional data lost), C77 (tracks of one kind mixed, fractions of sampling rates lost, undefined conversion of large sampling rates, tags with an empty value), C78 (a file cut off inside something skipped is not noticed, one skip on a pipe passes over at most 1024 bytes), C81 (the audio sent as video), C82 (9 ms are 809 ticks instead of 810), C85 (durations of files with frames out of order, with a last frame that waits, with tracks numbered otherwise than 1, 2, …), C86 (a track without codec: a string is made of a null pointer before the write can be refused), C83 (`ParseCues` overflows for a far place in the seek head; `GetNext` asserts for a segment of unknown size and for damaged data), C84 (`ParseNext` always fails for a cluster that was not looked into, and goes back behind a cluster without blocks), C87 (pointers to chapters and tags that dangle after the next one is added; a failed `set_id` or `add_string` that changes the chapter), C88 (the last time of a cluster is not the latest), C89 (the colour space of a track is never deleted; `CopyChromaticity` tests the address of its smart pointer, so `SetColour` succeeds without a chromaticity it could not copy; `SetChromaticity` twice leaks; a failed copy loses the old text or data), C90 (`Match` never succeeds: `available - pos > len` is refused instead of `<`), C91 (a null pointer used when the array for encryptions cannot be allocated after that for compressions; a compression whose settings cannot be read accepted without an algorithm), C92 (a text that cannot be read is missing from a tag or chapter that is taken for complete, if the reader reports errors by positive numbers), C93 (the null pointer of C91 when a file is opened; content encodings that cannot be parsed left out of a track without an error, so that its frames look as if they were not encoded), C94 (a cue point that cannot be loaded for lack of memory ends the cues for good, without an error), C95 (a block tried again after there was no memory for the table of entries fails an assertion, because the size is set before the allocation), C97 (after a call of `ParseHeaders` that failed because memory ran out in the chapters, tags or seek head, the next call passes over that element and has success, without what it says).  Without a theorem: chapter times are written in ticks of the time scale and not in nanoseconds, as the format wants (mkvparser reads them back the same way); `start_ms * 1000000` in `SampleMuxerMetadata` can overflow for a WebVTT file with very large hours.
