import Verif.Lemmas.Sink
import Verif.Lemmas.MuxerUtil
import Verif.Lemmas.ParserPrims
import Verif.Lemmas.WebmScalar
import Verif.Lemmas.Scalars
import Verif.Lemmas.Void
import Verif.Spec.Ebml
import Verif.Props.Ebml
import Verif.Props.Blocks
import Verif.Props.WebmBlocks
import Verif.Props.WebmLace
import Verif.Props.Payloads
import Verif.Lemmas.ParserBlock
import Verif.Lemmas.BlockRoundTrip
import Verif.Props.M2ts
import Verif.Props.Vp9
import Verif.Props.Vp9Level
import Verif.Props.CodecPrivate
import Verif.Props.WebVtt
import Verif.Props.MuxerTracks
import Verif.Props.MuxerCluster
import Verif.Props.SeekHead
import Verif.Props.Cues
import Verif.Props.ParserTable
import Verif.Props.EbmlHeader
import Verif.Props.WebmTree
import Verif.Props.WebmSkip
import Verif.Props.MuxerSegment
import Verif.Props.WebmDocument
import Verif.Props.ClusterStart
import Verif.Props.Headers
import Verif.Props.Timeline
import Verif.Props.Elements
import Verif.Props.Reading
import Verif.Props.Watching
import Verif.Props.Seeking
import Verif.Props.OneTrack
import Verif.Props.AnyCue
import Verif.Props.AnyFile
import Verif.Props.Arriving
import Verif.Props.VttThrough
import Verif.Props.Sample
import Verif.Props.SampleTracks
import Verif.Props.Readers
import Verif.Props.WebmDom
import Verif.Props.Announced
import Verif.Props.Children
import Verif.Props.Ticks
import Verif.Props.Webm2Pes
import Verif.Props.Ahead
import Verif.Props.Stepping
import Verif.Props.Duration
import Verif.Props.DocType
import Verif.Props.Building
import Verif.Props.Times
import Verif.Props.Matching
import Verif.Props.EncodingMem
import Verif.Props.TextMem
import Verif.Props.TrackMem
import Verif.Props.CuesMem
import Verif.Props.BlockMem
import Verif.Props.ClustersMem
import Verif.Props.HeadersMem
import Verif.Props.TrackBuilding
