import Verif.Props.G711
import Verif.Props.Reading
import Verif.Props.Writing
import Verif.Props.Fields
import Verif.Props.Convert
import Verif.Props.FloatInt
import Verif.Props.IMA
import Verif.Props.MSADPCM
import Verif.Props.Meta
import Verif.Props.PvList
import Verif.Props.Access
import Verif.Props.Setup
import Verif.Props.Heap
import Verif.Model.Extended
import Verif.Spec.Double
import Verif.Proof.Extended
import Verif.Props.Extended
import Verif.Model.Disk
import Verif.Proof.Disk
import Verif.Model.Files.Simple
import Verif.Spec.Files
import Verif.Proof.Files.Accept
import Verif.Proof.Files.Simple
import Verif.Props.Files.Simple
import Verif.Proof.Safe
import Verif.Model.Files.VOC
import Verif.Proof.Files.VOC
import Verif.Props.Files.VOC
import Verif.Model.Chunks
import Verif.Model.Files.WAVE
import Verif.Spec.Chunks
import Verif.Spec.WAVE
import Verif.Proof.Chunks
import Verif.Proof.Shape
import Verif.Proof.Files.WAVEWrite
import Verif.Proof.Files.WAVERead
import Verif.Proof.Files.WAVE
import Verif.Proof.Files.Marks
import Verif.Proof.Defined
import Verif.Props.Files.WAVE
import Verif.Props.Files.Defined
import Verif.Model.Files.FORM
import Verif.Model.Files.AIFF
import Verif.Spec.AIFF
import Verif.Proof.Files.FORM
import Verif.Proof.Files.AIFFWrite
import Verif.Proof.Files.AIFFRead
import Verif.Proof.Files.AIFF
import Verif.Props.Files.AIFF
import Verif.Model.Virtual
import Verif.Spec.Virtual
import Verif.Props.Virtual
import Verif.Model.Files.IFF
import Verif.Spec.IFF
import Verif.Proof.Files.IFFWrite
import Verif.Proof.Files.IFF
import Verif.Props.Files.IFF
import Verif.Model.ALAC.Bits
import Verif.Model.ALAC.Golomb
import Verif.Model.ALAC.Predictor
import Verif.Model.ALAC.Matrix
import Verif.Model.ALAC.Packet
import Verif.Spec.ALAC
import Verif.Proof.ALAC.Bits
import Verif.Proof.ALAC.Golomb
import Verif.Proof.ALAC.Predictor
import Verif.Proof.ALAC.Matrix
import Verif.Proof.ALAC.Packet
import Verif.Proof.ALAC.Loop
import Verif.Proof.ALAC.Codec
import Verif.Props.ALAC.Codec
import Verif.Model.Files.CAF
import Verif.Proof.Files.CAF
import Verif.Proof.Files.BER
import Verif.Props.Files.CAF
import Verif.Model.ALAC.Track
import Verif.Proof.PacketRead
import Verif.Proof.PacketWrite
import Verif.Proof.PacketSafe
import Verif.Proof.Files.CafPackets
import Verif.Proof.ALAC.Track
import Verif.Props.ALAC.Track
import Verif.Spec.ALACPacket
import Verif.Proof.ALAC.Damaged
import Verif.Props.ALAC.Damaged
import Verif.Model.Files.SampleVision
import Verif.Proof.Files.SampleVision
import Verif.Props.Files.SampleVision
import Verif.Model.Files.NIST
import Verif.Proof.Files.NIST
import Verif.Props.Files.NIST
import Verif.Model.Files.Raw
import Verif.Model.Identify
import Verif.Spec.Identify
import Verif.Proof.Identify
import Verif.Props.Files.Identify
import Verif.Spec.Formats
import Verif.Model.Codec
import Verif.Proof.Files.Post
import Verif.Proof.Files.Formats
import Verif.Props.Files.Formats
import Verif.Proof.Files.Raw
import Verif.Props.Files.Raw
import Verif.Spec.Walk
import Verif.Proof.Files.Ends
import Verif.Props.Files.Ends
import Verif.Props.Files.Whole
import Verif.Props.Files.WholeText
import Verif.Props.Files.WholeExamples
import Verif.Props.Buffers
import Verif.Props.BuffersOpened
import Verif.Props.Files.Crash
import Verif.Props.Program
import Verif.Props.ProgramExamples
import Verif.Props.Faults
import Verif.Props.ShortReads
import Verif.Props.FLAC
import Verif.Props.FLACSetup
import Verif.Props.FLACExamples
import Verif.Props.Create
import Verif.Props.CreateAgain
import Verif.Props.Query
import Verif.Props.QueryMeta
import Verif.Props.Files.Torn
import Verif.Model.SfConvert
import Verif.Spec.SfConvert
import Verif.Proof.SfConvert
import Verif.Proof.Meant
import Verif.Proof.CutShort
import Verif.Props.SfConvert
import Verif.Spec.Foreign
import Verif.Spec.Opens
import Verif.Proof.Foreign
import Verif.Proof.ForeignSimple
import Verif.Proof.ForeignVOC
import Verif.Proof.ForeignWAVE
import Verif.Proof.Opens
import Verif.Props.Files.Foreign
import Verif.Spec.ForeignForm
import Verif.Proof.ForeignForm
import Verif.Proof.ForeignAIFF
import Verif.Proof.ForeignFormFiles
import Verif.Props.Files.ForeignForm
import Verif.Spec.ForeignCaf
import Verif.Proof.ForeignCaf
import Verif.Props.Files.ForeignCaf
import Verif.Spec.ForeignNist
import Verif.Proof.ForeignNist
import Verif.Proof.ForeignSmp
import Verif.Props.Files.ForeignNist
import Verif.Model.Adpcm
import Verif.Spec.Adpcm
import Verif.Proof.Adpcm
import Verif.Proof.AdpcmCodecs
import Verif.Props.Adpcm
import Verif.Props.AdpcmExamples
import Verif.Spec.ImaDecoder
import Verif.Proof.ImaDecoder
import Verif.Props.ImaDecoder
import Verif.Spec.MsDecoder
import Verif.Proof.MsDecoder
import Verif.Props.MsDecoder
import Verif.Spec.ForeignAdpcm
import Verif.Proof.ForeignAdpcm
import Verif.Props.Files.ForeignAdpcm
import Verif.Model.Descriptors
import Verif.Spec.Descriptors
import Verif.Props.Descriptors
import Verif.Spec.Counts
import Verif.Proof.Files.Counts
import Verif.Props.Files.Counts
import Verif.Props.NegativeCounts
import Verif.Model.SfInfo
import Verif.Spec.SfInfo
import Verif.Props.SfInfo
import Verif.Model.Rate
import Verif.Spec.Rate
import Verif.Proof.Rate
import Verif.Props.Rate
import Verif.Spec.RateWrite
import Verif.Props.RateWrite
import Verif.Proof.RoundDouble
import Verif.Model.ErrorReport
import Verif.Spec.ErrorReport
import Verif.Props.ErrorReport
import Verif.Props.RateChange
