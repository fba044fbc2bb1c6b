import Verif.Conformance.Run
import Verif.Conformance.Samples
import Verif.Conformance.Units
import Verif.Model.Base
import Verif.Model.Bench
import Verif.Model.Benches
import Verif.Model.Bitstream
import Verif.Model.Block
import Verif.Model.Crc
import Verif.Model.Docs
import Verif.Model.Error
import Verif.Model.Examples
import Verif.Model.Frame
import Verif.Model.Fuzzing
import Verif.Model.Input
import Verif.Model.Lib
import Verif.Model.Memory
import Verif.Model.Metadata
import Verif.Model.Programs
import Verif.Model.Subframe
import Verif.Proof.Alloc
import Verif.Proof.AllocOpen
import Verif.Proof.AnyTags
import Verif.Proof.Arith
import Verif.Proof.Bits
import Verif.Proof.Bitstream
import Verif.Proof.BitstreamApi
import Verif.Proof.Blame
import Verif.Proof.Block
import Verif.Proof.BlockPost
import Verif.Proof.Bounds
import Verif.Proof.Buffered
import Verif.Proof.Bytes
import Verif.Proof.Capacity
import Verif.Proof.Client
import Verif.Proof.Comments
import Verif.Proof.Containers
import Verif.Proof.Crc
import Verif.Proof.CrcDist
import Verif.Proof.CrcPoly
import Verif.Proof.Dec
import Verif.Proof.Docs
import Verif.Proof.Encode
import Verif.Proof.Examples
import Verif.Proof.ExamplesFile
import Verif.Proof.Flow
import Verif.Proof.Frame
import Verif.Proof.FrameApi
import Verif.Proof.FrameSplit
import Verif.Proof.Full
import Verif.Proof.Header
import Verif.Proof.Independent
import Verif.Proof.Lazy
import Verif.Proof.Logic
import Verif.Proof.Loose
import Verif.Proof.LooseSamples
import Verif.Proof.Memory
import Verif.Proof.Metadata
import Verif.Proof.MetadataApi
import Verif.Proof.MetadataItems
import Verif.Proof.MetadataIter
import Verif.Proof.NoIo
import Verif.Proof.Open
import Verif.Proof.OpenApi
import Verif.Proof.Overflow
import Verif.Proof.Position
import Verif.Proof.Post
import Verif.Proof.Predict
import Verif.Proof.Prog
import Verif.Proof.Readers
import Verif.Proof.Recovery
import Verif.Proof.Refused
import Verif.Proof.RefusedConverse
import Verif.Proof.RefusedHeader
import Verif.Proof.RefusedMetadata
import Verif.Proof.RefusedOpen
import Verif.Proof.RefusedStreaminfo
import Verif.Proof.Release
import Verif.Proof.ReleaseDec
import Verif.Proof.Reserved
import Verif.Proof.Residual
import Verif.Proof.Safe
import Verif.Proof.Samples
import Verif.Proof.SamplesApi
import Verif.Proof.Sim
import Verif.Proof.Size
import Verif.Proof.Stale
import Verif.Proof.Stereo
import Verif.Proof.Streaminfo
import Verif.Proof.Subframe
import Verif.Proof.Suffix
import Verif.Proof.Tags
import Verif.Proof.Trace
import Verif.Proof.Truncate
import Verif.Proof.Unchecked
import Verif.Proof.UncheckedApi
import Verif.Proof.UncheckedFrame
import Verif.Proof.Uncountable
import Verif.Proof.Utf8
import Verif.Proof.Varint
import Verif.Proof.Width
import Verif.Proof.WidthApi
import Verif.Proof.Wrapped
import Verif.Proof.Zeros
import Verif.Props.Announced
import Verif.Props.AnyTags
import Verif.Props.Bench
import Verif.Props.Benches
import Verif.Props.Bits
import Verif.Props.Blame
import Verif.Props.Block
import Verif.Props.BlockTypes
import Verif.Props.Buffer
import Verif.Props.Classified
import Verif.Props.Containers
import Verif.Props.Crc
import Verif.Props.Docs
import Verif.Props.Encoder
import Verif.Props.End
import Verif.Props.Error
import Verif.Props.Example
import Verif.Props.ExampleMetadata
import Verif.Props.ExamplesFile
import Verif.Props.Fill
import Verif.Props.Frame
import Verif.Props.Fuzzing
import Verif.Props.Header
import Verif.Props.Independent
import Verif.Props.Input
import Verif.Props.Large
import Verif.Props.Lazy
import Verif.Props.Lib
import Verif.Props.Memory
import Verif.Props.Metadata
import Verif.Props.Open
import Verif.Props.OpenReasons
import Verif.Props.Position
import Verif.Props.Programs
import Verif.Props.Progress
import Verif.Props.Reasons
import Verif.Props.Recovery
import Verif.Props.Release
import Verif.Props.Reuse
import Verif.Props.Samples
import Verif.Props.Session
import Verif.Props.Signal
import Verif.Props.SizeHint
import Verif.Props.Sound
import Verif.Props.Stale
import Verif.Props.Subframe
import Verif.Props.Timeline
import Verif.Props.Trace
import Verif.Props.Truncate
import Verif.Props.Unchecked
import Verif.Props.Uncountable
import Verif.Props.UpFront
import Verif.Props.Width
import Verif.Props.Wrapped
import Verif.Props.WrappedSession
import Verif.Spec.Alloc
import Verif.Spec.AnyTags
import Verif.Spec.BitOps
import Verif.Spec.Bits
import Verif.Spec.Blame
import Verif.Spec.Block
import Verif.Spec.BlockTypes
import Verif.Spec.Checked
import Verif.Spec.Checksums
import Verif.Spec.Client
import Verif.Spec.Containers
import Verif.Spec.Crc
import Verif.Spec.CrcPoly
import Verif.Spec.Encoder
import Verif.Spec.Flat
import Verif.Spec.Frame
import Verif.Spec.Full
import Verif.Spec.Interleave
import Verif.Spec.Lazy
import Verif.Spec.Loose
import Verif.Spec.LooseSession
import Verif.Spec.Metadata
import Verif.Spec.MetadataItems
import Verif.Spec.Raw
import Verif.Spec.Refused
import Verif.Spec.RefusedMetadata
import Verif.Spec.Reserved
import Verif.Spec.Reuse
import Verif.Spec.Session
import Verif.Spec.Source
import Verif.Spec.Stale
import Verif.Spec.Subframe
import Verif.Spec.Timeline
import Verif.Spec.Trace
import Verif.Spec.Uncountable
import Verif.Spec.Unread
