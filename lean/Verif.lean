import Verif.Model.Py
import Verif.Model.ByteConv
import Verif.Model.Shared
import Verif.Model.Elem
import Verif.Model.Node
import Verif.Model.Boxes
import Verif.Model.Markers
import Verif.Model.Codestream
import Verif.Model.Validate
import Verif.Model.Readable
import Verif.Model.Mix
import Verif.Model.CheckFile
import Verif.Spec.Basic
import Verif.Spec.Segments
import Verif.Spec.Boxes
import Verif.Spec.Report
import Verif.Spec.File
import Verif.Spec.Walk
import Verif.Spec.Structure
import Verif.Spec.Codestream
import Verif.Lemmas.Rel
import Verif.Lemmas.Basic
import Verif.Lemmas.Leaf
import Verif.Lemmas.Utf8
import Verif.Lemmas.Box
import Verif.Lemmas.Uuid
import Verif.Lemmas.Report
import Verif.Lemmas.Verbose
import Verif.Lemmas.Nullxml
import Verif.Lemmas.Packets
import Verif.Lemmas.Fuel
import Verif.Lemmas.Walk
import Verif.Lemmas.Super
import Verif.Lemmas.Segs
import Verif.Lemmas.TilePart
import Verif.Lemmas.TileLoop
import Verif.Lemmas.Cs
import Verif.Lemmas.File
import Verif.Props.Segments
import Verif.Props.SegmentValues
import Verif.Props.Boxes
import Verif.Props.Uuid
import Verif.Props.Values
import Verif.Props.Runs
import Verif.Props.Superboxes
import Verif.Props.Codestream
import Verif.Spec.Sample
import Verif.Props.Files
import Verif.Props.Walk
import Verif.Spec.Packets
import Verif.Lemmas.Ipl
import Verif.Lemmas.Ends
import Verif.Props.Packets
import Verif.Props.Termination
import Verif.Spec.Ratio
import Verif.Spec.Tree
import Verif.Lemmas.Sample
import Verif.Lemmas.Tree
import Verif.Props.Ratio
import Verif.Props.CommandLine
import Verif.Spec.Generate
import Verif.Lemmas.Generate
import Verif.Props.Generate
import Verif.Spec.Crash
import Verif.Lemmas.Quiet
import Verif.Props.Crashes
import Verif.Props.Endless
import Verif.Spec.Mix
import Verif.Lemmas.Mix
import Verif.Props.MixOutput
import Verif.Spec.Fields
import Verif.Props.Fields
import Verif.Spec.Shows
import Verif.Props.Shows
import Verif.Spec.MixValues
import Verif.Props.MixValues
import Verif.Spec.MixCapture
import Verif.Props.MixCapture
import Verif.Spec.Rules
import Verif.Lemmas.Rules
import Verif.Props.Rules
import Verif.Props.SegmentRules
import Verif.Props.Diagnosis
import Verif.Spec.Diagnosis
import Verif.Lemmas.Diagnosis
import Verif.Lemmas.Witness
import Verif.Props.SuperRules
import Verif.Props.TilePartRules
import Verif.Props.CodestreamRules
import Verif.Props.FileRules
import Verif.Spec.Schema
import Verif.Lemmas.Schema
import Verif.Lemmas.SchemaSegs
import Verif.Lemmas.SchemaTree
import Verif.Lemmas.SchemaFile
import Verif.Lemmas.Listing
import Verif.Props.Schema
import Verif.Props.SchemaComponents
import Verif.Spec.Truncate
import Verif.Props.Truncate
import Verif.Spec.Unknown
import Verif.Lemmas.Unknown
import Verif.Props.Unknown
import Verif.Spec.Wrap
import Verif.Lemmas.Wrap
import Verif.Props.Wrap
import Verif.Model.Write
import Verif.Spec.Xml
import Verif.Spec.Output
import Verif.Lemmas.Xml
import Verif.Lemmas.XmlEnds
import Verif.Lemmas.XmlNames
import Verif.Lemmas.XmlSpaces
import Verif.Lemmas.XmlShape
import Verif.Lemmas.XmlDocument
import Verif.Lemmas.Named
import Verif.Lemmas.ReportNames
import Verif.Lemmas.Legal
import Verif.Props.Output
import Verif.Props.OutputBytes
import Verif.Spec.PacketData
import Verif.Props.PacketData
import Verif.Props.Contents
import Verif.Lemmas.Refused
import Verif.Lemmas.Serial
import Verif.Props.Exact
import Verif.Props.OutputExact
import Verif.Spec.Reportable
import Verif.Props.MixExact
import Verif.Props.CommandExact
import Verif.Model.Args
import Verif.Spec.CommandLine
import Verif.Lemmas.Args
import Verif.Lemmas.ArgLoop
import Verif.Lemmas.ArgMain
import Verif.Props.Options
import Verif.Spec.RatioShown
import Verif.Props.RatioExact
import Verif.Spec.Warnings
import Verif.Lemmas.Warned
import Verif.Props.Warnings
import Verif.Spec.Complete
import Verif.Props.Complete
import Verif.Props.Formats
import Verif.Spec.Metadata
import Verif.Props.Metadata
import Verif.Spec.MainHeader
import Verif.Props.MainHeader
import Verif.Spec.TileOrder
import Verif.Props.TileOrder
import Verif.Model.Digits
import Verif.Spec.Digits
import Verif.Lemmas.Digits
import Verif.Lemmas.DigitsWalk
import Verif.Props.Digits
import Verif.Spec.Size
import Verif.Lemmas.Size
import Verif.Lemmas.SizeWalk
import Verif.Props.Size
import Verif.Props.MixSize
import Verif.Model.Recursion
import Verif.Spec.Recursion
import Verif.Lemmas.Recursion
import Verif.Lemmas.Depth
import Verif.Lemmas.DepthWalk
import Verif.Props.Recursion
import Verif.Model.Stderr
import Verif.Spec.Stderr
import Verif.Lemmas.Stderr
import Verif.Props.Stderr
import Verif.Spec.Trailing
import Verif.Props.Trailing
import Verif.Spec.Float
import Verif.Model.Float
import Verif.Props.FloatBasic
import Verif.Props.Float
import Verif.Model.MixFloat
import Verif.Spec.MixFloat
import Verif.Props.MixFloat
import Verif.Model.Repr
import Verif.Spec.Repr
import Verif.Props.Repr
import Verif.Props.ReprReport
import Verif.Spec.Valid
import Verif.Props.Valid
import Verif.Spec.Damage
import Verif.Props.Damage
import Verif.Spec.Interrupted
import Verif.Lemmas.Cut
import Verif.Props.Interrupted
import Verif.Spec.Determines
import Verif.Lemmas.Same
import Verif.Lemmas.SameText
import Verif.Lemmas.SameWords
import Verif.Props.Determines
import Verif.Spec.Unseen
import Verif.Props.Unseen
import Verif.Spec.Context
import Verif.Props.Context
import Verif.Spec.FormatOnly
import Verif.Lemmas.FormatRel
import Verif.Props.FormatOnly
