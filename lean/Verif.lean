import Verif.Lemmas.Accepted
import Verif.Lemmas.Alike
import Verif.Lemmas.AnyAvro
import Verif.Lemmas.AnyFactory
import Verif.Lemmas.AnyReader
import Verif.Lemmas.AnyTree
import Verif.Lemmas.AnyWrite
import Verif.Lemmas.Avro
import Verif.Lemmas.Bulk
import Verif.Lemmas.BulkAvro
import Verif.Lemmas.BulkData
import Verif.Lemmas.BulkInspect
import Verif.Lemmas.BulkNames
import Verif.Lemmas.BulkRaw
import Verif.Lemmas.Conforms
import Verif.Lemmas.Descriptors
import Verif.Lemmas.DumpEval
import Verif.Lemmas.DumpSafe
import Verif.Lemmas.Encoder
import Verif.Lemmas.Factory
import Verif.Lemmas.Fuel
import Verif.Lemmas.InspectBlind
import Verif.Lemmas.InspectEnvelope
import Verif.Lemmas.InspectFuel
import Verif.Lemmas.InspectListing
import Verif.Lemmas.InspectLocal
import Verif.Lemmas.InspectSaid
import Verif.Lemmas.InspectTrace
import Verif.Lemmas.Json
import Verif.Lemmas.Lines
import Verif.Lemmas.Listing
import Verif.Lemmas.Meaning
import Verif.Lemmas.Memory
import Verif.Lemmas.Number
import Verif.Lemmas.ObjectAt
import Verif.Lemmas.OffDiagonal
import Verif.Lemmas.Ordering
import Verif.Lemmas.OrderingMap
import Verif.Lemmas.OrderingR
import Verif.Lemmas.OwnSerialisers
import Verif.Lemmas.Prog
import Verif.Lemmas.Questions
import Verif.Lemmas.Quiet
import Verif.Lemmas.RawDump
import Verif.Lemmas.ReadTrace
import Verif.Lemmas.Readers
import Verif.Lemmas.Relabel
import Verif.Lemmas.RoundTrip
import Verif.Lemmas.Safe
import Verif.Lemmas.SchemaDump
import Verif.Lemmas.SchemaTrace
import Verif.Lemmas.SchemaUtils
import Verif.Lemmas.Session
import Verif.Lemmas.Trace
import Verif.Lemmas.Tree
import Verif.Lemmas.WholeLines
import Verif.Lemmas.Wire
import Verif.Lemmas.WireWriter
import Verif.Lemmas.WriteTrace
import Verif.Lemmas.Writer
import Verif.Model.Basic
import Verif.Model.BlobUse
import Verif.Model.CordaBytes
import Verif.Model.Descriptors
import Verif.Model.Encoder
import Verif.Model.Factory
import Verif.Model.Fingerprint
import Verif.Model.InspectTrace
import Verif.Model.Listing
import Verif.Model.Memory
import Verif.Model.Messages
import Verif.Model.NewObjects
import Verif.Model.Notation
import Verif.Model.Ordering
import Verif.Model.OwnSerialisers
import Verif.Model.Processes
import Verif.Model.Programs
import Verif.Model.Proton
import Verif.Model.Questions
import Verif.Model.RawDump
import Verif.Model.ReadTrace
import Verif.Model.Readers
import Verif.Model.Reads
import Verif.Model.Render
import Verif.Model.RoundTrip
import Verif.Model.Saving
import Verif.Model.SchemaDump
import Verif.Model.SchemaTrace
import Verif.Model.SchemaTypes
import Verif.Model.SchemaUtils
import Verif.Model.Sources
import Verif.Model.StdErr
import Verif.Model.Tools
import Verif.Model.Trace
import Verif.Model.UnitTests
import Verif.Model.Wire
import Verif.Model.Wrapper
import Verif.Model.WriteTrace
import Verif.Model.Writer
import Verif.Props.Accepted
import Verif.Props.Alike
import Verif.Props.AnyAvro
import Verif.Props.AnyData
import Verif.Props.AnyInspect
import Verif.Props.AnyObject
import Verif.Props.AnyOrder
import Verif.Props.AnySchema
import Verif.Props.AnySchemaDump
import Verif.Props.AnyWrite
import Verif.Props.Avro
import Verif.Props.BlobUse
import Verif.Props.Boxed
import Verif.Props.Bulk
import Verif.Props.BulkWritten
import Verif.Props.Choices
import Verif.Props.ChoicesWritten
import Verif.Props.CordaBytes
import Verif.Props.CutOff
import Verif.Props.Descriptors
import Verif.Props.Distinct
import Verif.Props.Essence
import Verif.Props.Exchanged
import Verif.Props.Factory
import Verif.Props.Fingerprint
import Verif.Props.Flat
import Verif.Props.Form
import Verif.Props.GoodNames
import Verif.Props.InspectPrinted
import Verif.Props.InspectSaid
import Verif.Props.ListNaming
import Verif.Props.Listing
import Verif.Props.Malformed
import Verif.Props.Meaning
import Verif.Props.Memory
import Verif.Props.Messages
import Verif.Props.Naming
import Verif.Props.NewObjects
import Verif.Props.Notation
import Verif.Props.NullElements
import Verif.Props.Number
import Verif.Props.Open
import Verif.Props.Ordering
import Verif.Props.OwnSerialisers
import Verif.Props.Printed
import Verif.Props.Processes
import Verif.Props.Programs
import Verif.Props.Questions
import Verif.Props.RawDump
import Verif.Props.ReadTrace
import Verif.Props.Readers
import Verif.Props.Reads
import Verif.Props.Render
import Verif.Props.RoundTrip
import Verif.Props.SameDump
import Verif.Props.Samples
import Verif.Props.SavedFiles
import Verif.Props.Saving
import Verif.Props.SchemaDump
import Verif.Props.SchemaDumpSafe
import Verif.Props.SchemaPrinted
import Verif.Props.SchemaTrace
import Verif.Props.SchemaTypes
import Verif.Props.SchemaUtils
import Verif.Props.SelfContained
import Verif.Props.Session
import Verif.Props.Shown
import Verif.Props.Size
import Verif.Props.Sources
import Verif.Props.StdErr
import Verif.Props.Tools
import Verif.Props.Trace
import Verif.Props.UnitTests
import Verif.Props.Untouched
import Verif.Props.WholeLines
import Verif.Props.Wire
import Verif.Props.Words
import Verif.Props.Wrapper
import Verif.Props.WriteTrace
import Verif.Props.Writer
import Verif.Spec.Accepted
import Verif.Spec.Alike
import Verif.Spec.AnyAvro
import Verif.Spec.AnyData
import Verif.Spec.AnyInspect
import Verif.Spec.AnyObject
import Verif.Spec.AnyOrder
import Verif.Spec.AnySchema
import Verif.Spec.AnySchemaDump
import Verif.Spec.AnyWrite
import Verif.Spec.Avro
import Verif.Spec.BlobUse
import Verif.Spec.Boxed
import Verif.Spec.Bulk
import Verif.Spec.BulkWritten
import Verif.Spec.Choices
import Verif.Spec.ChoicesWritten
import Verif.Spec.Conforms
import Verif.Spec.Declared
import Verif.Spec.Descriptors
import Verif.Spec.Essence
import Verif.Spec.Factory
import Verif.Spec.Flat
import Verif.Spec.Form
import Verif.Spec.InspectSaid
import Verif.Spec.InspectTrace
import Verif.Spec.Listing
import Verif.Spec.Malformed
import Verif.Spec.Meaning
import Verif.Spec.Memory
import Verif.Spec.Messages
import Verif.Spec.Naming
import Verif.Spec.NewObjects
import Verif.Spec.Number
import Verif.Spec.OwnSerialisers
import Verif.Spec.Processes
import Verif.Spec.RawDump
import Verif.Spec.ReadTrace
import Verif.Spec.Readers
import Verif.Spec.RoundTrip
import Verif.Spec.Saving
import Verif.Spec.SchemaDump
import Verif.Spec.SchemaTrace
import Verif.Spec.SchemaTypes
import Verif.Spec.SelfContained
import Verif.Spec.Session
import Verif.Spec.Showable
import Verif.Spec.Shown
import Verif.Spec.Size
import Verif.Spec.Sources
import Verif.Spec.StdErr
import Verif.Spec.Trace
import Verif.Spec.TypeNames
import Verif.Spec.WholeLines
import Verif.Spec.Wire
import Verif.Spec.Words
import Verif.Spec.WriteTrace
import Verif.Spec.Writer
