import Verif.Basic
import Verif.Core.Catalog
import Verif.Core.ClassLemmas
import Verif.Core.Classes
import Verif.Core.Nested
import Verif.Core.ObjText
import Verif.Core.Objects
import Verif.Core.SchemaTypes
import Verif.Core.Transform
import Verif.Domain.Bundled
import Verif.Domain.BundledLists
import Verif.Domain.Cerp
import Verif.Domain.DcmiTypes
import Verif.Domain.Ead
import Verif.Domain.Mods
import Verif.Domain.Premis
import Verif.Domain.Reads
import Verif.Domain.Tei
import Verif.Forms.Direct
import Verif.Forms.FieldList
import Verif.Forms.FormClass
import Verif.Forms.FormsetDoc
import Verif.Forms.FormsetDocProofs
import Verif.Forms.FormsetForms
import Verif.Forms.FormsetTrees
import Verif.Forms.FormsetTreesProofs
import Verif.Forms.Formsets
import Verif.Forms.Initial
import Verif.Forms.ListSubmit
import Verif.Forms.Options
import Verif.Forms.OptionsProofs
import Verif.Forms.Page
import Verif.Forms.SetSubmit
import Verif.Forms.Submit
import Verif.Forms.Tree
import Verif.Forms.TreeProofs
import Verif.Forms.Update
import Verif.Forms.Whole
import Verif.Forms.WholeProofs
import Verif.Forms.WholeSubmit
import Verif.Props.Again
import Verif.Props.AnyDelete
import Verif.Props.AnyList
import Verif.Props.AttrList
import Verif.Props.BackAgain
import Verif.Props.BadValue
import Verif.Props.Bundled
import Verif.Props.BundledCells
import Verif.Props.BundledSearch
import Verif.Props.Catalog
import Verif.Props.Cells
import Verif.Props.Cerp
import Verif.Props.Classes
import Verif.Props.Commute
import Verif.Props.Computed
import Verif.Props.Construct
import Verif.Props.Counted
import Verif.Props.DateField
import Verif.Props.DateFormat
import Verif.Props.DcmiTypes
import Verif.Props.DeepList
import Verif.Props.DeleteAny
import Verif.Props.Direct
import Verif.Props.Domain
import Verif.Props.Edges
import Verif.Props.Emptied
import Verif.Props.Exceptions
import Verif.Props.FieldDelete
import Verif.Props.FieldList
import Verif.Props.FieldSet
import Verif.Props.FloatField
import Verif.Props.FormClass
import Verif.Props.FormDocument
import Verif.Props.FormTree
import Verif.Props.FormUpdate
import Verif.Props.FormsetDoc
import Verif.Props.FormsetForms
import Verif.Props.FormsetTrees
import Verif.Props.Formsets
import Verif.Props.Found
import Verif.Props.Grown
import Verif.Props.Initial
import Verif.Props.Interleave
import Verif.Props.Interrupted
import Verif.Props.Iterate
import Verif.Props.LeafRecord
import Verif.Props.ListBetween
import Verif.Props.ListEnds
import Verif.Props.ListField
import Verif.Props.ListSubmit
import Verif.Props.Live
import Verif.Props.Local
import Verif.Props.ManyList
import Verif.Props.Mixed
import Verif.Props.MixedBundled
import Verif.Props.Moving
import Verif.Props.NegInsert
import Verif.Props.Nested
import Verif.Props.Objects
import Verif.Props.Options
import Verif.Props.Overwrite
import Verif.Props.OwnGraft
import Verif.Props.Page
import Verif.Props.Programs
import Verif.Props.Provenance
import Verif.Props.Record
import Verif.Props.Schema
import Verif.Props.Search
import Verif.Props.SelfField
import Verif.Props.SetSubmit
import Verif.Props.Shared
import Verif.Props.Submit
import Verif.Props.Taking
import Verif.Props.TextList
import Verif.Props.Texts
import Verif.Props.Threads
import Verif.Props.Transform
import Verif.Props.TypedField
import Verif.Props.Whole
import Verif.Props.WholeSubmit
import Verif.Props.XPathLex
import Verif.Props.XPathParse
import Verif.Props.Zones
import Verif.Py.Dict
import Verif.Spec.AttrList
import Verif.Spec.Calendar
import Verif.Spec.Cell
import Verif.Spec.Computed
import Verif.Spec.Create
import Verif.Spec.DeepList
import Verif.Spec.Delete
import Verif.Spec.Errors
import Verif.Spec.Field
import Verif.Spec.FormTree
import Verif.Spec.Formats
import Verif.Spec.Found
import Verif.Spec.Frame
import Verif.Spec.Grown
import Verif.Spec.Interleave
import Verif.Spec.Iterate
import Verif.Spec.ListBetween
import Verif.Spec.ListField
import Verif.Spec.ListStmts
import Verif.Spec.ListSubmit
import Verif.Spec.Live
import Verif.Spec.Local
import Verif.Spec.ManyList
import Verif.Spec.NegInsert
import Verif.Spec.Overwrite
import Verif.Spec.Programs
import Verif.Spec.Pruned
import Verif.Spec.PyList
import Verif.Spec.Record
import Verif.Spec.RefEngine
import Verif.Spec.Search
import Verif.Spec.SelfPath
import Verif.Spec.SetSubmit
import Verif.Spec.Shelf
import Verif.Spec.Shrunk
import Verif.Spec.SimplePath
import Verif.Spec.Submit
import Verif.Spec.TextList
import Verif.Spec.Texts
import Verif.Spec.UnionPath
import Verif.Spec.While
import Verif.Spec.Whole
import Verif.Spec.WholeSubmit
import Verif.Spec.Words
import Verif.XPath.Ast
import Verif.XPath.Canon
import Verif.XPath.Grammar
import Verif.XPath.LexLemmas
import Verif.XPath.Lexeme
import Verif.XPath.Lexer
import Verif.XPath.NumLemmas
import Verif.XPath.OnDemand
import Verif.XPath.Parser
import Verif.XPath.ParserComplete
import Verif.XPath.ParserCorrect
import Verif.XPath.ParserFuel
import Verif.XPath.ParserLocal
import Verif.XPath.ParserSound
import Verif.XPath.ParserViable
import Verif.XPath.PrecLemmas
import Verif.XPath.RoundTripLex
import Verif.XPath.RoundTripParse
import Verif.XPath.Serialize
import Verif.XPath.Threads
import Verif.Xml.Count
import Verif.Xml.Engine
import Verif.Xml.Node
import Verif.Xml.NodeLemmas
import Verif.XmlMap.AttrListLemmas
import Verif.XmlMap.BuildLemmas
import Verif.XmlMap.CellLemmas
import Verif.XmlMap.ChainLemmas
import Verif.XmlMap.CreateLemmas
import Verif.XmlMap.DateLemmas
import Verif.XmlMap.DateText
import Verif.XmlMap.DeepListLemmas
import Verif.XmlMap.DeepListRun
import Verif.XmlMap.DeleteAny
import Verif.XmlMap.DeleteFacts
import Verif.XmlMap.DeleteLemmas
import Verif.XmlMap.DocBuild
import Verif.XmlMap.ErrorLemmas
import Verif.XmlMap.Fields
import Verif.XmlMap.Floats
import Verif.XmlMap.FormatLemmas
import Verif.XmlMap.Formats
import Verif.XmlMap.FrameLemmas
import Verif.XmlMap.GraftLemmas
import Verif.XmlMap.GrownLemmas
import Verif.XmlMap.Iterate
import Verif.XmlMap.ListBetween
import Verif.XmlMap.Live
import Verif.XmlMap.LocalLemmas
import Verif.XmlMap.LocalLists
import Verif.XmlMap.Manager
import Verif.XmlMap.ManyListLemmas
import Verif.XmlMap.ManyListRun
import Verif.XmlMap.Mappers
import Verif.XmlMap.Moving
import Verif.XmlMap.MovingLemmas
import Verif.XmlMap.NegInsertLemmas
import Verif.XmlMap.NestLemmas
import Verif.XmlMap.NodeList
import Verif.XmlMap.NodeListLemmas
import Verif.XmlMap.OverwriteLemmas
import Verif.XmlMap.PathLemmas
import Verif.XmlMap.PeelLemmas
import Verif.XmlMap.ProgramLemmas
import Verif.XmlMap.ProvenanceLemmas
import Verif.XmlMap.PrunedLemmas
import Verif.XmlMap.ReadLemmas
import Verif.XmlMap.RecordLemmas
import Verif.XmlMap.RefuseLemmas
import Verif.XmlMap.SearchLemmas
import Verif.XmlMap.SearchRun
import Verif.XmlMap.SelfAssign
import Verif.XmlMap.SetLemmas
import Verif.XmlMap.ShrunkLemmas
import Verif.XmlMap.SpaceLemmas
import Verif.XmlMap.TextListLemmas
import Verif.XmlMap.TreeLemmas
import Verif.XmlMap.TrimEnds
import Verif.XmlMap.UndoLemmas
import Verif.XmlMap.WriteLemmas
import Verif.XmlMap.Zones
