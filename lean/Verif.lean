import Verif.Model.Base
import Verif.Model.GoMap
import Verif.Model.AttrTable
import Verif.Model.Containers
import Verif.Model.Graph
import Verif.Model.Escape
import Verif.Model.EscapeIface
import Verif.Model.Ast
import Verif.Model.Analyse
import Verif.Model.Write
import Verif.Model.LexTables
import Verif.Model.Lexer
import Verif.Model.ParseTables
import Verif.Model.Parser
import Verif.Spec.Attributes
import Verif.Spec.AbstractGraph
import Verif.Props.Example
import Verif.Props.GraphProps
import Verif.Props.WriteProps
import Verif.Props.WriteProps2
import Verif.Props.AnalyseProps
import Verif.Props.EscapeProps
import Verif.Props.LexProps
import Verif.Props.EscapeLex
import Verif.Props.ParseProps
import Verif.Props.PrintProps
import Verif.Props.RoundTrip
import Verif.Props.AnalyseOk
import Verif.Model.Concurrent
import Verif.Spec.Concurrency
import Verif.Props.ConcurrentProps
import Verif.Model.TokTables
import Verif.Model.Errors
import Verif.Spec.SyntaxErrors
import Verif.Props.ErrorProps
import Verif.Spec.ErrorText
import Verif.Props.ErrorText
import Verif.Model.Walk
import Verif.Model.AnalyseVisit
import Verif.Spec.Traversal
import Verif.Props.WalkProps
import Verif.Props.EscapeExact
import Verif.Spec.Provenance
import Verif.Props.ProvenanceProps
import Verif.Model.Slices
import Verif.Model.Heap
import Verif.Spec.Heap
import Verif.Props.HeapProps
import Verif.Spec.Slices
import Verif.Props.SliceProps
import Verif.Props.FormatProps
import Verif.Spec.EscapeText
import Verif.Props.EscapeText
import Verif.Model.AnalyseMaps
import Verif.Spec.AnalyseMaps
import Verif.Proofs.AnalyseMaps
import Verif.Proofs.AnalyseKeep
import Verif.Props.AnalyseMapsProps
import Verif.Model.Direct
import Verif.Spec.Direct
import Verif.Proofs.Direct
import Verif.Props.DirectProps
import Verif.Proofs.SplitNames
import Verif.Proofs.NodeOrder
import Verif.Spec.Document
import Verif.Props.DocumentProps
import Verif.Model.Gzip
import Verif.Model.Gob
import Verif.Model.TableData
import Verif.Model.TableInit
import Verif.Props.TableProps
import Verif.Props.RemoveProps
import Verif.Model.ParserMem
import Verif.Proofs.ParserMem
import Verif.Proofs.ParserMemSim
import Verif.Proofs.ParserMemLoop
import Verif.Props.ParserMemProps
import Verif.Props.EscapeIdentifier
import Verif.Spec.Utf8
import Verif.Props.Utf8Props
import Verif.Props.PastedProps
import Verif.Model.Threads
import Verif.Model.WriteMem
import Verif.Model.GraphMem
import Verif.Spec.Sharing
import Verif.Spec.OwnGraphs
import Verif.Proofs.Threads
import Verif.Proofs.WriteMem
import Verif.Proofs.WriteMemGraph
import Verif.Proofs.SortTree
import Verif.Proofs.GraphMem
import Verif.Proofs.Sharing
import Verif.Proofs.GraphMemOps
import Verif.Proofs.OwnGraphs
import Verif.Props.SharingProps
import Verif.Props.OwnGraphsProps
import Verif.Model.Locked
import Verif.Spec.Locked
import Verif.Proofs.Locked
import Verif.Proofs.LockedInv
import Verif.Proofs.LockedRun
import Verif.Props.LockedProps
import Verif.Model.Cost
import Verif.Proofs.Cost
import Verif.Props.CopyProps
import Verif.Props.NestingProps
import Verif.Props.CostProps
import Verif.Tests.Harness
import Verif.Tests.RepoAnal
import Verif.Tests.RepoParse
import Verif.Tests.RepoApi
import Verif.Model.Reader
import Verif.Spec.Reading
import Verif.Props.ReaderProps
import Verif.Spec.Numerals
import Verif.Proofs.Numerals
import Verif.Model.Literals
import Verif.Spec.Literals
import Verif.Props.LiteralProps
import Verif.Spec.Size
import Verif.Props.SizeProps
import Verif.Props.ResetProps
import Verif.Spec.Denote
import Verif.Props.DenoteProps
import Verif.Spec.Independence
import Verif.Props.OrderProps
import Verif.Spec.Merging
import Verif.Props.MergeProps
import Verif.Spec.StmtOrder
import Verif.Spec.Names
import Verif.Spec.Renaming
import Verif.Spec.Undo
import Verif.Props.StmtOrderProps
import Verif.Props.EscapeAnalyse
import Verif.Props.RenameProps
import Verif.Props.UndoProps
import Verif.Proofs.Truncate
import Verif.Props.TruncateProps
import Verif.Spec.Pieces
import Verif.Props.PiecesProps
import Verif.Props.StringErrProps
import Verif.Spec.Kind
import Verif.Props.KindProps
import Verif.Spec.Space
import Verif.Proofs.Space
import Verif.Props.SpaceProps
import Verif.Spec.Diff
import Verif.Proofs.Diff
import Verif.Props.DiffProps
import Verif.Spec.Telling
import Verif.Props.TellingProps
import Verif.Spec.Dotlang
import Verif.Proofs.Dotlang
import Verif.Props.DotlangProps
import Verif.Spec.Encoding
import Verif.Proofs.Encoding
import Verif.Props.EncodingProps
import Verif.Spec.EdgeEdits
import Verif.Spec.Anonymous
import Verif.Proofs.EdgeEdits
import Verif.Proofs.Anonymous
import Verif.Props.EdgeEditProps
import Verif.Props.AnonymousProps
import Verif.Spec.Erase
import Verif.Proofs.Erase
import Verif.Props.EraseProps
import Verif.Model.GraphDirect
import Verif.Spec.Makeable
import Verif.Proofs.Makeable
import Verif.Props.MakeableProps
import Verif.Props.ClusterFormatProps
import Verif.Proofs.Mended
import Verif.Props.RespaceProps
import Verif.Props.NestingNeeded
import Verif.Props.AgainProps
import Verif.Props.StableProps
import Verif.Spec.Kept
import Verif.Props.KeptProps
