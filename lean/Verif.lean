import Verif.Text
import Verif.Tok
import Verif.Lex
import Verif.Spec.Lex
import Verif.Proofs.LexBase
import Verif.Proofs.LexSpec
import Verif.Proofs.LexTok
import Verif.Proofs.LexIter
import Verif.Proofs.LexMore
import Verif.Proofs.LexComplete
import Verif.Props.Lex
import Verif.Ast
import Verif.Point
import Verif.Comb
import Verif.Shunt
import Verif.NT
import Verif.Gram
import Verif.Rules
import Verif.Eval
import Verif.ParseLoop
import Verif.Handled
import Verif.Visit
import Verif.Apportion
import Verif.ParseFile
import Verif.Conformance
import Verif.Spec.Grammar
import Verif.Rank
import Verif.Proofs.Run
import Verif.Proofs.Early
import Verif.Proofs.Den
import Verif.Proofs.ShuntDen
import Verif.Proofs.Yard
import Verif.Proofs.Consume
import Verif.Proofs.Terminate
import Verif.Proofs.Source
import Verif.Proofs.Loop
import Verif.Spec.Tree
import Verif.Proofs.Extents
import Verif.Proofs.Mono
import Verif.Proofs.Origin
import Verif.Proofs.Apportion
import Verif.Proofs.File
import Verif.Props.Parse
import Verif.Human
import Verif.Spec.Visit
import Verif.Proofs.Visit
import Verif.Props.Visit
import Verif.Props.Human
import Verif.Spec.Comb
import Verif.Props.Comb
import Verif.Proofs.Invert
import Verif.Props.Forms
import Verif.Spec.Schema
import Verif.Proofs.Typing
import Verif.Proofs.Nodes
import Verif.Proofs.Boundary
import Verif.Spec.Expr
import Verif.Props.Expr
import Verif.Spec.Macro
import Verif.Props.Macro
import Verif.Props.Slice
import Verif.Props.Tree
import Verif.Proofs.Solid
import Verif.Proofs.Nest
import Verif.Props.Nest
import Verif.Props.Attr
import Verif.Spec.Shape
import Verif.Proofs.Shape
import Verif.Props.Shape
import Verif.Spec.Head
import Verif.Proofs.Head
import Verif.Props.Head
import Verif.Spec.Syntax
import Verif.Proofs.SyntaxEngine
import Verif.Proofs.Pieces
import Verif.Proofs.Syntax
import Verif.Proofs.SyntaxFn
import Verif.Proofs.SyntaxDen
import Verif.Proofs.SyntaxExpr
import Verif.Proofs.SyntaxFile
import Verif.Proofs.SyntaxSub
import Verif.Props.Syntax
import Verif.Spec.Statement
import Verif.Props.Statement
import Verif.Spec.Symbols
import Verif.Spec.Core
import Verif.FirstTable
import Verif.Proofs.Complete
import Verif.Proofs.First
import Verif.Proofs.Reads
import Verif.Proofs.Symbolic
import Verif.Proofs.Nested
import Verif.Proofs.Core
import Verif.Proofs.CoreRead
import Verif.Proofs.CoreFile
import Verif.Props.Core
import Verif.Spec.Spelling
import Verif.Proofs.LexTables
import Verif.Proofs.LexRec
import Verif.Proofs.LexNumber
import Verif.Proofs.LexSpelling
import Verif.Proofs.LexLines
import Verif.Props.Spelling
import Verif.Proofs.Local
import Verif.Props.Local
import Verif.Proofs.VisitAny
import Verif.VisitMut
import Verif.Spec.VisitMut
import Verif.Proofs.VisitMut
import Verif.Props.VisitMut
import Verif.Stats
import Verif.Spec.Stats
import Verif.Proofs.Stats
import Verif.Props.Stats
import Verif.Proofs.Expect
import Verif.Proofs.ExpectRules
import Verif.Props.Expect
import Verif.Message
import Verif.Proofs.Errors
import Verif.Proofs.Message
import Verif.Props.Message
import Verif.Derive
import Verif.Props.Derive
import Verif.Spec.Brackets
import Verif.Proofs.Wall
import Verif.Proofs.Stay
import Verif.Proofs.Fence
import Verif.Proofs.Balanced
import Verif.Proofs.InvertLog
import Verif.Proofs.ItemLog
import Verif.Proofs.ItemEnd
import Verif.Proofs.Prefix
import Verif.Proofs.Shift
import Verif.Proofs.Append
import Verif.Props.Append
import Verif.Spec.Move
import Verif.Proofs.Move
import Verif.Spec.Join
import Verif.Proofs.Join
import Verif.Props.Join
import Verif.Spec.Excerpt
import Verif.Proofs.Excerpt
import Verif.Proofs.ExcerptLex
import Verif.Props.Excerpt
import Verif.Spec.LexError
import Verif.Proofs.LexError
import Verif.Proofs.LexStuck
import Verif.Proofs.LexStop
import Verif.Proofs.LexReach
import Verif.Proofs.LexNear
import Verif.Proofs.JoinStop
import Verif.Props.LexError
import Verif.Proofs.WsMove
import Verif.Proofs.WsBounds
import Verif.Proofs.WsJoin
import Verif.Proofs.WsPlace
import Verif.Props.Whitespace
import Verif.Props.Edit
import Verif.Proofs.Rename
import Verif.Props.Rename
import Verif.Spec.Place
import Verif.Proofs.Place
import Verif.Proofs.PlaceFile
import Verif.Proofs.HeadSwap
import Verif.Props.Contents
import Verif.Proofs.SpaceSwap
import Verif.Props.Space
import Verif.Proofs.LiteralSwap
import Verif.Proofs.Layout
import Verif.Props.Layout
import Verif.Props.Literal
import Verif.Proofs.WordSwap
import Verif.Props.Number
import Verif.Props.Tables
import Verif.Props.Raw
import Verif.Props.RenameAll
import Verif.Props.Relaid
import Verif.Props.Forget
import Verif.Spec.LineEnds
import Verif.Proofs.LineEnds
import Verif.Props.LineEnds
import Verif.Spec.Pieces
import Verif.Proofs.Snug
import Verif.Props.Pieces
import Verif.Spec.Order
import Verif.Proofs.Order
import Verif.Props.Order
import Verif.Axioms
