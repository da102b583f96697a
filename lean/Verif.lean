import Verif.Model.Prime
import Verif.Props.Prime
import Verif.Props.Varint
import Verif.Props.ByteBuffer
import Verif.Props.Hash
import Verif.Props.Value
import Verif.Props.Table
import Verif.Props.Set
import Verif.Props.List
import Verif.Props.Sort
import Verif.Props.Str
import Verif.Props.Lines
import Verif.Props.Math
import Verif.Props.Num
import Verif.Props.IO
import Verif.Props.Fold
import Verif.Props.Consts
import Verif.Props.Compile
import Verif.Props.Env
import Verif.Props.Upvalue
import Verif.Props.Pattern
import Verif.Props.Match
import Verif.Props.Calls
import Verif.Spec.Trace
import Verif.Model.Trace
import Verif.Props.Trace
import Verif.Props.Globals
import Verif.Props.Iter
import Verif.Props.Index
import Verif.Props.Print
import Verif.Props.RefCount
import Verif.Props.Lexer
import Verif.Props.Parser
import Verif.Props.ParserEnd
import Verif.Props.ParserForms
import Verif.Model.Execute
import Verif.Model.NodeFold
import Verif.Spec.FoldProg
import Verif.Proofs.NodeFold
import Verif.Proofs.GramHead
import Verif.Proofs.GramFold
import Verif.Proofs.GramFwd
import Verif.Props.EndToEnd
import Verif.Spec.Host
import Verif.Model.Host
import Verif.Props.Host
import Verif.Model.FAst
import Verif.Model.FCompile
import Verif.Model.FVM
import Verif.Spec.FLang
import Verif.Spec.Tree
import Verif.Spec.FFits
import Verif.Proofs.FVM
import Verif.Proofs.FCode
import Verif.Proofs.FSimVar
import Verif.Proofs.FSimFn
import Verif.Proofs.FSimE
import Verif.Proofs.FSimS
import Verif.Proofs.FSimTop
import Verif.Proofs.FEmit
import Verif.Proofs.FEmitVar
import Verif.Proofs.FEmitFn
import Verif.Proofs.FEmitS
import Verif.Proofs.FEmitMain
import Verif.Proofs.FEmitTop
import Verif.Proofs.FLogs
import Verif.Props.Functions
import Verif.Props.Require
import Verif.Props.Modules
import Verif.Props.File
import Verif.Props.Collections
import Verif.Props.Metatable
import Verif.Model.FExecute
import Verif.Spec.FSafe
import Verif.Proofs.NodeRed
import Verif.Proofs.Tree
import Verif.Proofs.FRed
import Verif.Proofs.FRedSem
import Verif.Proofs.FIds
import Verif.Props.FEndToEnd
import Verif.Spec.World
import Verif.Model.World
import Verif.Proofs.WorldStr
import Verif.Proofs.World
import Verif.Proofs.WorldOps
import Verif.Proofs.WorldSem
import Verif.Props.World
import Verif.Spec.Comp
import Verif.Model.Comp
import Verif.Proofs.Comp
import Verif.Props.Comp
import Verif.Spec.Api
import Verif.Model.Api
import Verif.Props.Api

import Verif.Spec.Session
import Verif.Model.Session
import Verif.Proofs.SessionConst
import Verif.Props.Session
import Verif.Spec.LexInput
import Verif.Model.LexInput
import Verif.Props.LexInput
import Verif.Spec.Static
import Verif.Proofs.Static
import Verif.Proofs.StaticRules
import Verif.Props.Static
import Verif.Proofs.Shape
import Verif.Props.StaticText
import Verif.Spec.Main
import Verif.Model.Main
import Verif.Props.Main
import Verif.Spec.Libs
import Verif.Model.Libs
import Verif.Props.Libs
import Verif.Model.Nodes
import Verif.Props.Nodes
import Verif.Props.Closures
import Verif.Props.Life
import Verif.Props.Userdata
import Verif.Model.BareExpr
import Verif.Props.BareExpr
import Verif.Model.Makers
import Verif.Props.Makers
import Verif.Model.Rand
import Verif.Props.Rand
import Verif.Model.Fill
import Verif.Props.Fill
import Verif.Model.Export
import Verif.Spec.Export
import Verif.Props.Export
import Verif.Model.ExportRun
import Verif.Spec.ExportRun
import Verif.Props.ExportRun
