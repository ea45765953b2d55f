import Verif.Props.Arith
import Verif.Props.Vars
import Verif.Props.Labels
import Verif.Props.Arrays
import Verif.Props.Strs
import Verif.Props.StrFuncs
import Verif.Props.Num
import Verif.Props.Input
import Verif.Props.Compress
import Verif.Props.Sort
import Verif.Props.Console
import Verif.Props.Graphics
import Verif.Props.Lines
import Verif.Props.Gcopy
import Verif.Props.Paint
import Verif.Props.Bg
import Verif.Props.BgMove
import Verif.Props.Sprites
import Verif.Props.SpriteVars
import Verif.Props.Expr
import Verif.Props.Check
import Verif.Props.Code
import Verif.Props.Gosub
import Verif.Props.Loop
import Verif.Props.Dim
import Verif.Props.Branch
import Verif.Props.Data
import Verif.Props.StrPool
import Verif.Props.Swap
import Verif.Props.MemApi
import Verif.Props.Resources
import Verif.Props.Chars
import Verif.Props.Files
import Verif.Props.FileAccess
import Verif.Props.Package
import Verif.Props.Implicit
import Verif.Model.SysVars
import Verif.Props.SysVars
import Verif.Props.Clock
import Verif.Model.Lexer
import Verif.Props.Lexer
import Verif.Props.Compile
import Verif.Props.CompileWF
import Verif.Props.Display
import Verif.Props.Picture
import Verif.Proof.SourcePrio
import Verif.Proof.SourceEval
import Verif.Proof.SourceTest
import Verif.Proof.SourceCode
import Verif.Proof.SourceProgram
import Verif.Proof.SourceVars
import Verif.Proof.SourceExpr
import Verif.Proof.SourceArgs
import Verif.Proof.SourceInstr
import Verif.Proof.SourceBase
import Verif.Proof.SourceLoop
import Verif.Proof.SourceRun
import Verif.Proof.SourceRead
import Verif.Proof.SourceEnd
import Verif.Proof.SourceDecide
import Verif.Props.Source
import Verif.Spec.SourceLoop
import Verif.Props.SourceLoop
import Verif.Props.Ids
import Verif.Props.SpriteSet
import Verif.Props.SysRead
import Verif.Model.LineInput
import Verif.Spec.LineInput
import Verif.Proof.LineInput
import Verif.Proof.LineFields
import Verif.Proof.LinePrompt
import Verif.Props.LineInput
import Verif.Model.PanelData
import Verif.Model.Panel
import Verif.Spec.Panel
import Verif.Proof.Panel
import Verif.Props.Panel
import Verif.Model.RealMath
import Verif.Spec.RealMath
import Verif.Props.RealMath
import Verif.Model.ProgramSize
import Verif.Proof.CodeSize
import Verif.Props.ProgramSize
import Verif.Props.Touch
import Verif.Props.Acls
import Verif.Props.Launch
import Verif.Model.Devices
import Verif.Spec.Devices
import Verif.Proof.SourceRefine
import Verif.Props.Devices
import Verif.Model.Named
import Verif.Spec.Named
import Verif.Proof.Named
import Verif.Props.Named
import Verif.Model.Initial
import Verif.Spec.Initial
import Verif.Props.Initial
import Verif.Model.Blocks
import Verif.Spec.Blocks
import Verif.Props.Blocks
import Verif.Model.Circle
import Verif.Spec.Circle
import Verif.Proof.Circle
import Verif.Props.Circle
import Verif.Model.Listing
import Verif.Spec.Listing
import Verif.Props.Listing
