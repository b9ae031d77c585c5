import Verif.Text
import Verif.Doc
import Verif.PrinterSem
import Verif.Builder
import Verif.PrinterLemmas
import Verif.PrinterLemmas2
import Verif.PropsPrinter
import Verif.Tree
import Verif.Comment
import Verif.Collect
import Verif.CollectLemmas
import Verif.CollectSpec
import Verif.PropsCollect
import Verif.Prog
import Verif.Ast.Basic
import Verif.Ast.A1
import Verif.Ast.A2
import Verif.Ast.A3
import Verif.Ast.A4
import Verif.Ast.A5
import Verif.Ast.Knot
import Verif.Format
import Verif.Segments
import Verif.ProgLemmas
import Verif.FormatLemmas
import Verif.PropsFormat
import Verif.CommentText
import Verif.PropsComments
import Verif.PropsBody
import Verif.PropsOnce
import Verif.PropsErrors
import Verif.Threads
import Verif.PropsThreads
import Verif.Cli
import Verif.PropsCli
import Verif.Gram.Grammar
import Verif.Gram.Lang
import Verif.Gram.Content
import Verif.Gram.Ctx
import Verif.Gram.Reach
import Verif.Gram.View
import Verif.Gram.Wp
import Verif.Gram.Tac
import Verif.Gram.C0
import Verif.Gram.C1
import Verif.Gram.C2
import Verif.Gram.C3
import Verif.Gram.C4
import Verif.Gram.C5
import Verif.Gram.C6
import Verif.Gram.Choice
import Verif.Gram.C7
import Verif.Gram.C8
import Verif.Gram.C9
import Verif.Gram.Main
import Verif.Gram.Final
import Verif.PropsTokens
import Verif.SoqlCond
import Verif.SoqlShow
import Verif.PropsSoql
import Verif.Glue
import Verif.PropsLoss
import Verif.Chains
import Verif.PropsChains
import Verif.PropsCtor
import Verif.Skel
import Verif.Shape
import Verif.ShapeTac
import Verif.ShapeNew
import Verif.ShapeCollect
import Verif.ShapeFormat
import Verif.PropsShape
import Verif.Lines.Syms
import Verif.Lines.Tac
import Verif.Lines.Pass1
import Verif.Lines.Pass2
import Verif.Lines.Pass3
import Verif.Lines.Pass4
import Verif.Lines.Calls
import Verif.Reparse
import Verif.Lines.Frame
import Verif.Lines.Rows
import Verif.Lines.Again
import Verif.Lines.Idem
import Verif.Mono
import Verif.PropsMono
import Verif.PropsIdem
import Verif.Words.Mach
import Verif.Words.Tac
import Verif.Words.Pass1
import Verif.Words.Pass2
import Verif.Words.Pass3
import Verif.Words.Pass4
import Verif.Words.Calls
import Verif.Words.Segs
import Verif.Words.Tree
import Verif.PropsWords
import Verif.Trail.Mach
import Verif.Trail.Tac
import Verif.Trail.Pass1
import Verif.Trail.Pass2
import Verif.Trail.Pass3
import Verif.Trail.Pass4
import Verif.Trail.Calls
import Verif.Trail.Tree
import Verif.Trail.Text
import Verif.Trail.Calm
import Verif.PropsTrail
import Verif.PropsAgain
import Verif.PlaceSpec
import Verif.Gram.Places
import Verif.PropsPlaces
import Verif.PropsBlanks
import Verif.LevelSpec
import Verif.Levels.Text
import Verif.Levels.Sim
import Verif.Levels.Flat
import Verif.Levels.Base
import Verif.Levels.Pass1
import Verif.Levels.Pass2
import Verif.Levels.Step
import Verif.Levels.Final
import Verif.PropsLevels
import Verif.Notes.Guard
import Verif.PropsSettled
import Verif.PropsEnds
import Verif.PropsDangling
import Verif.PropsGap
import Verif.Width.Printer
import Verif.Width.Text
import Verif.Width.Settle
import Verif.Width.Notes
import Verif.Width.Indent
import Verif.PropsWidth
import Verif.Solo.Spec
import Verif.Solo.Tac
import Verif.Solo.New
import Verif.Solo.Collect
import Verif.Solo.Print
import Verif.Solo.Lead
import Verif.Solo.Whole
import Verif.Solo.Join
import Verif.Solo.Conf
import Verif.PropsSolo
import Verif.Axioms
