import Verif.Lemmas.Arithmetic
import Verif.Lemmas.Arrays
import Verif.Lemmas.Bases
import Verif.Lemmas.Bases2
import Verif.Lemmas.Bases3
import Verif.Lemmas.BasesCut
import Verif.Lemmas.Binary
import Verif.Lemmas.Broken
import Verif.Lemmas.Calendar
import Verif.Lemmas.Complete
import Verif.Lemmas.Constants
import Verif.Lemmas.Cut
import Verif.Lemmas.CutElse
import Verif.Lemmas.DateCall
import Verif.Lemmas.DateOps
import Verif.Lemmas.DateText
import Verif.Lemmas.Dates
import Verif.Lemmas.Decimal
import Verif.Lemmas.Display
import Verif.Lemmas.Ends
import Verif.Lemmas.Engine
import Verif.Lemmas.Engine2
import Verif.Lemmas.Engine3
import Verif.Lemmas.Engine4
import Verif.Lemmas.Engine5
import Verif.Lemmas.EngineAssign
import Verif.Lemmas.EnginePure
import Verif.Lemmas.EngineRel
import Verif.Lemmas.Escape
import Verif.Lemmas.Float
import Verif.Lemmas.Format
import Verif.Lemmas.FormatTable
import Verif.Lemmas.Grid
import Verif.Lemmas.Highlight
import Verif.Lemmas.Install
import Verif.Lemmas.International
import Verif.Lemmas.Levels
import Verif.Lemmas.Lexer
import Verif.Lemmas.Lists
import Verif.Lemmas.Log
import Verif.Lemmas.MeansMap
import Verif.Lemmas.NameTree
import Verif.Lemmas.Number
import Verif.Lemmas.Number2
import Verif.Lemmas.Number3
import Verif.Lemmas.Numeric
import Verif.Lemmas.Numerical
import Verif.Lemmas.Operation
import Verif.Lemmas.Parse
import Verif.Lemmas.Parse2
import Verif.Lemmas.Parse3
import Verif.Lemmas.ParseCalls
import Verif.Lemmas.ParseHist
import Verif.Lemmas.Power
import Verif.Lemmas.QuantityOps
import Verif.Lemmas.Range
import Verif.Lemmas.Reading
import Verif.Lemmas.RefBlind
import Verif.Lemmas.Refine
import Verif.Lemmas.RefineText
import Verif.Lemmas.Registry
import Verif.Lemmas.RegistryBuild
import Verif.Lemmas.ShippedNorm
import Verif.Lemmas.SimplifyEnds
import Verif.Lemmas.SimplifyRound
import Verif.Lemmas.State
import Verif.Lemmas.Strings
import Verif.Lemmas.Table
import Verif.Lemmas.Table2
import Verif.Lemmas.Texts
import Verif.Lemmas.Total
import Verif.Lemmas.Turns
import Verif.Lemmas.UnitConserve
import Verif.Lemmas.UnitDedup
import Verif.Lemmas.UnitLex
import Verif.Lemmas.UnitName
import Verif.Lemmas.UnitPart
import Verif.Lemmas.UnitPhrase
import Verif.Lemmas.UnitReads
import Verif.Lemmas.UnitRun
import Verif.Lemmas.UnitSearch
import Verif.Lemmas.UnitSimplify
import Verif.Lemmas.UnitTable
import Verif.Lemmas.Units
import Verif.Lemmas.Unreadable
import Verif.Lemmas.Written
import Verif.Model.Arithmetic
import Verif.Model.ArrayLit
import Verif.Model.Arrays
import Verif.Model.Bases
import Verif.Model.Bitwise
import Verif.Model.Boolean
import Verif.Model.Compact
import Verif.Model.Constants
import Verif.Model.DateFormat
import Verif.Model.Dates
import Verif.Model.Decimal
import Verif.Model.Display
import Verif.Model.Engine
import Verif.Model.ErrorPos
import Verif.Model.ExpPercent
import Verif.Model.Finalize
import Verif.Model.Floats
import Verif.Model.Format
import Verif.Model.FunctionTable
import Verif.Model.Heap
import Verif.Model.Highlight
import Verif.Model.Install
import Verif.Model.Lexer
import Verif.Model.ListFuncs
import Verif.Model.Log
import Verif.Model.Notation
import Verif.Model.Number
import Verif.Model.Numerical
import Verif.Model.Operation
import Verif.Model.Parse
import Verif.Model.Pointer
import Verif.Model.Presets
import Verif.Model.Program
import Verif.Model.Range
import Verif.Model.Registry
import Verif.Model.Repr
import Verif.Model.RoundCast
import Verif.Model.Settings
import Verif.Model.Share
import Verif.Model.Shipped
import Verif.Model.ShippedNorm
import Verif.Model.State
import Verif.Model.Stdev
import Verif.Model.Strings
import Verif.Model.Table
import Verif.Model.Terminator
import Verif.Model.Text
import Verif.Model.To
import Verif.Model.UnitCalc
import Verif.Model.UnitCheck
import Verif.Model.UnitLex
import Verif.Model.UnitName
import Verif.Model.UnitRegs
import Verif.Model.UnitStats
import Verif.Model.UnitTable
import Verif.Model.Units
import Verif.Props.Again
import Verif.Props.Arithmetic
import Verif.Props.ArrayOrder
import Verif.Props.Arrays
import Verif.Props.Bases
import Verif.Props.Bases2
import Verif.Props.Bases3
import Verif.Props.BasesCut
import Verif.Props.Bitwise
import Verif.Props.Broken
import Verif.Props.Compact
import Verif.Props.Constants
import Verif.Props.DateFormat
import Verif.Props.Dates
import Verif.Props.Display
import Verif.Props.Division
import Verif.Props.Endless
import Verif.Props.Endless2
import Verif.Props.Engine
import Verif.Props.Engine2
import Verif.Props.Engine3
import Verif.Props.Engine4
import Verif.Props.Escape
import Verif.Props.Escape2
import Verif.Props.ExpPercent
import Verif.Props.Floats
import Verif.Props.Format
import Verif.Props.FuncNames
import Verif.Props.Functions
import Verif.Props.Heap
import Verif.Props.Heap2
import Verif.Props.Install
import Verif.Props.International
import Verif.Props.Lists
import Verif.Props.Log
import Verif.Props.Meaning
import Verif.Props.Notation
import Verif.Props.Notation2
import Verif.Props.Number
import Verif.Props.Number2
import Verif.Props.Numerical
import Verif.Props.Numerical2
import Verif.Props.Numerical3
import Verif.Props.OneUnit
import Verif.Props.Operation
import Verif.Props.Operation2
import Verif.Props.Parse
import Verif.Props.Parse2
import Verif.Props.Power
import Verif.Props.Presets
import Verif.Props.Program
import Verif.Props.Range
import Verif.Props.Reading
import Verif.Props.Registry
import Verif.Props.Repr
import Verif.Props.RoundCast
import Verif.Props.Settings
import Verif.Props.Share
import Verif.Props.State
import Verif.Props.State2
import Verif.Props.State3
import Verif.Props.Stats
import Verif.Props.Stdev
import Verif.Props.StepName
import Verif.Props.Strings
import Verif.Props.Strings2
import Verif.Props.Table
import Verif.Props.To
import Verif.Props.UnitCheck
import Verif.Props.UnitMeaning
import Verif.Props.UnitName
import Verif.Props.UnitRead
import Verif.Props.UnitSound
import Verif.Props.UnitStats
import Verif.Props.UnitTable
import Verif.Props.Units
import Verif.Props.Units2
import Verif.Props.Unreadable
import Verif.Props.VarName
import Verif.Props.Written
import Verif.Spec.Arithmetic
import Verif.Spec.ArrayOrder
import Verif.Spec.Bases
import Verif.Spec.BasesCut
import Verif.Spec.Broken
import Verif.Spec.Constants
import Verif.Spec.DateFormat
import Verif.Spec.Dates
import Verif.Spec.Display
import Verif.Spec.Engine
import Verif.Spec.Final
import Verif.Spec.Format
import Verif.Spec.Functions
import Verif.Spec.Grammar
import Verif.Spec.Heap
import Verif.Spec.Install
import Verif.Spec.International
import Verif.Spec.Levels
import Verif.Spec.Lists
import Verif.Spec.Meaning
import Verif.Spec.Notation
import Verif.Spec.Number
import Verif.Spec.Numerical
import Verif.Spec.Operation
import Verif.Spec.Parse
import Verif.Spec.Physics
import Verif.Spec.Power
import Verif.Spec.Program
import Verif.Spec.Range
import Verif.Spec.Reading
import Verif.Spec.Registry
import Verif.Spec.Repr
import Verif.Spec.RoundCast
import Verif.Spec.Settings
import Verif.Spec.Share
import Verif.Spec.Stats
import Verif.Spec.Stdev
import Verif.Spec.Strings
import Verif.Spec.Table
import Verif.Spec.Texts
import Verif.Spec.UnitCheck
import Verif.Spec.UnitDemo
import Verif.Spec.UnitMeaning
import Verif.Spec.UnitPhrase
import Verif.Spec.Units
import Verif.Spec.Unreadable
import Verif.Spec.Written
