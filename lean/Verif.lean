import Verif.Num.ItemProps
import Verif.Num.ComputeProps
import Verif.Num.CmpPackedProps
import Verif.Move.NumericProps
import Verif.Move.AlnumProps
import Verif.Move.Edited
import Verif.Move.EditedSpec
import Verif.Move.EditedLemmas
import Verif.Move.EditedFinish
import Verif.Move.EditedBack
import Verif.Move.EditedProps
import Verif.Move.EditedExamples
import Verif.Str.InspectProps
import Verif.Str.StringProps
import Verif.Cmp.CompareProps
import Verif.Cmp.SortKeyProps
import Verif.Intr.DateProps
import Verif.Intr.NumericProps
import Verif.Intr.SelectProps
import Verif.Intr.TextProps
import Verif.Rt.BitsProps
import Verif.Rt.StorageProps
import Verif.Rt.CancelProps
import Verif.Io.SeqProps
import Verif.Io.LinageProps
import Verif.Io.RelProps
import Verif.Io.StatusProps
import Verif.Io.SortProps
import Verif.Cobc.LayoutProps
import Verif.Cobc.PictureMore
import Verif.Num.FastPath
import Verif.Num.FastPathProps
import Verif.Num.CondProps
import Verif.Cobc.Move
import Verif.Cobc.MoveProps
import Verif.Rt.Termio
import Verif.Rt.TermioProps
import Verif.Move.SizeProps
import Verif.Rt.AcceptProps
import Verif.Cobc.PerformProps
import Verif.Cobc.ExprProps
import Verif.Cobc.SearchProps
import Verif.Intr.NumericMore
import Verif.Tight
import Verif.Intr.Numval
import Verif.Intr.NumvalProps
import Verif.Cobc.IntExpr
import Verif.Cobc.IntExprProps
import Verif.Cobc.Cond88Props
import Verif.Cobc.PictureP
import Verif.Io.Indexed
import Verif.Io.IndexedSpec
import Verif.Io.IndexedLib
import Verif.Io.IndexedLib2
import Verif.Io.IndexedSim
import Verif.Io.IndexedSim2
import Verif.Io.IndexedStep
import Verif.Io.IndexedDet
import Verif.Io.IndexedScan
import Verif.Io.IndexedProps
import Verif.Cobc.ExprTyped
import Verif.Cobc.PictureCount
import Verif.Intr.NumvalMore
import Verif.Cobc.Init
import Verif.Cobc.InitSpec
import Verif.Cobc.InitProps
import Verif.Cobc.InitMore
import Verif.Cobc.Evaluate
import Verif.Cobc.EvaluateSpec
import Verif.Cobc.EvaluateProps
import Verif.Cobc.EvaluateMore
import Verif.Cobc.Replace
import Verif.Cobc.ReplaceSpec
import Verif.Cobc.ReplaceProps
import Verif.Cobc.ReplaceMore
import Verif.Cobc.Source
import Verif.Cobc.SourceSpec
import Verif.Cobc.SourceProps
import Verif.Cobc.SourceMore
import Verif.Cobc.SourceFind
import Verif.Cobc.SourceIfSpec
import Verif.Cobc.SourceIfProps
import Verif.Cobc.SourceIf
import Verif.Move.Text
import Verif.Move.TextProps
import Verif.Cobc.SourceFreeSpec
import Verif.Cobc.SourceFree
import Verif.Cobc.Literal
import Verif.Cobc.LiteralSpec
import Verif.Cobc.LiteralProps
import Verif.Cobc.Names
import Verif.Cobc.NamesSpec
import Verif.Cobc.NamesProps
import Verif.Cobc.NamesTree
import Verif.Cobc.NamesMore
import Verif.Cobc.NamesRelax
import Verif.Cobc.Refs
import Verif.Cobc.RefsSpec
import Verif.Cobc.RefsProps
import Verif.Cobc.RefsFind
import Verif.Cobc.RefsWords
import Verif.Cobc.Corr
import Verif.Cobc.CorrSpec
import Verif.Cobc.CorrProps
import Verif.Cobc.CorrRun
import Verif.Cobc.CorrFind
import Verif.Move.National
import Verif.Move.NationalSpec
import Verif.Move.NationalProps
import Verif.Move.NationalMove
import Verif.Cobc.Use
import Verif.Cobc.UseSpec
import Verif.Cobc.UseProps
import Verif.Cobc.UseMore
import Verif.Cobc.UseLists
import Verif.Cobc.Check
import Verif.Cobc.CheckSpec
import Verif.Cobc.CheckProps
import Verif.Cobc.CheckMore
import Verif.Cobc.CheckItems
import Verif.Io.SortStmt
import Verif.Io.SortStmtSpec
import Verif.Io.SortStmtProps
import Verif.Io.SortGiving
import Verif.Io.SortStmtMore
import Verif.Rt.EnvSpec
import Verif.Rt.EnvProps
import Verif.Io.FileNameSpec
import Verif.Io.FileNameProps
import Verif.Rt.CallArgs
import Verif.Rt.CallArgsSpec
import Verif.Rt.CallArgsProps
import Verif.Rt.CallArgsMore
import Verif.Num.Arith
import Verif.Num.ArithSpec
import Verif.Num.ArithProps
import Verif.Num.ArithFast
import Verif.Num.ArithMain
import Verif.Cobc.CheckRest
import Verif.Rt.Life
import Verif.Rt.LifeSpec
import Verif.Rt.LifeProps
import Verif.Rt.LifeMain
import Verif.Cobc.SourceSet
import Verif.Rt.CblFile
import Verif.Rt.CblFileSpec
import Verif.Rt.CblFileProps
import Verif.Rt.CblFileMain
import Verif.Rt.CallArgsRest
import Verif.Rt.Clock
import Verif.Rt.ClockSpec
import Verif.Rt.ClockProps
import Verif.Rt.ClockMain
import Verif.Intr.Window
import Verif.Intr.WindowProps
import Verif.Intr.FormattedTime
import Verif.Cobc.WordsTable
import Verif.Cobc.Words
import Verif.Cobc.WordsProps
import Verif.Cobc.WordsMain
import Verif.Cobc.ConfTable
import Verif.Cobc.Conf
import Verif.Cobc.ConfProps
import Verif.Cobc.ConfLines
import Verif.Cobc.ConfMain
import Verif.Rt.Small
import Verif.Rt.SmallProps
import Verif.Intr.Stat
import Verif.Intr.StatProps
import Verif.Rt.ExcTable
import Verif.Rt.Exc
import Verif.Rt.ExcProps
import Verif.Io.Lock
import Verif.Io.LockProps
import Verif.Io.LockMain
import Verif.Io.FLock
import Verif.Io.FLockProps
import Verif.Io.FLockMain
import Verif.Cobc.Alphabet
import Verif.Cobc.AlphabetProps
import Verif.Cobc.AlphabetMain
import Verif.Rt.TabSort
import Verif.Rt.TabSortProps
import Verif.Cobc.Redef
import Verif.Cobc.RedefProps
import Verif.Cobc.Renames
import Verif.Cobc.RenamesProps
import Verif.Rt.Switch
import Verif.Rt.SwitchProps
import Verif.Cobc.Odo
import Verif.Cobc.OdoProps
import Verif.Io.StopRun
import Verif.Io.StopRunProps
import Verif.Io.CommitProps
import Verif.Intr.Midrange
import Verif.Cobc.Based
