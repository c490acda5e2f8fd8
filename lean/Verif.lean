import Verif.Props.IntervalProps
import Verif.Props.AnchoredProps
import Verif.Props.UnitProps
import Verif.Props.MonthProps
import Verif.Props.YearProps
import Verif.Props.PeriodProps
import Verif.Props.CronProps
import Verif.Task.CronCond
import Verif.Props.CronRunProps
import Verif.Props.DurationProps
import Verif.Props.CondProps
import Verif.Props.ParserProps
import Verif.Props.LogProps
import Verif.Props.StatusProps
import Verif.Props.PeriodicProps
import Verif.Props.MonthlyProps
import Verif.Props.YearlyProps
import Verif.Props.DependProps
import Verif.Props.RetryProps
import Verif.Props.RunningProps
import Verif.Props.ParallelProps
import Verif.Props.PhaseProps
import Verif.Props.TerminateProps
import Verif.Props.ShutdownProps
import Verif.Props.StartProps
import Verif.Props.SpecialProps
import Verif.Props.CycleProps
import Verif.Props.ManualProps
import Verif.Props.QueueProps
import Verif.Props.RunProps
import Verif.Props.NamesProps
import Verif.Session.TaskCond
import Verif.Spec.TaskCondSpec
import Verif.Props.TaskCondProps
import Verif.Props.HooksProps
import Verif.Props.CommandProps
import Verif.Props.ArgsProps
import Verif.Props.QueryProps
import Verif.Props.GroupProps
import Verif.Props.ListingProps
import Verif.Props.RunOnlyProps
import Verif.Props.RunOnceProps
import Verif.Base.CharList
import Verif.Text.Regex
import Verif.Text.RegexSym
import Verif.Text.CondItems
import Verif.Text.CondItemsSym
import Verif.Spec.PhraseSpec
import Verif.Text.PhraseFind
import Verif.Props.PhraseProps
import Verif.Cond.Api
import Verif.Spec.ApiSpec
import Verif.Props.ApiProps
import Verif.Sched.Cycles
import Verif.Spec.CycleSpec
import Verif.Props.SchedCondProps
import Verif.Task.Bare
import Verif.Props.BareProps
import Verif.Text.TimeText
import Verif.Spec.TimeTextSpec
import Verif.Text.TimeTextLemmas
import Verif.Props.TimeTextProps
import Verif.Task.Situation
import Verif.Spec.DenoteSpec
import Verif.Props.DenoteProps
import Verif.Props.SameProps
import Verif.Cond.CondEq
import Verif.Props.CondEqProps
import Verif.Spec.CoupleSpec
import Verif.Props.CoupleProps
import Verif.Sched.Core
import Verif.Sched.Track
import Verif.Sched.Caches
import Verif.Props.RefineProps
import Verif.Props.ImportPathProps
import Verif.Props.DelayedProps
import Verif.Props.RunTimesProps
import Verif.Props.LoggersProps
import Verif.Props.CondTextProps
import Verif.Props.FuncCondProps
import Verif.Props.CreationProps
import Verif.Props.ParamObjsProps
import Verif.Props.ZonedProps
import Verif.Props.PromiseProps
import Verif.Props.OptionsProps
import Verif.Props.WhereProps
import Verif.Props.DueProps
import Verif.Props.SilentProps
import Verif.Props.RoundProps
import Verif.Props.HookedProps
import Verif.Props.AppLogProps
import Verif.Props.DefaultNameProps
import Verif.Props.CodeProps
import Verif.Props.ArgEqProps
import Verif.Props.TextShapeProps
import Verif.Props.PackageProps
import Verif.Props.RecordProps
import Verif.Props.SharedProps
import Verif.Props.PartsProps
import Verif.Props.PeriodTextProps
import Verif.Props.QueryKwargsProps
import Verif.Props.RemovedProps
import Verif.Props.CondNeProps
import Verif.Props.DecorateProps
import Verif.Props.LocalClockProps
import Verif.Props.FuncLinksProps
import Verif.Props.CommandRunProps
import Verif.Props.SessionsProps
import Verif.Props.ServedProps
import Verif.Props.RenamedProps
import Verif.Props.ComparedProps
import Verif.Props.RunningNowProps
import Verif.Props.RecordTextProps
import Verif.Props.ForbidProps
import Verif.Props.PipelineProps
import Verif.Props.ReturnedProps
import Verif.Props.EndTextProps
import Verif.Props.ShutTextProps
import Verif.Props.HoldProps
import Verif.Props.ForceRunProps
import Verif.Props.RunIdsProps
import Verif.Props.SetRepoProps
import Verif.Props.MaintainProps
import Verif.Props.AskedProps
import Verif.Props.BuiltinProps
import Verif.Props.QueryWrittenProps
import Verif.Props.FuncArgCallProps
import Verif.Props.ShuffledProps
import Verif.Audit
