import Verif.MsgQueue.Props
import Verif.InsnQueue.Props
import Verif.InsnQueue.PropsMiddle
import Verif.X86.Props
import Verif.Runtime.Props
import Verif.Runtime.PropsMore
import Verif.Text.Props
import Verif.Md4.Props
import Verif.Ptrace.Props
import Verif.Metadata.Props
import Verif.BuildId.Props
import Verif.AsUnsafe.Props
import Verif.AsUnsafe.PropsBroken
import Verif.PcQueue.Props
import Verif.Hijack.Props
import Verif.Hijack.PropsEscape
import Verif.Trigger.Props
import Verif.Post.Props
import Verif.Alloc.Props
import Verif.ErrState.Props
import Verif.Ppc.Props
import Verif.Ppc.PropsStack
import Verif.Listing.Props
import Verif.SymLoad.Props
import Verif.Redirect.Props
import Verif.Extract.Props
import Verif.Dsc.Props
import Verif.Pack.Props
import Verif.MiniElf.Props
import Verif.Inspect.Props
import Verif.StackCheck.Props
import Verif.Status.Props
import Verif.SelfWrite.Props
import Verif.Report.Props
import Verif.Walk.Props
import Verif.Heap.Props
import Verif.Dump.Props
import Verif.Check.Props
import Verif.Flow.Props
import Verif.Startup.Props
import Verif.Cli.Props
import Verif.Prepare.Props
import Verif.Midway.Props
import Verif.Session.Props
import Verif.Tools.Props
import Verif.Tools.PropsKilled
import Verif.Messages.Props
import Verif.Crowd.Props
import Verif.Records.Props
import Verif.Diag.Props
import Verif.Killed.Props
import Verif.Loader.Props
import Verif.Many.Props
import Verif.Names.Props
import Verif.Switch.Props
import Verif.Files.Props
import Verif.Unload.Props
import Verif.Power.Props
import Verif.Container.Props
import Verif.Cut.Props
import Verif.Waits.Props
import Verif.Paint.Props
import Verif.Kin.Props
import Verif.Json.Props
import Verif.LogRace.Props
import Verif.Reason.Props
import Verif.Moving.Props
import Verif.Moment.Props
import Verif.Setup.Props
import Verif.Resume.Props
import Verif.PpcEntry.Props
import Verif.Endless.Props
import Verif.Ehdr.Props
import Verif.Version.Props
import Verif.PpcMidway.Props
import Verif.PowerFlow.Props
import Verif.Loadtime.Props
import Verif.Torn.Props
import Verif.Early.Props
import Verif.Refs.Props
import Verif.Runtime.PropsRefused
import Verif.X86.PropsForeign
import Verif.ErrState.PropsParity
import Verif.Session.PropsUnknown
import Verif.Abandoned.Props
import Verif.Power.PropsRefused
import Verif.Session.PropsUnreset
import Verif.PowerSession.PropsUnreset
import Verif.PowerTools.Props
import Verif.PowerCrowd.Props
import Verif.PowerMany.Props
import Verif.PowerMoment.Props
import Verif.Killed.PropsPart
import Verif.PowerKilled.PropsPart
import Verif.PowerUnload.Props
import Verif.PowerCut.Props
import Verif.PowerCut.PropsBetween
