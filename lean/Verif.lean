import Verif.Base.Props
import Verif.Depex.Props
import Verif.Collections.SortedSliceMore
import Verif.Collections.TreeProps
import Verif.Collections.Balance
import Verif.Collections.StorageProps
import Verif.Collections.Resize
import Verif.Collections.AddMany
import Verif.AdvLog.Props
import Verif.DevicePath.Malformed
import Verif.Mm.Props
import Verif.Events.Props
import Verif.Events.TplProps
import Verif.Mutex.Props
import Verif.Protocol.Notify
import Verif.Gcd.RangeProps
import Verif.Gcd.AllocProps
import Verif.Gcd.IoProps
import Verif.Ffs.EditProps
import Verif.Ffs.FileProps
import Verif.Ffs.LbaProps
import Verif.Ffs.VolumeRobust
import Verif.Component.StorageProps
import Verif.Component.Access
import Verif.Dispatcher.Witness
import Verif.Connect.Witness
import Verif.Hob.Witness
import Verif.Resources.Witness
import Verif.Alloc.Account
import Verif.Alloc.Witness
import Verif.Alloc.UseWitness
import Verif.MemMap.Witness
import Verif.Pecoff.Recorded
import Verif.ImageMem.Witness
import Verif.Tables.ConfigWitness
import Verif.Tables.DebugProps
import Verif.Tables.MatWitness
import Verif.Misc.Time
import Verif.Runtime.Props
import Verif.Images.More
import Verif.Perf.Measure
import Verif.Guid.Props
import Verif.Services.Witness
import Verif.Fv.Witness
import Verif.Variable.Witness
import Verif.Variable.Errors
import Verif.Stack.Witness
import Verif.Pages.Witness
import Verif.Interrupt.Witness
import Verif.Entry.X64Props
import Verif.Entry.A64Props
import Verif.Debugger.Memory
import Verif.Debugger.MemoryProps
import Verif.Debugger.Break
import Verif.Debugger.BreakProps
import Verif.Debugger.BreakHist
import Verif.Debugger.Regs
import Verif.Debugger.RegsProps
import Verif.Debugger.Watch
import Verif.Debugger.WatchSpec
import Verif.Debugger.WatchX64
import Verif.Debugger.WatchA64
import Verif.Debugger.Monitor
import Verif.Debugger.MonitorProps
import Verif.Debugger.Stop
import Verif.Debugger.StopProps
import Verif.SdkPath.Model
import Verif.SdkPath.Spec
import Verif.SdkPath.Props
import Verif.SdkPath.Typed
import Verif.SdkBoot.Model
import Verif.SdkBoot.Props
import Verif.SdkBoot.Buffers
import Verif.Paging.InitWitness
import Verif.Paging.InitDebug
import Verif.Cache.Props
import Verif.Log.FormatProps
import Verif.Log.LoggerProps
import Verif.Log.ParserProps
import Verif.Ffs.ExtractorsProps
import Verif.SdkBoot.BindingProps
import Verif.Mm.TriggerProps
import Verif.Paging.CompatWitness
import Verif.Perf.LoggingProps
import Verif.Perf.StaticProps
import Verif.Perf.ExchangeProps
import Verif.Perf.ComponentProps
import Verif.Perf.SetupProps
import Verif.Serial.IntervalProps
import Verif.Serial.JsonProps
import Verif.Pecoff.ResourceProps
import Verif.Images.InterfacesProps
import Verif.Status.Props
import Verif.Images.SourceWitness
import Verif.TestRunner.Props
import Verif.Uart.Props
import Verif.Ffs.CoreExtractorProps
import Verif.SdkProtocol.StatusCodeProps
import Verif.SdkBoot.GuardProps
import Verif.Cpu.PagingX64Props
import Verif.SdkBoot.MemTypeProps
import Verif.Alloc.BucketsProps
import Verif.Gcd.ServicesProps
import Verif.Cpu.FaultReport
import Verif.Paging.RuntimeFixup
import Verif.Fv.Process
import Verif.Debugger.Session
import Verif.AdvLog.Adopt
import Verif.Misc.Arch
import Verif.Misc.Handoff
import Verif.Misc.MemAttr
import Verif.Mm.Region
import Verif.AdvLog.Size
import Verif.Gcd.Listing
import Verif.Paging.InitListing
import Verif.Images.CoreImage
import Verif.Ffs.VolumeAccepted
import Verif.Pecoff.Info
import Verif.Pecoff.Load
