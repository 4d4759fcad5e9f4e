import Verif.Model.Basic
import Verif.Model.Cpio
import Verif.Model.Companion
import Verif.Spec.Newc
import Verif.Spec.CpioMembers
import Verif.Lemmas.Cpio
import Verif.Lemmas.CpioOps
import Verif.Props.Cpio
import Verif.Props.Companion
import Verif.Model.Text
import Verif.Model.Version
import Verif.Model.OsRelease
import Verif.Model.Path
import Verif.Model.Generation
import Verif.Model.StubName
import Verif.Spec.Version
import Verif.Spec.OsRelease
import Verif.Spec.BootCounting
import Verif.Lemmas.Text
import Verif.Lemmas.StubName
import Verif.Props.Version
import Verif.Props.OsRelease
import Verif.Props.Generation
import Verif.Props.StubName
import Verif.Props.Path
import Verif.Model.Firmware
import Verif.Model.PeLoader
import Verif.Model.Measure
import Verif.Model.EfiVars
import Verif.Model.LinuxLoader
import Verif.Model.Stub
import Verif.Spec.PeImage
import Verif.Spec.LoadFile2
import Verif.Spec.Uki
import Verif.Lemmas.Stub
import Verif.Props.PeLoader
import Verif.Props.LinuxLoader
import Verif.Props.Measure
import Verif.Model.Sort
import Verif.Spec.Boot
import Verif.Lemmas.Boot
import Verif.Lemmas.SampleBoot
import Verif.Props.EfiVars
import Verif.Props.Stub
import Verif.Props.PcrVars
import Verif.Model.Fs
import Verif.Model.Tools
import Verif.Model.Gc
import Verif.Model.Install
import Verif.Spec.Names
import Verif.Spec.Installer
import Verif.Lemmas.Fs
import Verif.Lemmas.FsOps
import Verif.Lemmas.EspPaths
import Verif.Lemmas.InstallSteps
import Verif.Lemmas.InstallRun
import Verif.Lemmas.InstallLoader
import Verif.Lemmas.Gc
import Verif.Lemmas.InstallRoots
import Verif.Lemmas.Carried
import Verif.Lemmas.Run
import Verif.Lemmas.Roots
import Verif.Lemmas.SampleSound
import Verif.Lemmas.Sound
import Verif.Lemmas.RunFacts
import Verif.Lemmas.Protect
import Verif.Lemmas.Owned
import Verif.Lemmas.SampleInstall
import Verif.Props.InstallFiles
import Verif.Lemmas.GcExact
import Verif.Props.Gc
import Verif.Props.InstallBoot
import Verif.Lemmas.Trees
import Verif.Lemmas.Used
import Verif.Lemmas.Measured
import Verif.Props.InstallState
import Verif.Spec.History
import Verif.Props.History
import Verif.Spec.BootLoader
import Verif.Lemmas.LoaderPhase
import Verif.Lemmas.LoaderFiles
import Verif.Lemmas.SampleLoader
import Verif.Props.InstallLoader
import Verif.Props.InstallSigned
import Verif.Props.LoaderMeasure
import Verif.Spec.StubImage
import Verif.Props.StubImage
import Verif.Lemmas.BootLive
import Verif.Props.EndToEnd
import Verif.Lemmas.Settled
import Verif.Props.InstallAgain
import Verif.Spec.Companions
import Verif.Props.Discovery
import Verif.Props.BootStarts
import Verif.Spec.Generations
import Verif.Props.Considered
import Verif.Spec.Objcopy
import Verif.Model.TempDir
import Verif.Props.TempFiles
import Verif.Props.HistoryBoot
import Verif.Spec.Ready
import Verif.Lemmas.Live
import Verif.Lemmas.RoomKept
import Verif.Lemmas.RunLive
import Verif.Lemmas.RoomSteps
import Verif.Props.InstallLive
import Verif.Props.Variables
import Verif.Props.OtherEntries
import Verif.Props.CaseFold
import Verif.Spec.Panics
import Verif.Lemmas.Panics
import Verif.Props.Panics
import Verif.Spec.Pcr
import Verif.Props.Pcr
import Verif.Model.Bootspec
import Verif.Spec.Bootspec
import Verif.Props.Bootspec
import Verif.Spec.SecureBoot
import Verif.Props.SecureBoot
import Verif.Spec.TpmLog
import Verif.Model.Tpm
import Verif.Props.Tpm
import Verif.Props.Literal
import Verif.Props.Archive
import Verif.Spec.Modes
import Verif.Props.Permissions
import Verif.Props.Spelling
import Verif.Props.Counts
import Verif.Props.Accepts
import Verif.Props.BuildDate
import Verif.Props.Program
import Verif.Props.Advice
import Verif.Props.Signers
import Verif.Props.Footprint
import Verif.Props.StubFootprint
import Verif.Props.VariableTexts
import Verif.Props.Menu
import Verif.Props.Room
import Verif.Model.Busy
import Verif.Spec.Busy
import Verif.Lemmas.Busy
import Verif.Lemmas.Acts
import Verif.Props.Busy
import Verif.Props.Interference
import Verif.Spec.Rotation
import Verif.Props.Rotation
import Verif.Tests.Units
import Verif.Tests.Integration
import Verif.Spec.Partitions
import Verif.Props.Partitions
import Verif.Lemmas.Synced
import Verif.Props.PowerLoss
import Verif.Spec.PowerLoss
import Verif.Lemmas.Untouched
import Verif.Props.PowerLossEarly
import Verif.Props.PowerLossNext
import Verif.Spec.EspCompanions
import Verif.Props.EspCompanions
import Verif.Spec.PcrPrediction
import Verif.Props.PcrPrediction
import Verif.Spec.Unsigned
import Verif.Props.Unsigned
import Verif.Spec.CollectKilled
import Verif.Props.CollectKilled
import Verif.Spec.MeasuredEntries
import Verif.Lemmas.Ordered
import Verif.Props.MeasuredEntries
import Verif.Spec.Bounded
import Verif.Props.Bounded
import Verif.Props.Names
import Verif.Spec.Assessment
import Verif.Props.Assessment
import Verif.Spec.Fallback
import Verif.Props.Fallback
import Verif.Spec.Listing
import Verif.Props.Listing
import Verif.Spec.StubMemory
import Verif.Props.StubMemory
import Verif.Spec.Exact
import Verif.Props.Exact
import Verif.Props.Secrets
import Verif.Props.Hook
import Verif.Props.Enroll
import Verif.Spec.CannotSign
import Verif.Props.CannotSign
import Verif.Spec.StubUpdate
import Verif.Props.StubUpdate
import Verif.Model.Cryptenroll
import Verif.Spec.Cryptenroll
import Verif.Props.Cryptenroll
import Verif.Spec.Repair
import Verif.Props.Repair
import Verif.Spec.Rollback
import Verif.Props.Rollback
