import Verif.Props.Util
import Verif.Props.Crc
import Verif.Props.Space
import Verif.Props.SpaceUse
import Verif.Props.Crash
import Verif.Props.Geometry
import Verif.Props.BlockIo
import Verif.Props.Buffer
import Verif.Model.Inode
import Verif.Lemmas.WriteData
import Verif.Lemmas.Truncate
import Verif.Lemmas.FsLink
import Verif.Lemmas.FsCreate
import Verif.Lemmas.CoreFile
import Verif.Lemmas.DirRead
import Verif.Lemmas.RenameAll
import Verif.Model.CoreDir
import Verif.Props.Format
import Verif.Lemmas.Reserve
import Verif.Props.Policy
import Verif.Props.Account
import Verif.Props.Files
import Verif.Props.Names
import Verif.Model.Path
import Verif.Model.Posix
import Verif.Lemmas.Typed
import Verif.Lemmas.PosixPath
import Verif.Lemmas.PosixDir
import Verif.Lemmas.PosixOpen
import Verif.Lemmas.PosixVol
import Verif.Lemmas.PosixExec
import Verif.Props.PosixFd
import Verif.Props.PosixUse
import Verif.Props.PosixIo
import Verif.Props.PosixNames
import Verif.Lemmas.PosixWalk
import Verif.Model.Concurrent
import Verif.Spec.Linear
import Verif.Lemmas.PosixNeutral
import Verif.Lemmas.Linear
import Verif.Lemmas.LinearInv
import Verif.Props.PosixTask
import Verif.Spec.PosixCrash
import Verif.Lemmas.PosixCrash
import Verif.Lemmas.PosixCrashApi
import Verif.Props.PosixCrash
import Verif.Spec.BufferEpoch
import Verif.Props.BufferEpoch
import Verif.Model.Swap
import Verif.Spec.Swap
import Verif.Lemmas.Swap
import Verif.Props.Swap
import Verif.Model.Fse
import Verif.Spec.Fse
import Verif.Lemmas.Fse
import Verif.Props.Fse
import Verif.Spec.PosixDurable
import Verif.Props.PosixDurable
import Verif.Spec.Errors
import Verif.Lemmas.PosixErr
import Verif.Props.PosixErr
import Verif.Spec.PosixFail
import Verif.Lemmas.PosixFail
import Verif.Props.PosixFail
import Verif.Spec.PosixCwd
import Verif.Props.PosixCwd
import Verif.Model.Fault
import Verif.Lemmas.Reading
import Verif.Lemmas.Fault
import Verif.Props.Fault
import Verif.Model.Device
import Verif.Spec.Device
import Verif.Lemmas.Device
import Verif.Props.Device
import Verif.Spec.Blocks
import Verif.Props.Blocks
import Verif.Lemmas.Cost
import Verif.Spec.Space
import Verif.Lemmas.Space
import Verif.Props.Entries
import Verif.Lemmas.ImageOf
import Verif.Props.Image
import Verif.Model.Io
import Verif.Model.IoData
import Verif.Model.IoDir
import Verif.Spec.Io
import Verif.Lemmas.Io
import Verif.Lemmas.IoRead
import Verif.Lemmas.IoWrite
import Verif.Lemmas.IoData
import Verif.Lemmas.IoDir
import Verif.Lemmas.IoCall
import Verif.Lemmas.IoRun
import Verif.Props.Io
import Verif.Model.Refs
import Verif.Lemmas.Refs
import Verif.Lemmas.RefsCore
import Verif.Lemmas.RefsCalls
import Verif.Lemmas.RefsBusy
import Verif.Props.Refs
import Verif.Model.Words
import Verif.Lemmas.Words
import Verif.Lemmas.WordsIo
import Verif.Lemmas.WordsPos
import Verif.Props.Words
import Verif.Model.Times
import Verif.Spec.Times
import Verif.Lemmas.TimesErase
import Verif.Lemmas.TimesKeep
import Verif.Lemmas.TimesHold
import Verif.Lemmas.TimesCalls
import Verif.Lemmas.TimesNames
import Verif.Lemmas.TimesOp
import Verif.Lemmas.TimesExec
import Verif.Lemmas.TimesReach
import Verif.Lemmas.TimesStamps
import Verif.Lemmas.TimesOrder
import Verif.Lemmas.TimesMore
import Verif.Props.Times
import Verif.Spec.PosixOwn
import Verif.Lemmas.PosixOwn
import Verif.Props.PosixOwn
import Verif.Model.WordsDir
import Verif.Lemmas.WordsDir
import Verif.Lemmas.WordsDirEnd
import Verif.Props.WordsDir
import Verif.Model.WordsTrunc
import Verif.Lemmas.WordsTrunc
import Verif.Props.WordsTrunc
import Verif.Model.WordsRun
import Verif.Lemmas.WordsRun
import Verif.Props.WordsRun
import Verif.Spec.CoreErrors
import Verif.Props.CoreErrors
