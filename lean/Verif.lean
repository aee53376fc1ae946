import Verif.Props.LinuxPolicy
import Verif.Props.Codec
import Verif.Props.Handle
import Verif.Props.Channel
import Verif.Props.ChannelPair
import Verif.Props.Broker
import Verif.Props.Worker
import Verif.Props.Threads
import Verif.Props.Sigsys
import Verif.Props.Context
import Verif.Props.Context32
import Verif.Props.Process
import Verif.Props.MachineCode
import Verif.Props.PolicyEq
import Verif.Props.ProcessMem
import Verif.Props.Startup
import Verif.Props.Seccomp
import Verif.Props.Lockdown
import Verif.Props.Asm
import Verif.Props.StackBuffer
import Verif.Props.Concurrent
import Verif.Props.CApi
import Verif.Props.WinPolicy
import Verif.Props.WinBroker
import Verif.Props.WinHook
import Verif.Props.WinImage
import Verif.Props.WinWorker
import Verif.Props.WinProcess
import Verif.Props.WinDlls
import Verif.Props.WinPipe
import Verif.Props.WinLaunch
import Verif.Props.WinHandle
import Verif.Props.CApiWin
import Verif.Props.LogText
import Verif.Props.Reasons
import Verif.Props.PolicyText
import Verif.Props.EntryIds
import Verif.Props.EntryLog
import Verif.Props.EntryReason
import Verif.Props.WinAttrList
import Verif.Props.WinUser
import Verif.Props.WinThreads
import Verif.Spec.ChannelError
import Verif.Spec.CreationError
import Verif.Props.ChannelError
import Verif.Props.CreationError
import Verif.Spec.Numerals
import Verif.Props.Numerals
import Verif.Model.Creators
import Verif.Spec.Creators
import Verif.Lemmas.Creators
import Verif.Props.Creators
import Verif.Model.WinErrors
import Verif.Spec.WinErrors
import Verif.Props.WinErrors
import Verif.Model.WinDllMem
import Verif.Spec.WinDllMem
import Verif.Props.WinDllMem
import Verif.Model.WinCreators
import Verif.Spec.WinCreators
import Verif.Lemmas.WinCreators
import Verif.Props.WinCreators
import Verif.Model.WholeBroker
import Verif.Spec.WholeBroker
import Verif.Lemmas.WholeBroker
import Verif.Props.WholeBroker
import Verif.Model.WinLoops
import Verif.Spec.WinLoops
import Verif.Lemmas.WinLoops
import Verif.Props.WinLoops
import Verif.Model.WinCalls
import Verif.Spec.WinCalls
import Verif.Props.WinCalls
import Verif.Model.Files
import Verif.Spec.Files
import Verif.Lemmas.Files
import Verif.Props.Files
import Verif.Model.Jail
import Verif.Spec.Jail
import Verif.Props.Jail
import Verif.Model.WinFiles
import Verif.Spec.WinFiles
import Verif.Lemmas.WinFiles
import Verif.Props.WinFiles
import Verif.Model.WholeWin
import Verif.Spec.WholeWin
import Verif.Lemmas.WholeWin
import Verif.Props.WholeWin
import Verif.Model.ManyFiles
import Verif.Spec.ManyFiles
import Verif.Lemmas.ManyFiles
import Verif.Props.ManyFiles
import Verif.Model.WinKeys
import Verif.Spec.WinKeys
import Verif.Lemmas.WinKeys
import Verif.Props.WinKeys
import Verif.Model.ManyWin
import Verif.Spec.ManyWin
import Verif.Lemmas.ManyWin
import Verif.Lemmas.ManyKeys
import Verif.Props.ManyWin
import Verif.Props.RepoTests
import Verif.Props.Budget
import Verif.Props.BudgetWin
import Verif.Props.Confined
import Verif.Props.ConfinedWin
import Verif.Props.ConfinedKeys
import Verif.Props.Children
import Verif.Props.PassedOn
import Verif.Props.HandedOn
