import Verif.Base.Bytes
import Verif.Base.Cbor
import Verif.Base.Go
import Verif.Model.BigInt
import Verif.Model.Cbor
import Verif.Model.Client
import Verif.Model.Concurrency
import Verif.Model.Cose
import Verif.Model.Crypto
import Verif.Model.Ctap
import Verif.Model.Demo
import Verif.Model.Device
import Verif.Model.Env
import Verif.Model.HidServer
import Verif.Model.HidTransaction
import Verif.Model.Launch
import Verif.Model.Listener
import Verif.Model.Live
import Verif.Model.Log
import Verif.Model.Logged
import Verif.Model.Mac
import Verif.Model.MacMemory
import Verif.Model.Overlap
import Verif.Model.Processes
import Verif.Model.Reports
import Verif.Model.RequestBuffer
import Verif.Model.SavedState
import Verif.Model.Server
import Verif.Model.Stack
import Verif.Model.Types
import Verif.Model.U2f
import Verif.Model.Usb
import Verif.Model.UsbIp
import Verif.Model.Util
import Verif.Model.Vault
import Verif.Model.Whole
import Verif.Proofs.Accounts
import Verif.Proofs.Answers
import Verif.Proofs.Approval
import Verif.Proofs.Attestation
import Verif.Proofs.BigInt
import Verif.Proofs.Cbor
import Verif.Proofs.CborStrict
import Verif.Proofs.CborWF
import Verif.Proofs.ClientPINCases
import Verif.Proofs.Cose
import Verif.Proofs.Counters
import Verif.Proofs.CtapCases
import Verif.Proofs.CtapSpec
import Verif.Proofs.Device
import Verif.Proofs.Exclusive
import Verif.Proofs.ExclusiveBuild
import Verif.Proofs.ExclusiveCounters
import Verif.Proofs.ExclusiveKept
import Verif.Proofs.ExclusiveKeptPerform
import Verif.Proofs.ExclusivePin
import Verif.Proofs.ExclusivePlay
import Verif.Proofs.ExclusiveU2f
import Verif.Proofs.Health
import Verif.Proofs.Heard
import Verif.Proofs.HidAct
import Verif.Proofs.HidComplete
import Verif.Proofs.HidHistory
import Verif.Proofs.HidInv
import Verif.Proofs.HidPanic
import Verif.Proofs.HidResponse
import Verif.Proofs.HidRun
import Verif.Proofs.HidServer
import Verif.Proofs.HidTransaction
import Verif.Proofs.History
import Verif.Proofs.Items
import Verif.Proofs.Kept
import Verif.Proofs.Launch
import Verif.Proofs.Listener
import Verif.Proofs.Live
import Verif.Proofs.LiveConsent
import Verif.Proofs.LiveEnds
import Verif.Proofs.LiveReadable
import Verif.Proofs.LiveRun
import Verif.Proofs.LiveTold
import Verif.Proofs.Log
import Verif.Proofs.Logged
import Verif.Proofs.LoggedLines
import Verif.Proofs.LoggedShown
import Verif.Proofs.Mac
import Verif.Proofs.MacDriver
import Verif.Proofs.MacMemory
import Verif.Proofs.MacSequential
import Verif.Proofs.Memory
import Verif.Proofs.OverlapAlone
import Verif.Proofs.OverlapCounters
import Verif.Proofs.OverlapDrained
import Verif.Proofs.OverlapDraws
import Verif.Proofs.OverlapFacts
import Verif.Proofs.OverlapFixed
import Verif.Proofs.OverlapFootprint
import Verif.Proofs.OverlapHandlers
import Verif.Proofs.OverlapIds
import Verif.Proofs.OverlapIdsPerform
import Verif.Proofs.OverlapIdsRun
import Verif.Proofs.OverlapInvariant
import Verif.Proofs.OverlapLives
import Verif.Proofs.OverlapLivesPerform
import Verif.Proofs.OverlapLivesRun
import Verif.Proofs.OverlapPin
import Verif.Proofs.OverlapProcess
import Verif.Proofs.OverlapRaces
import Verif.Proofs.OverlapSafe
import Verif.Proofs.OverlapSafeHandlers
import Verif.Proofs.OverlapSafePerform
import Verif.Proofs.OverlapSaves
import Verif.Proofs.OverlapToy
import Verif.Proofs.OverlapTraced
import Verif.Proofs.PinHistory
import Verif.Proofs.PinProgress
import Verif.Proofs.PinSpec
import Verif.Proofs.PinTwin
import Verif.Proofs.Progress
import Verif.Proofs.Readable
import Verif.Proofs.RelyingParty
import Verif.Proofs.Reports
import Verif.Proofs.ReportsHandle
import Verif.Proofs.ReportsInside
import Verif.Proofs.ReportsMono
import Verif.Proofs.ReportsOrder
import Verif.Proofs.ReportsRun
import Verif.Proofs.ReportsStep
import Verif.Proofs.RequestBuffer
import Verif.Proofs.Restore
import Verif.Proofs.Retries
import Verif.Proofs.RsaWitness
import Verif.Proofs.SavedState
import Verif.Proofs.Server
import Verif.Proofs.Service
import Verif.Proofs.ServiceRun
import Verif.Proofs.Stack
import Verif.Proofs.StackFifo
import Verif.Proofs.StackInv
import Verif.Proofs.StackRun
import Verif.Proofs.Status
import Verif.Proofs.StatusHistory
import Verif.Proofs.Store
import Verif.Proofs.StoreBlind
import Verif.Proofs.Tamper
import Verif.Proofs.Toy
import Verif.Proofs.ToyDevice
import Verif.Proofs.ToyHistory
import Verif.Proofs.ToyPin
import Verif.Proofs.ToyQuick
import Verif.Proofs.Twice
import Verif.Proofs.U2fCases
import Verif.Proofs.U2fParty
import Verif.Proofs.U2fSpec
import Verif.Proofs.U2fStatus
import Verif.Proofs.UsbIp
import Verif.Proofs.Util
import Verif.Proofs.Vault
import Verif.Proofs.VaultTwin
import Verif.Props.Accounts
import Verif.Props.Answered
import Verif.Props.AnsweredHosts
import Verif.Props.Answers
import Verif.Props.Approval
import Verif.Props.Attestation
import Verif.Props.Cases
import Verif.Props.ClientPin
import Verif.Props.Concurrency
import Verif.Props.Conversation
import Verif.Props.ConversationCases
import Verif.Props.Cose
import Verif.Props.Demo
import Verif.Props.DemoPin
import Verif.Props.DemoPrompt
import Verif.Props.Enumerate
import Verif.Props.Exclusive
import Verif.Props.ExclusiveKept
import Verif.Props.Forever
import Verif.Props.GetAssertion
import Verif.Props.Harmless
import Verif.Props.HidErrors
import Verif.Props.HidHistories
import Verif.Props.HidRequest
import Verif.Props.History
import Verif.Props.HostLogin
import Verif.Props.HostPin
import Verif.Props.HostPinCases
import Verif.Props.HostU2fCases
import Verif.Props.Hosts
import Verif.Props.HostsCases
import Verif.Props.HostsLogin
import Verif.Props.HostsLoginCases
import Verif.Props.HostsSafe
import Verif.Props.HostsSafeCases
import Verif.Props.Info
import Verif.Props.Isolation
import Verif.Props.Kept
import Verif.Props.Launch
import Verif.Props.Listener
import Verif.Props.Live
import Verif.Props.Log
import Verif.Props.Logged
import Verif.Props.Mac
import Verif.Props.MacMemory
import Verif.Props.MakeCredential
import Verif.Props.Memory
import Verif.Props.OldFormat
import Verif.Props.Overlap
import Verif.Props.OverlapDraws
import Verif.Props.OverlapIds
import Verif.Props.OverlapPin
import Verif.Props.OverlapRaces
import Verif.Props.PinDemo
import Verif.Props.PinHistory
import Verif.Props.PinProtocol
import Verif.Props.PinSearch
import Verif.Props.Processes
import Verif.Props.Races
import Verif.Props.RelyingParty
import Verif.Props.RequestBuffer
import Verif.Props.Restart
import Verif.Props.Secrecy
import Verif.Props.Server
import Verif.Props.Service
import Verif.Props.Stack
import Verif.Props.Status
import Verif.Props.Store
import Verif.Props.Tamper
import Verif.Props.Token
import Verif.Props.U2f
import Verif.Props.U2fParty
import Verif.Props.Usb
import Verif.Props.UsbIp
import Verif.Props.Vault
import Verif.Spec.Accounts
import Verif.Spec.Approval
import Verif.Spec.Attach
import Verif.Spec.Attestation
import Verif.Spec.Calls
import Verif.Spec.Cbor
import Verif.Spec.Client
import Verif.Spec.Conversation
import Verif.Spec.Cose
import Verif.Spec.Ctap
import Verif.Spec.Ctaphid
import Verif.Spec.Demo
import Verif.Spec.Draws
import Verif.Spec.Enumerate
import Verif.Spec.Exclusive
import Verif.Spec.Footprint
import Verif.Spec.Harmless
import Verif.Spec.History
import Verif.Spec.HostPin
import Verif.Spec.Hosts
import Verif.Spec.Info
import Verif.Spec.Isolation
import Verif.Spec.Kept
import Verif.Spec.Laws
import Verif.Spec.Live
import Verif.Spec.Log
import Verif.Spec.LogSecrets
import Verif.Spec.Mac
import Verif.Spec.MacMemory
import Verif.Spec.Memory
import Verif.Spec.OldFormat
import Verif.Spec.Overlap
import Verif.Spec.Pin
import Verif.Spec.PinHistory
import Verif.Spec.Platform
import Verif.Spec.Processes
import Verif.Spec.Races
import Verif.Spec.Readable
import Verif.Spec.RelyingParty
import Verif.Spec.Secrecy
import Verif.Spec.Server
import Verif.Spec.Service
import Verif.Spec.Stack
import Verif.Spec.Status
import Verif.Spec.Store
import Verif.Spec.Tamper
import Verif.Spec.U2f
import Verif.Spec.U2fParty
import Verif.Spec.U2fStatus
import Verif.Spec.Usb
import Verif.Spec.UsbIp
import Verif.Spec.Vault
