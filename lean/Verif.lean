import Verif.Model.Cli
import Verif.Props.Generated
import Verif.Props.Checksums
import Verif.Props.Recovery
import Verif.Props.Files
import Verif.Props.Vault
import Verif.Props.Session
import Verif.Props.Contents
import Verif.Props.Cli
import Verif.Props.CliText
import Verif.Props.CliReach
import Verif.Props.Prompt
import Verif.Props.CliList
import Verif.Props.CliOrder
import Verif.Props.Transfer
import Verif.Props.Corrupt
import Verif.Spec.Processes
import Verif.Props.Processes
import Verif.Spec.Runs
import Verif.Props.Commands
import Verif.Props.Runs
import Verif.Props.Published
import Verif.Spec.Calm
import Verif.Props.Crash
import Verif.Model.Args
import Verif.Spec.CommandLine
import Verif.Spec.Machine
import Verif.Proofs.Args
import Verif.Proofs.Words
import Verif.Props.CommandLine
import Verif.Props.Shell
import Verif.Props.Main
import Verif.Props.Typed
import Verif.Spec.JsonText
import Verif.Spec.Records
import Verif.Proofs.JsonText
import Verif.Proofs.Records
import Verif.Props.Json
import Verif.Spec.Base64
import Verif.Spec.Foreign
import Verif.Proofs.Load
import Verif.Proofs.Foreign
import Verif.Props.Foreign
import Verif.Model.Sha256
import Verif.Model.Scrypt
import Verif.Model.AesGcm
import Verif.Model.Standard
import Verif.Model.Wild
import Verif.Spec.Pattern
import Verif.Proofs.Standard
import Verif.Proofs.Primes
import Verif.Proofs.Ghash
import Verif.Proofs.Tamper
import Verif.Props.Standard
import Verif.Props.Pattern
import Verif.Proofs.Frame
import Verif.Props.Streams
import Verif.Spec.Secrecy
import Verif.Proofs.Secrecy
import Verif.Proofs.Parallel
import Verif.Props.Secrecy
import Verif.Spec.Sizes
import Verif.Proofs.Sizes
import Verif.Props.Sizes
import Verif.Spec.Simultaneous
import Verif.Proofs.Simultaneous
import Verif.Props.Simultaneous
import Verif.Model.Stdin
import Verif.Spec.Stdin
import Verif.Proofs.Still
import Verif.Proofs.Unwritten
import Verif.Props.Stdin
import Verif.Spec.Kill
import Verif.Proofs.OneWrite
import Verif.Props.Kill
import Verif.Props.Messages
import Verif.Tests.Repository
import Verif.Tests.Commands
import Verif.Tests.Sessions
import Verif.Tests.Scrypt
import Verif.Tests.Sha256
import Verif.Tests.AesGcm
import Verif.Props.Counting
import Verif.Props.Builds
import Verif.Props.Generic
import Verif.Props.Tampering
import Verif.Props.SameKey
import Verif.Props.Wait
import Verif.Props.Terminal
import Verif.Props.Stdout
import Verif.Props.Memory
import Verif.Model.Calls
import Verif.Props.Calls
import Verif.Model.QrCode
import Verif.Spec.QrCode
import Verif.Proofs.QrCount
import Verif.Proofs.QrGrid
import Verif.Proofs.QrCodewords
import Verif.Proofs.QrBits
import Verif.Proofs.QrCode
import Verif.Proofs.QrFits
import Verif.Proofs.QrPatterns
import Verif.Props.QrCode
import Verif.Spec.ReedSolomon
import Verif.Proofs.Field256
import Verif.Proofs.ReedSolomon
import Verif.Proofs.QrDamage
import Verif.Props.QrDamage
import Verif.Props.QrMask
import Verif.Tests.QrCode
import Verif.Spec.Veil
import Verif.Proofs.Veil
import Verif.Props.Veil
import Verif.Model.Allocator
import Verif.Spec.Allocator
import Verif.Proofs.Allocator
import Verif.Props.Allocator
import Verif.Props.Moments
import Verif.Props.Padding
import Verif.Proofs.GhashField
import Verif.Proofs.Forgery
import Verif.Props.Forgery
import Verif.Model.Piped
import Verif.Spec.Piped
import Verif.Proofs.Piped
import Verif.Props.Piped
import Verif.Props.Refused
import Verif.Spec.Sittings
import Verif.Proofs.Sittings
import Verif.Props.Sittings
import Verif.Spec.Shown
import Verif.Proofs.Shown
import Verif.Props.Shown
import Verif.Spec.Onward
import Verif.Props.Onward
import Verif.Spec.Evenings
import Verif.Proofs.Evenings
import Verif.Props.Evenings
import Verif.Spec.Primary
import Verif.Proofs.Primary
import Verif.Props.Primary
import Verif.Spec.Traces
import Verif.Proofs.Traces
import Verif.Props.Traces
import Verif.Spec.Order
import Verif.Proofs.Order
import Verif.Props.Order
import Verif.Spec.Touched
import Verif.Proofs.Touched
import Verif.Props.Touched
import Verif.Spec.Locality
import Verif.Proofs.Locality
import Verif.Props.Locality
import Verif.Spec.Pairs
import Verif.Proofs.Pairs
import Verif.Props.Pairs
import Verif.Props.Damaged
