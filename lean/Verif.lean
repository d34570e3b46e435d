import Verif.Base
import Verif.Codec.Props
import Verif.Codec.ExtProps
import Verif.Record.ReadProps
import Verif.Record.WriteProps
import Verif.Record.WriteCount
import Verif.Record.PlainSkip
import Verif.Server.BloomProps
import Verif.Server.Negotiate
import Verif.Server.CertManagerProps
import Verif.Crypto.HkdfProps
import Verif.Crypto.KeyScheduleProps
import Verif.Ticket.TokenProps
import Verif.Ticket.TicketCodecProps
import Verif.Ticket.TicketCipherProps
import Verif.Ticket.CookieProps
import Verif.Client.PskSerializationProps
import Verif.Client.PskCacheProps
import Verif.Crypto.KexProps
import Verif.Conn.Props
import Verif.Server.Props2
import Verif.Server.PropsKeys
import Verif.Server.Example
import Verif.ClientSM.Shape
import Verif.ClientSM.InvRun
import Verif.ClientSM.Props4
import Verif.ClientSM.Props5
import Verif.Agree.Spec
import Verif.Agree.Mac
import Verif.Agree.Props
import Verif.Agree.Params
import Verif.Agree.Server
import Verif.Agree.World
import Verif.Agree.NoClash
import Verif.Batch.Merkle
import Verif.Batch.MerkleSpec
import Verif.Batch.MerkleProps
import Verif.Batch.MerkleSound
import Verif.Batch.Batcher
import Verif.Batch.BatcherSpec
import Verif.Batch.BatcherProps
import Verif.Hpke.Model
import Verif.Hpke.Spec
import Verif.Hpke.Props
import Verif.Ech.Types
import Verif.Ech.TypesSpec
import Verif.Ech.TypesProps
import Verif.Ech.Outer
import Verif.Ech.OuterSpec
import Verif.Ech.OuterProps
import Verif.Ech.Crypt
import Verif.Ech.CryptSpec
import Verif.Ech.CryptProps
import Verif.Ech.TamperProps
import Verif.Ech.PadSpec
import Verif.Ech.PadProps
import Verif.Ech.ChooseSpec
import Verif.Ech.ChooseProps
import Verif.Ech.DecryptProps
import Verif.Ech.Accept
import Verif.Ech.AcceptSpec
import Verif.Ech.AcceptProps
import Verif.Ech.Connection
import Verif.Ech.World
import Verif.Ech.KeysProps
import Verif.Aead.Buf
import Verif.Aead.Transform
import Verif.Aead.BufLemmas
import Verif.Aead.Spec
import Verif.Aead.BlockLemmas
import Verif.Aead.TransLemmas
import Verif.Aead.Evp
import Verif.Aead.Ideal
import Verif.Aead.EvpLemmas
import Verif.Aead.BodyLemmas
import Verif.Aead.HelperLemmas
import Verif.Aead.Props
import Verif.Aead.Example
import Verif.Cred.Sign
import Verif.Cred.Delegated
import Verif.Cred.Spec
import Verif.Cred.Lemmas
import Verif.Cred.Props
import Verif.Cred.Props2
import Verif.Cred.Example
import Verif.Exporter.Model
import Verif.Exporter.Spec
import Verif.Exporter.Props
import Verif.ExportedAuth.Model
import Verif.ExportedAuth.Spec
import Verif.ExportedAuth.Lemmas
import Verif.ExportedAuth.Props
import Verif.ExportedAuth.Props2
import Verif.ExportedAuth.Props3
import Verif.Async.Model
import Verif.Async.Spec
import Verif.Async.Stack
import Verif.Async.StackStep
import Verif.Async.Read
import Verif.Async.ReadStep
import Verif.Async.ReadRun
import Verif.Async.Write
import Verif.Async.WriteStep
import Verif.Async.WriteStep2
import Verif.Async.WriteRun
import Verif.Async.WriteEnter
import Verif.Async.SpecProps
import Verif.Async.ErrorRun
import Verif.Async.Props
import Verif.Async.Example
import Verif.Sock.Model
import Verif.Sock.Spec
import Verif.Sock.Inv
import Verif.Sock.Fields
import Verif.Sock.Shape
import Verif.Sock.Step
import Verif.Sock.Calls
import Verif.Sock.CallsStep
import Verif.Sock.Guard
import Verif.Sock.Flow
import Verif.Sock.Prefix
import Verif.Sock.Late
import Verif.Sock.Stream
import Verif.Sock.Doom
import Verif.Sock.Mild
import Verif.Sock.EarlyInv
import Verif.Sock.EarlyStep
import Verif.Sock.Keys
import Verif.Sock.Props
import Verif.Sock.Example
import Verif.Sock.Timer
import Verif.Sock.TimerInv
import Verif.Sock.TimerProps
import Verif.Sock.TimerExample
import Verif.Channel.Spec
import Verif.Channel.Record
import Verif.Channel.Gen
import Verif.Channel.Flow
import Verif.Channel.History
import Verif.Channel.Server
import Verif.Channel.Client
import Verif.Channel.Early
import Verif.Channel.Keys
import Verif.Channel.Props
import Verif.Channel.First
import Verif.Channel.Joint
import Verif.Channel.EarlyEnd
import Verif.Channel.Example
import Verif.Aead.Helper
import Verif.Aead.Place
import Verif.Aead.Aegis
import Verif.Aead.AegisSpec
import Verif.Aead.AegisProps
import Verif.Aead.AegisExample
import Verif.Compress.Model
import Verif.Compress.Props
import Verif.Compress.Example
import Verif.TokenBinding.Model
import Verif.TokenBinding.Spec
import Verif.TokenBinding.Props
import Verif.TokenBinding.Bind
import Verif.TokenBinding.Example
import Verif.Psp.Model
import Verif.Psp.Spec
import Verif.Psp.Props
import Verif.Psp.Example
import Verif.Ktls.Model
import Verif.Ktls.Spec
import Verif.Ktls.Handover
import Verif.Ktls.Read
import Verif.Ktls.Ticket
import Verif.Ktls.Write
import Verif.Ktls.Example
import Verif.Crypto.EcKex
import Verif.Crypto.EcKexProps
import Verif.Cred.ClientChoice
import Verif.Cred.ClientChoiceProps
import Verif.Ech.Grease
import Verif.Ech.GreaseProps
import Verif.Util.Text
import Verif.Util.TextProps
import Verif.Util.Names
import Verif.Util.NamesProps
import Verif.KeyLog.Model
import Verif.KeyLog.Props
import Verif.KeyLog.Example
import Verif.Cred.Pem
import Verif.Cred.PemProps
import Verif.Cred.Evp
import Verif.Cred.EvpSpec
import Verif.Cred.EvpProps
import Verif.Cred.Load
import Verif.Cred.LoadProps
import Verif.Verifier.Model
import Verif.Verifier.Props
import Verif.Util.Multi
import Verif.Util.MultiProps
import Verif.Async.Aligned
import Verif.Async.AlignedProps
import Verif.Async.Pressure
import Verif.Async.PressureProps
import Verif.Async.EndOfTls
import Verif.Async.EndOfTlsProps
import Verif.Codec.HrrRandom
import Verif.Util.Registry
import Verif.Alerts.ServerSpec
import Verif.Alerts.ServerProps
import Verif.Alerts.ClientSpec
import Verif.Alerts.ClientProps
import Verif.Alerts.Step
import Verif.Alerts.Examples
import Verif.Access.Props
import Verif.Access.Example
import Verif.Server.Ccs
import Verif.Server.CcsExample
import Verif.Compress.Available
import Verif.Async.Secrets
import Verif.Async.SecretsProps
import Verif.Async.SecretsExample
