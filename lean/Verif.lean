import Verif.Connection.Props
import Verif.PacketStreaming.Props
import Verif.PacketStreaming.PropsClient
import Verif.Wire.PropsConfig
import Verif.Wire.Props
import Verif.Streaming.Props
import Verif.Streaming.PropsDelivery
import Verif.Streaming.PropsLinear
import Verif.DataPacket.Props
import Verif.DataPacket.PropsPacket
import Verif.Reader.PropsStream
import Verif.Reader.PropsTail
import Verif.Reader.PropsBlock
import Verif.Security.PropsPerm
import Verif.Security.PropsLock
import Verif.Security.PropsAuth
import Verif.CoreTypes.PropsRatio
import Verif.Component.PropsIds
import Verif.Component.PropsLookup
import Verif.Component.PropsFolder
import Verif.Component.PropsActive
import Verif.Component.PropsStatus
import Verif.Signal.PropsCycle
import Verif.PropObj.Model
import Verif.PropObj.Spec
import Verif.PropObj.Lemmas
import Verif.PropObj.Basics
import Verif.PropObj.PropsAccess
import Verif.PropObj.Quiet
import Verif.PropObj.PropsRead
import Verif.PropObj.PropsBatch
import Verif.PropObj.PropsNested
import Verif.PropObj.PropsOrder
import Verif.Expr.LexModel
import Verif.Expr.ParseModel
import Verif.Expr.Spec
import Verif.Expr.Mono
import Verif.Expr.Sound
import Verif.Expr.Complete
import Verif.Expr.Lex
import Verif.Expr.Tokens
import Verif.Expr.Props
import Verif.PropObj.PropsMore
import Verif.PacketBuffer.Model
import Verif.PacketBuffer.Spec
import Verif.PacketBuffer.Blocks
import Verif.PacketBuffer.Steps
import Verif.PacketBuffer.Props
import Verif.Multi.Model
import Verif.Multi.Spec
import Verif.Multi.Reading
import Verif.Multi.Flow
import Verif.Multi.Sync
import Verif.Multi.Seek
import Verif.Multi.Phase
import Verif.Multi.Run
import Verif.Multi.Start
import Verif.Multi.Amount
import Verif.Multi.Buffers
import Verif.Multi.Fresh
import Verif.Multi.Props
import Verif.Multi.Props2
import Verif.Multi.Props3
import Verif.Multi.Props4
import Verif.Link.Model
import Verif.Link.Spec
import Verif.Link.Inv
import Verif.Link.Hook
import Verif.Link.Deliver
import Verif.Link.Know
import Verif.Link.Last
import Verif.Link.Props
import Verif.Lifetime.Model
import Verif.Lifetime.Spec
import Verif.Lifetime.Inv
import Verif.Lifetime.Step
import Verif.Lifetime.Step2
import Verif.Lifetime.Reach
import Verif.Lifetime.Props
import Verif.SmartPtr.Model
import Verif.SmartPtr.Spec
import Verif.SmartPtr.Inv
import Verif.SmartPtr.Step
import Verif.SmartPtr.Props
import Verif.Values.Model
import Verif.Values.Spec
import Verif.Values.Eq
import Verif.Values.Dict
import Verif.Values.Clone
import Verif.Values.Props
import Verif.Values.Json
import Verif.Values.JsonSpec
import Verif.Values.JsonId
import Verif.Values.JsonRound
import Verif.Values.PropsMore
import Verif.Bulk.Props
import Verif.Event.Props
import Verif.Search.PropsAll
import Verif.Mirror.Props
import Verif.Mirror.PropsEffect
import Verif.MirrorEv.Props
import Verif.Remote.Props
import Verif.Remote.PropsServer
import Verif.Types.PropsMgr
import Verif.Types.PropsStruct
import Verif.Types.PropsBuild
import Verif.Types.PropsEnum
import Verif.Types.PropsRead
import Verif.Classes.PropsBuild
import Verif.Access.PropsView
import Verif.Access.PropsLock
import Verif.Access.PropsPerm
import Verif.Access.PropsThrough
import Verif.Access.PropsThrough2
import Verif.Access.PropsAddress
import Verif.Sessions.Props
import Verif.Notify.Props
import Verif.Config.Props
import Verif.Descr.Props
import Verif.Sched.Props
import Verif.Modes.Props
import Verif.Mgr.Props
import Verif.Status.Props
import Verif.Sources.Props
import Verif.Refs.Props
import Verif.Defs.Props
import Verif.Nest.Props
import Verif.Opts.Props
import Verif.Info.Props
import Verif.Loading.Props
import Verif.Errors.Props
import Verif.Sync.Props
import Verif.Ext.Props
import Verif.Boxes.Props
import Verif.Clock.Props
import Verif.Pull.Props
import Verif.Journal.Props
import Verif.Files.Props
import Verif.Timer.Props
import Verif.Ping.Props
