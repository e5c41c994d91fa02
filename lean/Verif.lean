import Verif.Ask.GoneProps
import Verif.Ask.HandlerProps
import Verif.Ask.Props
import Verif.Ask.SettleProps
import Verif.Ask.TaskProps
import Verif.Auth.DiscoveryProps
import Verif.Auth.DocumentProps
import Verif.Auth.FormProps
import Verif.Auth.TokenProps
import Verif.Await.KeepProps
import Verif.Await.LifeProps
import Verif.Await.Props
import Verif.Await.ServerKindProps
import Verif.Await.ServerLifeProps
import Verif.Await.ServerProps
import Verif.Await.ServerSafeProps
import Verif.Back.GoneProps
import Verif.Back.HandlerProps
import Verif.Back.Props
import Verif.Back.SettleProps
import Verif.Back.TaskProps
import Verif.Client.BuilderProps
import Verif.Client.CacheProps
import Verif.Client.CallProps
import Verif.Client.ReconnectProps
import Verif.Client.RequestProps
import Verif.Client.TaskOriginProps
import Verif.Client.TaskProps
import Verif.Client.TypedProps
import Verif.Config.Props
import Verif.Config.ServerProps
import Verif.Errors.Props
import Verif.Framer.Props
import Verif.Http.AuthProps
import Verif.Http.ChallengeProps
import Verif.Http.EventProps
import Verif.Http.ExchangeProps
import Verif.Http.HeadersProps
import Verif.Http.LeftoverProps
import Verif.Http.LinkProps
import Verif.Http.MetadataProps
import Verif.Http.ReverseProps
import Verif.Http.SendProps
import Verif.Http.ServerLeftProps
import Verif.Http.ServerLifeProps
import Verif.Http.ServerProps
import Verif.Http.ServerStopProps
import Verif.Http.SessionProps
import Verif.Http.StreamProps
import Verif.Http.TransportProps
import Verif.InMemory.DrainProps
import Verif.InMemory.LifeEndProps
import Verif.InMemory.LifeProps
import Verif.InMemory.Props
import Verif.Json.Props
import Verif.Life.EndProps
import Verif.Life.Props
import Verif.Life.ReadProps
import Verif.Lock.Props
import Verif.Log.LevelProps
import Verif.Log.Props
import Verif.Near.GoneProps
import Verif.Near.Props
import Verif.Near.SettleProps
import Verif.Near.TaskProps
import Verif.Pipe.GoneProps
import Verif.Pipe.HandlerProps
import Verif.Pipe.Props
import Verif.Pipe.SettleProps
import Verif.Pipe.TaskProps
import Verif.Race.ClientProps
import Verif.Race.HttpProps
import Verif.Race.ServerProps
import Verif.Race.TransportsProps
import Verif.Reach.AnswerProps
import Verif.Reach.GoneProps
import Verif.Reach.HandlerProps
import Verif.Reach.HeedProps
import Verif.Reach.LiveProps
import Verif.Reach.LostProps
import Verif.Reach.Props
import Verif.Reach.ReturnProps
import Verif.Reach.SettleProps
import Verif.Reach.StreamProps
import Verif.Reach.TaskProps
import Verif.Resource.ChunkProps
import Verif.Resource.ReadProps
import Verif.Resource.TemplateProps
import Verif.Rpc.Props
import Verif.Server.BeatEndProps
import Verif.Server.BeatOffProps
import Verif.Server.BeatOnProps
import Verif.Server.BeatProps
import Verif.Server.BeatStopProps
import Verif.Server.CancelProps
import Verif.Server.CapsProps
import Verif.Server.ContextProps
import Verif.Server.DispatchProps
import Verif.Server.HandshakeProps
import Verif.Server.ItemProps
import Verif.Server.LeftoverProps
import Verif.Server.LimiterProps
import Verif.Server.ListingProps
import Verif.Server.LocalProps
import Verif.Server.NotifyProps
import Verif.Server.RegistryProps
import Verif.Server.SettingsProps
import Verif.Server.StrictProps
import Verif.Server.TaskCallProps
import Verif.Server.TaskFlowProps
import Verif.Server.TaskOriginProps
import Verif.Share.GoneProps
import Verif.Share.Props
import Verif.Share.SettleProps
import Verif.Share.TaskProps
import Verif.SharedMemory.ChannelEndProps
import Verif.SharedMemory.ChannelProps
import Verif.SharedMemory.IdProps
import Verif.SharedMemory.LifeEndProps
import Verif.SharedMemory.LifeProps
import Verif.SharedMemory.Props
import Verif.Stdio.DuplexCaseProps
import Verif.Stdio.DuplexProps
import Verif.Stdio.DuplexSettleProps
import Verif.Stdio.LifeCloseProps
import Verif.Stdio.LifeEndProps
import Verif.Stdio.PendingProps
import Verif.Stdio.ReadProps
import Verif.Stdio.ServeProps
import Verif.Stdio.TimerProps
import Verif.Stdio.WriteProps
import Verif.Sync.Props
import Verif.Task.Props
import Verif.Validation.Props
import Verif.Web.Props
import Verif.Web.SettleProps
import Verif.Web.TaskProps
import Verif.Whole.GoneProps
import Verif.Whole.OnlyProps
import Verif.Whole.Props
import Verif.Whole.SettleProps
import Verif.Whole.TaskProps
import Verif.Ask.Case
import Verif.Ask.GoneCase
import Verif.Ask.TaskCase
import Verif.Back.Case
import Verif.Back.GoneCase
import Verif.Back.SettleCase
import Verif.Back.TaskCase
import Verif.Near.Case
import Verif.Near.GoneCase
import Verif.Pipe.Case
import Verif.Pipe.GoneCase
import Verif.Pipe.SettleCase
import Verif.Pipe.TaskCase
import Verif.Reach.AnswerCase
import Verif.Reach.Case
import Verif.Reach.GoneCase
import Verif.Reach.HeedCase
import Verif.Reach.LiveCase
import Verif.Reach.SettleCase
import Verif.Reach.StreamCase
import Verif.Reach.TaskCase
import Verif.Share.Case
import Verif.Share.GoneCase
import Verif.Share.SettleCase
import Verif.Web.Case
import Verif.Whole.Case
import Verif.Whole.GoneCase
import Verif.Whole.TaskCase
import Verif.Axioms
