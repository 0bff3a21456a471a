import Verif.Basic
import Verif.Buf
import Verif.BufOwn
import Verif.Vector.Model
import Verif.Vector.Lemmas
import Verif.Vector.Spec
import Verif.Vector.Props
import Verif.Vector.OwnProps
import Verif.Vector.Reloc
import Verif.Vector.RelocProps
import Verif.Array.Model
import Verif.Array.Lemmas
import Verif.Array.Props
import Verif.Vector.Exact
import Verif.Array.OwnProps
import Verif.Circular.Iterator
import Verif.Circular.IteratorProps
import Verif.Circular.IteratorExact
import Verif.Circular.Model
import Verif.Circular.Lemmas
import Verif.Circular.Props
import Verif.Circular.DestroyExact
import Verif.List.Model
import Verif.List.Lemmas
import Verif.List.Lemmas2
import Verif.List.Lemmas3
import Verif.List.Lemmas4
import Verif.List.Spec
import Verif.List.Props
import Verif.List.CopyExact
import Verif.List.ExactProps
import Verif.List.ReleaseExact
import Verif.List.EndsProps
import Verif.List.OwnProps
import Verif.Raw
import Verif.String.Model
import Verif.String.Lemmas
import Verif.String.Spec
import Verif.String.Props
import Verif.String.CopyExact
import Verif.String.HistExact
import Verif.String.Own
import Verif.String.OwnProps
import Verif.Hybrid.Model
import Verif.Hybrid.Spec
import Verif.Hybrid.Props
import Verif.Hybrid.OwnProps
import Verif.Hybrid.Copies
import Verif.Hybrid.CopiesProps
import Verif.Hybrid.Iter
import Verif.Hybrid.IterProps
import Verif.Hybrid.Exact
import Verif.Hybrid.CostProps
import Verif.Bytes.Model
import Verif.Bytes.Spec
import Verif.Bytes.Serial
import Verif.Bytes.Lemmas
import Verif.Bytes.Props
import Verif.Bytes.Transport
import Verif.Bytes.TransportProps
import Verif.Bytes.TransportNet
import Verif.Range.Props
import Verif.Crypto.AttrProps
import Verif.Numbers.ToString
import Verif.Numbers.ToStringProps
import Verif.Numbers.WideInt
import Verif.Numbers.WideIntProps
import Verif.Numbers.Exact
import Verif.Net.Ipv4
import Verif.Net.Ipv4Props
import Verif.Own.Spec
import Verif.Own.Unique
import Verif.Own.UniqueProps
import Verif.Own.Shared
import Verif.Own.SharedProps
import Verif.Own.Socket
import Verif.Own.SocketProps
import Verif.Own.SocketExact
import Verif.Own.Native
import Verif.Own.NativeProps
import Verif.Own.Book
import Verif.Own.NativeExact
import Verif.Own.Symbols
import Verif.Own.SymbolsProps
import Verif.Own.PkMutex
import Verif.Own.PkMutexProps
import Verif.Life.Held
import Verif.Life.Variant
import Verif.Life.VariantProps
import Verif.Life.ExpectedVar
import Verif.Life.ExpectedVarProps
import Verif.Life.ExpectedCom
import Verif.Life.ExpectedComProps
import Verif.Life.Optional
import Verif.Life.OptionalProps
import Verif.Life.Object
import Verif.Life.ObjectProps
import Verif.Life.ObjectTest
import Verif.Conc.Atomic
import Verif.Conc.Locked
import Verif.Conc.Counter
import Verif.Conc.CounterProps
import Verif.Conc.Queue
import Verif.Conc.QueueProps
import Verif.Conc.Registrar
import Verif.Conc.Race
import Verif.Conc.RaceProps
import Verif.Conc.RegistrarProps
import Verif.Conc.RegistrarMem
import Verif.Conc.RegistrarMemProps
import Verif.Conc.LateInit
import Verif.Conc.Signal
import Verif.Conc.UniqueLocker
import Verif.Conc.SemaLocker
import Verif.Conc.SemaLockerProps
import Verif.Conc.LockerProps
import Verif.Conc.LockerExact
import Verif.Conc.CondVar
import Verif.Conc.CondVarProps
import Verif.Conc.CondLifeProps
import Verif.Conc.CondOwner
import Verif.Conc.CondOwnerProps
import Verif.Stream.RamProps
import Verif.Stream.SplitProps
import Verif.Stream.Shared
import Verif.Stream.SharedProps
import Verif.Stream.SplitExact
import Verif.Stream.WriterProps
import Verif.Stream.FileOwnProps
import Verif.Stream.FileExact
import Verif.Stream.PipeProps
import Verif.Stream.PipeCircular
import Verif.Utils.CompareProps
import Verif.Utils.Align
import Verif.Utils.AlignProps
import Verif.Utils.BitsProps
import Verif.Utils.AlgoProps
import Verif.Utils.LibPathProps
import Verif.Own.ThreadProps
import Verif.Own.ThreadExact
import Verif.Os.StatusProps
import Verif.Net.SockAddrProps
import Verif.Net.TcpProps
import Verif.Net.UdpProps
import Verif.Net.Status
import Verif.Net.StatusProps
import Verif.Net.EventsProps
import Verif.Net.Catch
import Verif.Net.CatchProps
import Verif.Net.CatchExact
import Verif.Crypto.LibraryProps
import Verif.Crypto.LibraryExact
import Verif.Crypto.SharedProps
import Verif.Own.Statics
import Verif.Own.StaticsProps
import Verif.Crypto.Several
import Verif.Crypto.SeveralProps
import Verif.Crypto.SlotProps
import Verif.Crypto.Lifetime
import Verif.Crypto.LifetimeProps
import Verif.Crypto.ArgsProps
import Verif.Crypto.MutexCbProps
import Verif.Crypto.Section
import Verif.Crypto.SectionProps
import Verif.Crypto.SoftTokenProps
import Verif.Crypto.StructsProps
import Verif.Numbers.AsIntegralProps
import Verif.Numbers.ByteOpsProps
import Verif.Numbers.IntIterProps
import Verif.Alloc.Props
import Verif.Alloc.Exact
import Verif.String.Memory
import Verif.Alloc.Exhaust
import Verif.Alloc.ExhaustProps
import Verif.Alloc.Blocks
import Verif.Alloc.BlocksProps
import Verif.Life.HoldersProps
import Verif.Utils.TypeListProps
import Verif.Utils.ForwardProps
import Verif.Own.Named
import Verif.Stream.FifoProps
import Verif.Win.Spin
import Verif.Win.SpinProps
import Verif.Win.Mutex
import Verif.Win.MutexProps
import Verif.Win.Sema
import Verif.Win.SemaProps
import Verif.Win.Thread
import Verif.Win.ThreadProps
import Verif.Win.ThreadExact
import Verif.Win.Events
import Verif.Win.EventsProps
import Verif.Win.CatcherProps
import Verif.Win.Pipe
import Verif.Win.PipeProps
import Verif.Win.Rendezvous
import Verif.Win.RendezvousProps
import Verif.Win.Socket
import Verif.Win.SocketProps
import Verif.Win.Startup
import Verif.Win.StartupProps
import Verif.Win.WindowProps
import Verif.Win.Net
import Verif.Win.NetProps
import Verif.Win.FileStream
import Verif.Win.FileStreamProps
import Verif.Net.Address
import Verif.Net.AddressProps
import Verif.Circular.Vector
import Verif.Circular.VectorProps
import Verif.Circular.VectorIter
import Verif.Crypto.SoftTable
import Verif.Crypto.CkSpec
import Verif.Crypto.SoftDispatch
import Verif.Crypto.SoftDispatchProps
import Verif.Array.Reverse
import Verif.Array.ReverseProps
import Verif.Crypto.EnumTable
import Verif.Crypto.Enums
import Verif.Crypto.EnumsProps
import Verif.Notify.Model
import Verif.Notify.Props
import Verif.Crypto.Mechanism
import Verif.Crypto.MechanismProps
import Verif.Builder.Model
import Verif.Builder.Props
import Verif.Utils.TypeMod
import Verif.Utils.TypeModProps
import Verif.Utils.SpecialProps
import Verif.Own.Truth
import Verif.Own.TruthProps
import Verif.Life.Reentrant
import Verif.Life.ReentrantProps
import Verif.Net.Flow
import Verif.Net.FlowProps
import Verif.Net.StaleProps
import Verif.Net.DispositionProps
import Verif.Conc.ThreadLife
import Verif.Conc.ThreadLifeProps
import Verif.Os.Errno
import Verif.Os.ErrnoProps
import Verif.Ubjson.TableProps
import Verif.Ubjson.Held
import Verif.Ubjson.HeldProps
import Verif.Stream.PipeNameProps
import Verif.List.Stable
import Verif.Vector.Room
import Verif.String.Room
import Verif.String.Cost
import Verif.Vector.Throw
import Verif.Vector.ThrowProps
import Verif.List.ThrowProps
import Verif.Vector.Cost
import Verif.Vector.Bytes
import Verif.Net.DgramProps
import Verif.Win.LockedProps
import Verif.Vector.Tally
import Verif.Vector.TallyLemmas
import Verif.Vector.TallyProps
import Verif.Array.Tally
import Verif.Array.TallyLemmas
import Verif.Array.TallyProps
import Verif.Hybrid.Tally
import Verif.Hybrid.TallyLemmas
import Verif.Hybrid.TallyProps
import Verif.Hybrid.Memory
import Verif.Life.SelfAssign
import Verif.Life.Reuse
import Verif.String.Bytes
import Verif.String.BytesProps
import Verif.Os.NoMemory
import Verif.Os.NoMemoryProps
import Verif.Iter.StackProps
import Verif.Iter.ReadProps
import Verif.Vector.ElemProps
import Verif.Vector.ElemGeneric
import Verif.Array.ElemProps
import Verif.Vector.ElemSize
import Verif.Vector.Nested
import Verif.Vector.OwnVec
import Verif.Hybrid.ElemModel
import Verif.Hybrid.ElemProps
import Verif.Life.ElemHold
import Verif.Life.ElemHoldProps
import Verif.List.ElemModel
import Verif.List.ElemProps
import Verif.Circular.ElemModel
import Verif.Circular.ElemProps
import Verif.List.ElemExact
import Verif.Array.OwnArr
import Verif.Circular.OwnRing
import Verif.Hybrid.OwnHyb
import Verif.Vector.ShareVec
