import Verif.Common
import Verif.StopSource.Props
import Verif.Count
import Verif.Bulk.Share
import Verif.Bulk.PoolProps
import Verif.IQueue.Props
import Verif.Env.Props
import Verif.Heap.Props
import Verif.Sender.Props
import Verif.AtomicQueue.Props
import Verif.RunLoop.Props
import Verif.Mpsc.Props
import Verif.StopWhen.Props
import Verif.WhenAll.Props
import Verif.WhenAny.Props
import Verif.Scope.Props
import Verif.Scope.Bits
import Verif.SpawnFuture.Props
import Verif.Shared.Props
import Verif.SList.Props
import Verif.AsyncScope.Props
import Verif.SyncWait.Props
import Verif.AsyncFuture.Props
import Verif.Trampoline.Props
import Verif.Variant.Props
import Verif.Sequence.IterateProps
import Verif.Sequence.IgnoreAllProps
import Verif.Timed.Props
import Verif.Bwos.Props
import Verif.PoolSleep.Props
import Verif.StopSource.Progress
import Verif.AtomicQueue.Progress
import Verif.RunLoop.Progress
import Verif.PoolSleep.Progress
import Verif.MergeEach.Props
import Verif.IntrusivePtr.Props
import Verif.Pool.Props
import Verif.AnyBox.Props
import Verif.Awaiter.Props
import Verif.Task.Props
import Verif.Uring.Props
import Verif.UringOp.Props
import Verif.Associate.Props
import Verif.Coro.Props
import Verif.Asio.Props
import Verif.ParSched.Props
import Verif.Backend.Props
import Verif.ParOp.Props
import Verif.WinPool.Props
import Verif.StartNow.Props
import Verif.Detached.Props
import Verif.ConnAwait.Props
import Verif.AnySender.Props
import Verif.PoolBase.Props
import Verif.Dispatch.Props
import Verif.MemRes.Props
import Verif.Canon.Props
import Verif.ForkJoin.Props
import Verif.Place.Witness
import Verif.NvMem.Props
import Verif.NvQueue.Props
import Verif.NvBulk.Props
import Verif.NvWhenAll.Props
import Verif.NvEnsure.Props
import Verif.NvSplit.Props
import Verif.NvSyncWait.Props
import Verif.NvRepeat.Props
import Verif.NvStreams.Props
import Verif.NvChain.Props
import Verif.Deadline.Props
import Verif.Xorshift.Props
import Verif.SchedAll.Props
import Verif.WmWhenAll.Props
import Verif.WmRefs.Props
import Verif.WmStop.Props
import Verif.WmQueue.Props
import Verif.WmMpsc.Progress
import Verif.WmAwait.Props
import Verif.WmLoop.Props
import Verif.WmScope.Props
import Verif.Numa.Props
import Verif.Domain.Props
import Verif.Owned.Props
import Verif.IoRing.Props
import Verif.NvLet.Props
import Verif.NvTransfer.Props
import Verif.Holder.Props
import Verif.Create.Props
import Verif.MultiGpu.Props
import Verif.NvReduce.Props
import Verif.ConnectCpo.Props
import Verif.Pipe.Props
import Verif.NvVariant.Props
import Verif.Nvtx.Props
