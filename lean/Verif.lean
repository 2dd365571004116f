import Verif.Base64.Props
import Verif.Lru.Props
import Verif.Fenwick.Props
import Verif.Intern.Props
import Verif.Kmp.Props
import Verif.StrAlg.Props
import Verif.StrUtil.Props
import Verif.Optional.Props
import Verif.Ustring.Props
import Verif.Code.Props
import Verif.Config.Props
import Verif.Md5.Props
import Verif.Serial.Props
import Verif.Sparse.Props
import Verif.Mutex.Props
import Verif.Monitor.Props
import Verif.Mvar.Props
import Verif.Pcbuf.Props
import Verif.Qsem.Props
import Verif.Chan.Props
import Verif.RwMutex.Props
import Verif.Thread.Props
import Verif.Endian.Props
import Verif.Clock.Props
import Verif.Sampling.Props
import Verif.Ratio.Props
import Verif.Mt.Props
import Verif.Fft.Props
import Verif.Csv.Props
import Verif.Xhtml.Props
import Verif.Json.Props
import Verif.JsonEq.Props
import Verif.JsonCast.Props
import Verif.JsonCast.PropsNum
import Verif.UriCode.Props
import Verif.Ipv4.Props
import Verif.Uri.Props
import Verif.Dns.Props
import Verif.Socket.Props
import Verif.Http.Props
import Verif.Cgi.Props
import Verif.RpcStop.Props
import Verif.Rpc.Props
import Verif.Mprpc.Props
import Verif.AhoCorasick.Props
import Verif.Lexical.Props
import Verif.HttpMsg.Props
import Verif.CgiServer.Props
import Verif.HttpStream.Props
import Verif.Calendar.Props
import Verif.Sql.Props
import Verif.Transact.Props
import Verif.Postgres.Props
import Verif.Mysql.Props
import Verif.JsonArchive.Props
import Verif.Any.Props
import Verif.Mmapper.Props
import Verif.MathVec.Props
import Verif.MathVec.PropsNum
import Verif.Locks.Props
import Verif.SockStream.Props
import Verif.Descr.Props
import Verif.Reflect.Props
import Verif.MpServer.Props
import Verif.Page.Props
import Verif.Sysstat.Props
import Verif.Sysstat.PropsLoad
import Verif.CgiRun.Props
import Verif.ServerOpts.Props
import Verif.SharedPtr.Props
import Verif.JsonDoc.Props
import Verif.Double.Props
import Verif.Duration.Props
import Verif.FloatText.Props
import Verif.RandReal.Props
import Verif.CsvIter.Props
import Verif.DbConnect.Props
import Verif.RpcFault.Props
import Verif.LexFloat.Props
import Verif.PgFloat.Props
import Verif.GenPhp.Props
import Verif.GenHs.Props
import Verif.TmpStream.Props
import Verif.Genrpc.Props
import Verif.JsonPos.Props
import Verif.Serial.PropsCost
import Verif.SparseFile.Props
import Verif.UText.Props
import Verif.SockStream.PropsLarge
import Verif.Descr.PropsCopy
import Verif.Socket.PropsCopy
import Verif.JsonCast.PropsInto
import Verif.CodeFile.Props
import Verif.Md5.PropsTable
import Verif.Fft.PropsFloat
import Verif.Ratio.PropsAssign
import Verif.LruRef.Props
import Verif.Fft.PropsFloat2
import Verif.Fft.PropsRefuse
import Verif.Reflect.PropsStreams
import Verif.RpcPool.Props
import Verif.RpcNest.Props
import Verif.RpcNest.PropsMany
import Verif.CgiServer.PropsPool
import Verif.MpNest.Props
