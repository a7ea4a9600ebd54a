import Verif.Bigint.Props
import Verif.IntLiteral.Props
import Verif.Base64.Props
import Verif.Base32.Props
import Verif.Hex.Props
import Verif.ByteLiteral.Props
import Verif.Sort.Props
import Verif.DynList.Props
import Verif.Ring.Props
import Verif.PQueue.Props
import Verif.Utf.Props
import Verif.Symtab.Props
import Verif.Tables.Props
import Verif.Vec.Props
import Verif.TaskQueue.Props
import Verif.Arena.Props
import Verif.Pratt.Props
import Verif.ConstCompare.Props
import Verif.Switch.Props
import Verif.Liveness.Props
import Verif.Layout.Props
import Verif.Lexer.Props
import Verif.Json.Props
import Verif.Json.PropsSound
import Verif.Casts.Props
import Verif.Casts.PropsFold
import Verif.Url.Props
import Verif.Str.Props
import Verif.Str.PropsInt
import Verif.HashMap.Props
import Verif.Flow.Props
import Verif.Flow.PropsCodegen
import Verif.ConstInit.Props
import Verif.Bitstruct.Props
import Verif.NameRes.Props
import Verif.Mangle.Props
import Verif.StdMem.Props
import Verif.StdMem.PropsHeap
import Verif.StdMem.PropsPages
import Verif.StdMem.PropsDynamic
import Verif.StdMem.PropsOnStack
import Verif.I128Rt.Props
import Verif.I128Rt.PropsFloat
import Verif.BigNum.Props
import Verif.BigNum.PropsInit
import Verif.BigNum.PropsBit
import Verif.BigNum.PropsMul
import Verif.BigNum.PropsShift
import Verif.BigNum.PropsDiv
import Verif.BigNum.PropsGcd
import Verif.BigNum.PropsString
import Verif.BigNum.PropsSqrt
import Verif.Chan.Props
import Verif.Chan.PropsUnbuffered
import Verif.PathStd.Props
import Verif.Hash.PropsSha256
import Verif.Hash.PropsSha1
import Verif.Hash.PropsMd5
import Verif.Hash.PropsHmac
import Verif.Checksum.Props
import Verif.Rc4.Props
import Verif.Bits.Props
import Verif.Qoi.Props
import Verif.Fmt.Props
import Verif.Fmt.PropsRead
import Verif.Sets.Props
import Verif.Inet.Props
import Verif.Time.Props
import Verif.Time.PropsCalc
import Verif.Abi.Props
import Verif.Linked.Props
import Verif.Pool.Props
import Verif.Stream.Props
import Verif.Stream.PropsScan
import Verif.Stream.PropsWrite
import Verif.Stream.PropsCodec
import Verif.Stream.PropsVar
import Verif.FmtCheck.Props
import Verif.CallArgs.Props
import Verif.DString.Props
import Verif.Range.Props
import Verif.Elastic.Props
import Verif.Slice2d.Props
import Verif.Random.Props
import Verif.StdJson.Props
import Verif.Csv.Props
import Verif.DynList.PropsRemoveAll
import Verif.RandGen.Props
import Verif.RandGen.PropsMsws
