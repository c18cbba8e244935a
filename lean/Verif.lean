import Verif.Props.CircBuf
import Verif.Props.Buffer
import Verif.Props.Codec
import Verif.Props.Args
import Verif.Props.LList
import Verif.Props.CntStr
import Verif.Props.Crc
import Verif.Props.Time
import Verif.Props.Telnet
import Verif.Props.Msgdelim
import Verif.Props.Kiss
import Verif.Props.Hdlc
import Verif.Props.HdlcTab
import Verif.Props.HdlcTx
import Verif.Props.Xlt
import Verif.Props.Ratelimit
import Verif.Props.Chardelay
import Verif.Props.Ax25Addr
import Verif.Props.Convcode
import Verif.Props.ConvE2E
import Verif.Props.ConvBlock
import Verif.Props.Relpkt
import Verif.Props.MuxId
import Verif.Props.MuxFrame
import Verif.Props.MuxPair
import Verif.Props.MuxBad
import Verif.Props.MuxHdr
import Verif.Props.MuxLive
import Verif.Props.MuxWake
import Verif.Props.MuxIso
import Verif.Props.MuxCount
import Verif.Props.Heap
import Verif.Props.MuxRoom
import Verif.Props.Selector
import Verif.Props.SelectorWake
import Verif.Props.Seriallock
import Verif.Props.SyncIo
import Verif.Props.SyncAcc
import Verif.Props.Base
import Verif.Props.SelFd
import Verif.Props.LlFd
import Verif.Props.Pparm
import Verif.Props.Certauth
import Verif.Props.Ax25
import Verif.Props.Ax25Pair
import Verif.Props.Ax25Wire
import Verif.Props.Ax25Timer
import Verif.Props.Keepopen
import Verif.Props.Acc
import Verif.Props.Dgram
import Verif.Props.Rfc2217
import Verif.Props.TelnetFilt
import Verif.Props.Echo
import Verif.Props.FileIo
import Verif.Props.AddrInfo
import Verif.Props.Conacc
import Verif.Props.Defaults
import Verif.Props.Ssl
import Verif.Props.Ll2
import Verif.Props.Perf
import Verif.Props.Trace
import Verif.Props.Script
import Verif.Props.Stdio
import Verif.Props.StdioLife
import Verif.Props.Dummy
import Verif.Props.StdioAcc
import Verif.Props.SerModem
import Verif.Props.Acontrol
import Verif.Props.SerConf
import Verif.Props.SerSpeed
import Verif.Props.Memtrack
import Verif.Props.Errtrig
