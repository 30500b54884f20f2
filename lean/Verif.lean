import Verif.Base
import Verif.SshBuf.Props
import Verif.SshBuf.HeapProps
import Verif.Match.Props
import Verif.Addr.Props
import Verif.Addr.Scan
import Verif.Bitmap.Props
import Verif.Krl.Props
import Verif.Kex.Props
import Verif.Kex.Keys
import Verif.Kex.Names
import Verif.Packet.Toy
import Verif.Chan.Deliver
import Verif.Chan.Table
import Verif.Permit.Props
import Verif.Auth.Props
import Verif.KeyOpts.Values
import Verif.Access.Props
import Verif.KeyOpts.Principals
import Verif.Monitor.Props
import Verif.Startup.Penalties
import Verif.Startup.Slots
import Verif.Startup.Props
import Verif.Agent.Toy
import Verif.Startup.Exits
import Verif.Misc.IoProps
import Verif.Misc.ArgvProps
import Verif.Misc.TimeProps
import Verif.Misc.ExpandProps
import Verif.Exch.Model
import Verif.Exch.Spec
import Verif.Exch.Strict
import Verif.Exch.Hash
import Verif.Exch.Record
import Verif.Exch.Invariant
import Verif.Exch.Steps
import Verif.Exch.Props
import Verif.Exch.Examples
import Verif.Hostfile.Replace
import Verif.Misc.Base64Props
import Verif.Crypto.ChaChaProps
import Verif.Misc.TtyProps
import Verif.Scp.Props
import Verif.Scp.Brace
import Verif.Sig.Props
import Verif.Sig.Allowed
import Verif.PrivKey.Props
import Verif.Sftp.Honest
import Verif.Sftp.Tree
import Verif.Conf.Props
import Verif.Conf.Keywords
import Verif.Conf.Detail
import Verif.SrvConf.Examples
import Verif.SrvConf.Keywords
import Verif.HostKey.Examples
import Verif.HostKey.Strict
import Verif.HostKey.Address
import Verif.HostKey.UpdateProps
import Verif.Dh.Examples
import Verif.Banner.Examples
import Verif.Curve25519.Examples
import Verif.PubKey.Examples
import Verif.Dyn.Examples
import Verif.UserKey.Examples
import Verif.HostBased.Examples
import Verif.Show.Examples
import Verif.Session.Examples
import Verif.CliAuth.Examples
import Verif.Sandbox.Examples
import Verif.Uid.Examples
import Verif.Loop.Examples
import Verif.Dns.Examples
import Verif.Target.Examples
import Verif.Mux.Examples
import Verif.Proxy.Examples
import Verif.Proxy.Answers
import Verif.Pace.Examples
import Verif.Listen.Examples
import Verif.HostAlg.Examples
import Verif.Finger.Examples
import Verif.Handover.Examples
import Verif.Issue.Examples
import Verif.Cookie.Examples
import Verif.Cookie.Screen
import Verif.Issue.TimesExamples
import Verif.Argv.Examples
import Verif.Operand.Examples
import Verif.Kdf.Examples
import Verif.Shield.Examples
import Verif.Hmac.Examples
