import Verif.Cisco.Access
import Verif.Cisco.Model

/-! # Model of the NXOS vPC domain line (`NXOSvPCLine`)

models_nxos.py:1777-1918.  The line is object `i` of the configuration `P`, parsed with
`syntax='nxos', factory=True`. -/

namespace Nxos.Domain

open Py Conf Query Re Cisco

/-- models_nxos.py:1791-1796 `vpc_domain_id` of the line `t`; the default is `str(-1)`. -/
def vpcDomainId (t : Str) : Except Err Str := matchTyped t "^vpc\\s+domain\\s+(\\d+)$" 1 toStr "-1".toList

/-- models_nxos.py:1798-1803 `vpc_role_priority`. -/
def vpcRolePriority (P : Parsed) (i : Nat) : Except Err Int := iterTyped P i "^\\s+role\\s+priority\\s+(\\d+)" 1 toInt (-1)

/-- models_nxos.py:1805-1810 `vpc_system_priority`. -/
def vpcSystemPriority (P : Parsed) (i : Nat) : Except Err Int := iterTyped P i "^\\s+system-priority\\s+(\\d+)" 1 toInt (-1)

/-- models_nxos.py:1812-1817 `vpc_system_mac`. -/
def vpcSystemMac (P : Parsed) (i : Nat) : Except Err Str := iterTyped P i "^\\s+system-mac\\s+(\\S+)" 1 toStr []

/-- models_nxos.py:1819-1824 `has_peer_config_check_bypass`. -/
def hasPeerConfigCheckBypass (P : Parsed) (i : Nat) : Except Err Bool :=
  iterTyped P i "^\\s+(peer-config-check-bypass)" 1 toBool false

/-- models_nxos.py:1826-1831 `has_peer_switch`. -/
def hasPeerSwitch (P : Parsed) (i : Nat) : Except Err Bool := iterTyped P i "^\\s+(peer-switch)" 1 toBool false

/-- models_nxos.py:1833-1838 `has_layer3_peer_router`. -/
def hasLayer3PeerRouter (P : Parsed) (i : Nat) : Except Err Bool := iterTyped P i "^\\s+(layer3\\s+peer-router)" 1 toBool false

/-- models_nxos.py:1840-1845 `has_peer_gateway`. -/
def hasPeerGateway (P : Parsed) (i : Nat) : Except Err Bool := iterTyped P i "^\\s+(peer-gateway)" 1 toBool false

/-- models_nxos.py:1847-1852 `has_auto_recovery`. -/
def hasAutoRecovery (P : Parsed) (i : Nat) : Except Err Bool := iterTyped P i "^\\s+(auto-recovery)" 1 toBool false

/-- models_nxos.py:1854-1860 `vpc_auto_recovery_reload_delay`. -/
def vpcAutoRecoveryReloadDelay (P : Parsed) (i : Nat) : Except Err Int :=
  iterTyped P i "^\\s+auto-recovery\\s+reload-delay\\s+(\\d+)" 1 toInt (-1)

/-- models_nxos.py:1862-1867 `has_ip_arp_synchronize`. -/
def hasIpArpSynchronize (P : Parsed) (i : Nat) : Except Err Bool := iterTyped P i "(ip\\s+arp\\s+synchronize)" 1 toBool false

/-- models_nxos.py:1906-1917: the dictionary of `vpc_peer_keepalive`. -/
structure Keepalive where
  destination : Str
  holdTimeout : Int
  interval : Int
  timeout : Int
  precedence : Str
  source : Str
  tos : Str
  tosByte : Int
  udpPort : Int
  vrf : Str
deriving DecidableEq

/-- models_nxos.py:1869-1918 `vpc_peer_keepalive`. -/
def vpcPeerKeepalive (P : Parsed) (i : Nat) : Except Err Keepalive := do
  let dest ← iterTyped P i "peer-keepalive\\s+.*?destination\\s+(\\d+\\.\\d+\\.\\d+\\.\\d+)" 1 toStr []
  let holdTimeout ← iterTyped P i "peer-keepalive\\s+.*?hold-timeout\\s+(\\d+)" 1 toInt (-1)
  let interval ← iterTyped P i "peer-keepalive\\s+.*?interval\\s+(\\d+)" 1 toInt (-1)
  let timeout ← iterTyped P i "peer-keepalive\\s+.*?timeout\\s+(\\d+)" 1 toInt (-1)
  let prec ← iterTyped P i "peer-keepalive\\s+.*?precedence\\s+(\\S+)" 1 toStr []
  let source ← iterTyped P i "peer-keepalive\\s+.*?source\\s+(\\d+\\.\\d+\\.\\d+\\.\\d+)" 1 toStr []
  let tos ← iterTyped P i "peer-keepalive\\s+.*?tos\\s+(\\S+)" 1 toStr []
  let tosByte ← iterTyped P i "peer-keepalive\\s+.*?tos-byte\\s+(\\S+)" 1 toInt (-1)
  let udpPort ← iterTyped P i "peer-keepalive\\s+.*?udp-port\\s+(\\d+)" 1 toInt (-1)
  let vrf ← iterTyped P i "peer-keepalive\\s+.*?vrf\\s+(\\S+)" 1 toStr []
  .ok { destination := dest, holdTimeout := holdTimeout, interval := interval, timeout := timeout, precedence := prec,
        source := source, tos := tos, tosByte := tosByte, udpPort := udpPort, vrf := vrf }

end Nxos.Domain
