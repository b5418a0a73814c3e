import Verif.Py
import Verif.PyLemmas
import Verif.IP.Model
import Verif.IP.Spec
import Verif.IP.Lemmas
import Verif.IP.Invariant
import Verif.IP.Props
import Verif.IP.Text6
import Verif.IP.Text6Lemmas
import Verif.IP.Spec6
import Verif.IP.Text6Forms
import Verif.IP.Text6Sound
import Verif.IP.Text6Quad
import Verif.IP.Text6Props
import Verif.IP.Views
import Verif.IP.ViewsLemmas
import Verif.IP.ViewsProps
import Verif.Range.Model
import Verif.Range.Spec
import Verif.Range.Lemmas
import Verif.Range.Props
import Verif.Misc.L4Pass
import Verif.Misc.Words
import Verif.Misc.Spec
import Verif.Misc.Lemmas
import Verif.Misc.Props
import Verif.Conf.Model
import Verif.Conf.Spec
import Verif.Conf.Lemmas
import Verif.Conf.Passes
import Verif.Conf.Braces
import Verif.Conf.Final
import Verif.Conf.Tree
import Verif.Conf.Props
import Verif.Conf.Thin
import Verif.Conf.Reparse
import Verif.Conf.File
import Verif.Conf.FileLemmas
import Verif.Conf.FileProps
import Verif.Query.Props
import Verif.Query.More
import Verif.Query.Text
import Verif.Query.TextSpec
import Verif.Query.TextLemmas
import Verif.Query.TextProps
import Verif.Query.Required
import Verif.Query.RequiredLemmas
import Verif.Query.RequiredProps
import Verif.Edit.Model
import Verif.Edit.Spec
import Verif.Edit.Lemmas
import Verif.Edit.Inv
import Verif.Edit.Insert
import Verif.Edit.Props
import Verif.Edit.More
import Verif.Edit.Extra
import Verif.Junos.Model
import Verif.Junos.Spec
import Verif.Junos.Lemmas
import Verif.Junos.Tree
import Verif.Junos.Props
import Verif.Intf.Model
import Verif.Intf.Spec
import Verif.Intf.Lemmas
import Verif.Intf.Names
import Verif.Intf.Order
import Verif.Intf.Props
import Verif.Intf.Ranges
import Verif.Intf.RangeProps
import Verif.Vlan.Model
import Verif.Vlan.Spec
import Verif.Vlan.Lemmas
import Verif.Vlan.Sets
import Verif.Vlan.Props
import Verif.Diff.Model
import Verif.Diff.Spec
import Verif.Diff.Text
import Verif.Diff.Mark
import Verif.Diff.Out
import Verif.Diff.Norm
import Verif.Diff.Result
import Verif.Diff.Props
import Verif.Diff.SyncProps
import Verif.Re.Syntax
import Verif.Re.Match
import Verif.Re.Det
import Verif.Re.Words
import Verif.Re.Shapes
import Verif.Cisco.Typed
import Verif.Cisco.Model
import Verif.Cisco.Spec
import Verif.Cisco.Lemmas
import Verif.Cisco.Attr
import Verif.Cisco.Tails
import Verif.Cisco.Props
import Verif.Cisco.WordProps
import Verif.Cisco.AddrProps
import Verif.Cisco.SwitchProps
import Verif.Cisco.HsrpProps
import Verif.Re.Hit
import Verif.Cisco.Factory
import Verif.Cisco.FactoryLemmas
import Verif.Cisco.FactoryProps
import Verif.Cisco.RouteLemmas
import Verif.Cisco.RouteProps
import Verif.Re.Lang
import Verif.Re.Lazy
import Verif.Re.Caps
import Verif.Cisco.Access
import Verif.Cisco.AccessLemmas
import Verif.Cisco.AccessProps
import Verif.Cisco.KindProps
import Verif.Cisco.NameProps
import Verif.Cisco.Find
import Verif.Cisco.FindProps
import Verif.Intf.XRModel
import Verif.Intf.XRLemmas
import Verif.Intf.XRProps
import Verif.Asa.Model
import Verif.Asa.Spec
import Verif.Asa.Lemmas
import Verif.Asa.DictProps
import Verif.Asa.GroupLemmas
import Verif.Asa.ClassProps
import Verif.Asa.GroupProps
import Verif.Edit.Fresh
import Verif.Edit.ListModel
import Verif.Edit.ListProps
import Verif.Edit.ListMore
import Verif.Edit.ListTop
import Verif.Asa.PortLemmas
import Verif.Asa.PortProps
import Verif.Re.Must
import Verif.Re.Tok
import Verif.Re.Head
import Verif.Asa.AclProps
import Verif.Junos.Intf
import Verif.Junos.IntfProps
import Verif.Cisco.HsrpGroup
import Verif.Cisco.HsrpGroupProps
import Verif.Cisco.HsrpTrack
import Verif.Nxos.Model
import Verif.Nxos.Tails
import Verif.Nxos.Props
import Verif.Nxos.AddrProps
import Verif.Nxos.HelperProps
import Verif.Nxos.TrunkProps
import Verif.Nxos.HsrpProps
import Verif.Nxos.MiscProps
import Verif.Aaa.Model
import Verif.Aaa.Lemmas
import Verif.Aaa.Props
import Verif.Aaa.Fields
import Verif.Aaa.AcctProps
import Verif.Aaa.GroupProps
import Verif.Re.Free
import Verif.Nxos.Domain
import Verif.Nxos.DomainProps
import Verif.Nxos.KeepaliveProps
import Verif.Nxos.Lines
import Verif.Nxos.RouteProps
import Verif.Nxos.FactoryProps
import Verif.Intf.State
import Verif.Intf.StateProps
import Verif.IP.Collapse
import Verif.IP.CollapseSpec
import Verif.IP.CollapseLemmas
import Verif.IP.CollapseProps
import Verif.Cisco.Subnet
import Verif.Cisco.SubnetProps
import Verif.Cisco.SecondaryProps
import Verif.Re.Lead
import Verif.Cisco.Addr6
import Verif.Cisco.Addr6Props
import Verif.Asa.Intf
import Verif.Asa.IntfProps
import Verif.Asa.FlagProps
import Verif.Range.Seq
import Verif.Range.SeqProps
import Verif.Xr.Intf
import Verif.Xr.AddrProps
import Verif.Xr.NameProps
import Verif.Xr.FlagProps
import Verif.Query.Family
import Verif.Nxos.Names
import Verif.Nxos.NameProps
import Verif.Cisco.HsrpEq
import Verif.Misc.Tools
import Verif.Misc.CcpRe
import Verif.Diff.Inputs
import Verif.Intf.XRState
import Verif.Query.Local
import Verif.Cisco.Local
import Verif.Nxos.Local
import Verif.Xr.Local
import Verif.Asa.Local
import Verif.Query.Compose
import Verif.Edit.Block
import Verif.Edit.Undo
import Verif.IP.Mixed
import Verif.Intf.Typed
import Verif.Query.HashKids
import Verif.Diff.Word
import Verif.Query.Blocks
import Verif.Diff.Blocks
import Verif.Diff.Mirror
import Verif.Edit.Commute
import Verif.Edit.Reparse
import Verif.Diff.Apply
import Verif.Query.Names
import Verif.IP.Packed
import Verif.Diff.Enter
import Verif.Diff.Choose
import Verif.Diff.Under
import Verif.Query.Layout
import Verif.Conf.Init
import Verif.Edit.Raise
import Verif.Conf.Options
import Verif.Edit.Child
import Verif.Edit.Adopt
import Verif.Edit.Prune
import Verif.Edit.Reshape
import Verif.Edit.Prefix
import Verif.Edit.Last
import Verif.Edit.Written
import Verif.Query.Walk
import Verif.Edit.Cut
import Verif.Edit.Grow
import Verif.Edit.Before
import Verif.IP.Repr
import Verif.Edit.ListOps
import Verif.IP.Offset6
import Verif.Edit.Subtree
import Verif.Edit.Compare
import Verif.Intf.Repr
import Verif.Asa.Hostname
import Verif.Cisco.Reset
import Verif.Cisco.Route6Lemmas
import Verif.Cisco.Route6
import Verif.Nxos.Route6
import Verif.Nxos.Route6Vrf
import Verif.Edit.Reset
import Verif.Misc.Braces
import Verif.Misc.DiffArgs
import Verif.Edit.InsertArgs
import Verif.Range.AttrSort
import Verif.IP.Tunnels
