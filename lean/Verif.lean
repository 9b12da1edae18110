import Verif.Props.PathEsc
import Verif.Props.Path
import Verif.Props.Options
import Verif.Props.Collection
import Verif.Props.DTypeTree
import Verif.Props.Dispatch
import Verif.Props.Storage
import Verif.Props.Strings
import Verif.Props.Complex
import Verif.Props.Attrs
import Verif.Props.RoundTrip
import Verif.Props.File
import Verif.Props.Open
import Verif.Props.Threads
import Verif.Props.Local
import Verif.Props.ReadOpts
import Verif.Props.Refs
import Verif.Props.Dict
import Verif.Props.Mat
import Verif.Props.Matlab
import Verif.Props.Struct
import Verif.Props.MatStruct
import Verif.Props.Progress
import Verif.Props.Overwrite
import Verif.Props.RefsValid
import Verif.Props.MatFile
import Verif.Props.Root
import Verif.Props.AttrTable
import Verif.Props.Layout
import Verif.Props.MatRead
import Verif.Props.MatAgain
import Verif.Props.Copy
import Verif.Props.Limit
import Verif.Props.Members
import Verif.Props.Text
import Verif.Props.Mapping
import Verif.Props.OldTypes
import Verif.Props.DtypeStr
import Verif.Props.PurePath
import Verif.Props.Shared
import Verif.Props.Later
import Verif.Props.DispatchTables
import Verif.Props.Partway
import Verif.Props.Memory
import Verif.Props.User
import Verif.Props.Session
import Verif.Props.PlainRead
import Verif.Props.Content
import Verif.Props.Views
import Verif.Props.ToBytes
