import Verif.Props.Structure
import Verif.Props.Misuse
import Verif.Props.Removal
import Verif.Props.Parents
import Verif.Props.Dynamic
import Verif.Props.ChangeLog
import Verif.Props.Stale
import Verif.Props.Counts
import Verif.Props.Text
import Verif.Props.Layer
import Verif.Props.Search
import Verif.Props.Endian
import Verif.Props.Binary
import Verif.Props.GraphIO
import Verif.Props.Safety
import Verif.Props.Merged
import Verif.Props.Descend
import Verif.Props.LayerView
import Verif.Props.Adjacency
import Verif.Props.Mesh
import Verif.Props.Clone
import Verif.Props.Zmq
import Verif.Props.Update
import Verif.Props.Merge
import Verif.Props.Json
import Verif.Props.OldFiles
import Verif.Props.JsonSafety
import Verif.Props.AnyHistory
import Verif.Props.PyIter
import Verif.Props.Equal
import Verif.Props.BoxFrame
import Verif.Props.Through
import Verif.Props.Depth
import Verif.Props.Color
import Verif.Props.Logger
import Verif.Props.PyMesh
import Verif.Props.Hull
import Verif.Props.AncestorBox
import Verif.Props.Disk
import Verif.Props.Crash
import Verif.Props.Caught
import Verif.Props.Receive
import Verif.Props.Lossy
import Verif.Props.Missing
import Verif.Props.OnlyText
import Verif.Props.Loadable
import Verif.Props.Writable
import Verif.Props.Canonical
import Verif.Props.Again
import Verif.Props.MergeAgain
