import Verif.Model.Obs
/-!
# `SceneGraphLogger` (src/scene_graph_logger.cpp, include/spark_dsg/scene_graph_logger.h)

The file system is a map from paths to contents, plus the set of paths that can be opened for writing (`std::ofstream` ignores a failed
open silently). Counters are `size_t`, bounded by the number of records in memory: natural numbers are exact. Numbers print in decimal.
-/

namespace Verif

/-- Files the process can see. -/
structure Disk where
  file : String → Option String
  writable : String → Bool

/-- scene_graph_logger.h:60-62: output directory, layer names, and whether the next call is the first. -/
structure Logger where
  dir : String := ""
  names : OMap LayerId String := ∅
  header : Bool := true
  deriving DecidableEq

/-- scene_graph_logger.cpp:42-47: the numbers of one line. -/
structure LogRow where
  active : Nat := 0
  removed : Nat := 0
  merged : Nat := 0
  withParents : Nat := 0
  withChildren : Nat := 0
  edges : Nat := 0
  deriving DecidableEq, Repr

/-- scene_graph_logger.cpp:54-55 -/
def LogRow.headerText : String := "nodes_active,nodes_removed,nodes_merged,nodes_w_parents,nodes_w_children,edges\n"

/-- scene_graph_logger.cpp:59-60 -/
def LogRow.text (r : LogRow) : String :=
  toString r.active ++ "," ++ toString r.removed ++ "," ++ toString r.merged ++ "," ++ toString r.withParents ++ "," ++
    toString r.withChildren ++ "," ++ toString r.edges ++ "\n"

/-- scene_graph_logger.cpp:42-63 `writeStatsToCsv`: opening without `app` truncates. -/
def Disk.writeStats (d : Disk) (row : LogRow) (path : String) (header : Bool) : Disk :=
  if !d.writable path then d
  else
    let start := if header then LogRow.headerText else (d.file path).getD ""
    { d with file := fun p => if p = path then some (start ++ row.text) else d.file p }

namespace Logger

/-- scene_graph_logger.h:51 `setOutputPath` -/
def setOutputPath (lg : Logger) (dir : String) : Logger := { lg with dir := dir }

/-- scene_graph_logger.h:53-55 `setLayerName`: `insert` keeps an existing name. -/
def setLayerName (lg : Logger) (l : LayerId) (name : String) : Logger := { lg with names := lg.names.emplace l name }

/-- scene_graph_logger.cpp:83-103: one entry of the status table. -/
def countStatus (g : Graph) (row : LogRow) (e : NodeId × NodeStatus) : Res LogRow :=
  match e.2 with
  | .new | .visible => do
    let row := { row with active := row.active + 1 }
    let x ← g.getNode e.1
    let row := if x.hasParent then { row with withParents := row.withParents + 1 } else row
    let y ← g.getNode e.1
    return if y.hasChildren then { row with withChildren := row.withChildren + 1 } else row
  | .deleted => return { row with removed := row.removed + 1 }
  | .merged => return { row with merged := row.merged + 1 }
  | .nonexistent => return row

/-- scene_graph_logger.cpp:77-105: the numbers of one layer. -/
def layerRow (g : Graph) (x : Layer) : Res LogRow := do
  let row ← foldRes (countStatus g) {} x.status.toList
  return { row with edges := x.edges.edges.size }

/-- scene_graph_logger.cpp:108-109 -/
def path (lg : Logger) (name : String) : String := lg.dir ++ "/" ++ name ++ "_layer.csv"

/-- scene_graph_logger.cpp:73-118: the loop body, for the layer `e.2` with id `e.1`. -/
def logLayer (lg : Logger) (g : Graph) (d : Disk) (e : LayerId × Layer) : Res Disk :=
  match lg.names.find? e.1 with
  | none => .ok d
  | some name =>
    if e.2.nodes.size == 0 && !lg.header then .ok d
    else do
      let row ← layerRow g e.2
      return d.writeStats row (lg.path name) lg.header

/-- scene_graph_logger.cpp:69-122 `logGraph`. Files written before an exception would stay written; none is thrown on a reachable graph. -/
def logGraph (lg : Logger) (g : Graph) (d : Disk) : Res (Logger × Disk) := do
  let d ← foldRes (lg.logLayer g) d g.layers.toList
  return ({ lg with header := false }, d)

/-- A sequence of `logGraph` calls. -/
def logAll (lg : Logger) (d : Disk) : List Graph → Res (Logger × Disk)
  | [] => .ok (lg, d)
  | g :: gs => do
    let r ← lg.logGraph g d
    logAll r.1 r.2 gs

end Logger
end Verif
