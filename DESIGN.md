# Spark-DSG in Lean 4: design

* English statements: `properties.jsonl` (generated by `tools/props.py`; `rev(...)` lines there are the revisions made while proving).
* Status and theorem names: `MANIFEST.json` (generated by `tools/manifest.py` from `tools/claims.py`).
* Axioms of every theorem named there: `AXIOMS.md` (generated by `tools/axioms.py` from `#print axioms`).
* Wrong programs tried against the theorems: `seeded/LOG.jsonl` (runner: `tools/mutate.py`, edits: `tools/mutants*.py`).

## 1. Trusted base

1. **Lean 4.33.0's kernel.** Axioms: at most `propext`, `Classical.choice`, `Quot.sound`, see `AXIOMS.md`. No axioms of our own, no
   compiled evaluation: every concrete computation in a proof (counterexamples, `example`s) is `decide +kernel` or `rfl`, i.e. reduced by
   the kernel. Only the colour modules import Mathlib (ordered fields, rationals, `linarith`), one module at a time.
2. **The reading of the C++.** The definitions under `lean/Verif/Model` were written by hand from `/repo`; each cites file and lines.
   Nothing ties the model to the code mechanically. This is the main thing to review.
3. **The specifications** under `lean/Verif/Spec` and the small definitions at the head of each file in `lean/Verif/Props`
   (observations: `Model/Obs.lean`). A theorem means what these say. They do not import the model except for types.
4. **The C++ standard library** meets its specification: `std::map`/`std::set` iterate in key order, `at` throws `out_of_range`,
   `vector::operator[]` out of range and dereferencing null/`end()` are undefined. `OMap` is the model of `map`/`set`.
5. **nlohmann::json**: typed reads throw `type_error`/`out_of_range` as documented; printing and parsing a document has the effect of
   `Json.text` (numbers: shortest round-trip doubles; non-finite numbers print as null; strings must be UTF-8). For files, the library is a parameter and what is needed of it a
   hypothesis: `JsonLib.ReadBy`, `JsonLib.Complete` (Spec/Disk.lean).
6. **Eigen**: a matrix is its coefficients; fixed-size dimensions are asserted only in debug builds (`Env.eigenChecks`).
7. **ZeroMQ**: delivers whole messages or nothing; which ones and when is the schedule.

## 2. How the code is modelled

* **Outcomes.** `Res α = ok a | throw e | ub`. A C++ exception is `throw`; null dereference, out-of-range access, reading an unset
  `optional`, signed overflow and out-of-range float→int casts are `ub`. A proof that something "never faults" is a proof that the result is not `ub`.
* **State.** Everything a graph owns is a value: `unique_ptr<T>` is `Option T` (`none` = null). Mutators are `State → Res (State × Bool)`.
* **Containers.** `OMap K V`: strictly sorted association list carrying its sortedness proof. Maps with equal lookups are equal.
  `unordered_set`/`unordered_map` iteration order is an arbitrary parameter; theorems hold for every order.
* **Words.** Node and layer ids are `UInt64`, prefixes `UInt32`, stamps the bit pattern of the `int64` nanosecond count, bytes `UInt8`.
  Arithmetic wraps as in C++. Floats and doubles are bit patterns. Float arithmetic is an uninterpreted parameter (theorems hold for
  every interpretation), except the `float`↔`double` conversions (`Model/Json.lean`, `Lemmas/Ieee.lean`) and the arithmetic of bounding boxes
  (`Model/Float32.lean`: IEEE 754 binary32 with round-to-nearest-even, subnormals, infinities and NaN, on bit patterns), which are modelled bit by bit.
* **Loops** whose termination is not structural (breadth-first search) take fuel; the theorems say that some amount of fuel suffices, that
  any larger amount gives the same result, and what the result is. So fuel is not a bound.
* **Histories.** `Op` (Spec/Api.lean) lists 24 public calls of `DynamicSceneGraph`; `Graph.exec ids ops` runs any list of them;
  `Reached ids ops g` says that the history `ops` contains no misuse and led to `g`. Histories have no length bound.
* **Threads** (C45): the receive thread and any number of user threads as an interleaving of atomic steps; the schedule is arbitrary.

## 3. Layers of the development

1. `Base/OMap` — sorted maps.
2. `Model/*` — the code, function by function: `EdgeContainer`, `Layer` (SceneGraphLayer), `DynLayer`, `Graph` (DynamicSceneGraph),
   `Api` (histories), `Obs` (what a user sees), `LayerApi`, `Text` (symbols, prefixes, colours, names, extensions), `Search`
   (graph_utilities.h), `Views`, `MeshOps`, `Clone`, `Update` (updateFromLayer), `Merge` (mergeGraph), `Binary`/`Codec`/`Endian`/`GraphIO`
   (binary format), `Json` (JSON documents), `Zmq`, and further files added later (see the table).
3. `Spec/*` — specifications: `Spec.Graph` (the abstract graph: one map of nodes, one map of undirected edges), `Spec.Api` (calls, answers,
   the misuse list `Op.ok`), `Search` (walks, reachability), `Layer`, `EdgeMap`, `Codec`, `Format` (the byte format), `GraphIO`, `OldFormat`,
   `OldJson`, `Clone`, `Zmq`, `Update`, `Merge`, `Json`.
4. `Refine/*` — the refinement. `View`: the graph as plain functions; each low-level step has an exact equation on views. `R g σ`: graph `g`
   stores exactly the abstract graph `σ`. `SWF σ`: the abstract graph is well formed. `R.step`: every call that is no misuse commutes with
   the abstract call, returns what the abstract call returns, and updates the change logs as `Logged` says; `R.run`: so does every history.
5. `Lemmas/*` — helper lemmas; `Mem*.lean` carry a second, weaker invariant `MV` (memory validity: every pointer an operation may follow is
   there) that also holds of graphs built from arbitrary bytes, where `R` does not.
6. `Props/*` — one file per group of properties: the theorems named in `MANIFEST.json`, beside each an `example` with a concrete case that
   meets its hypotheses, and the counterexample theorems.

## 4. Method per property

| id | modelled | proof |
|----|----------|-------|
| C01–C05 | all mutators/queries of DynamicSceneGraph | `R`/`SWF` along every history of non-misuses; one counterexample theorem per misuse (Props/Misuse) |
| C06, C07 | removeNode, mergeNodes | refinement step; loop invariants over the adjacency sets, then read off the abstract call |
| C08, C09 | insertParentEdge, dropAllParents | refinement step; induction over histories |
| C10 | failure branches of all mutators | `R.step_false`: the state is equal |
| C11, C12 | dynamic layers | invariant linking next index, slots, stamps; for C12 a direct analysis of the layer when next index ≠ slots |
| C13–C15 | status maps | what each call does to the logs (`Logged`), then induction over the calls since the last clearing query |
| C16 | stale marks | marks as part of the abstract graph |
| C17 | clone | fold of insertions; commutes with abstraction |
| C18, C19 | mergeGraph, mergeLayer, updateFromLayer | fold invariants per layer/node/edge loop; counterexample per precondition |
| C20 | counts | bijection of lookup keys with layer keys |
| C21, C47 | binary primitives, byte order | round-trip combinators `RT` |
| C22 | readGraph/updateGraph/load on arbitrary bytes | `Res.Sat`: no `ub`, through readers and graph operations, with invariant `MV` |
| C23, C24, C28, C29 | attribute classes, registry, mesh, header | codec per class; dispatch; decision logic |
| C25, C26 | writeGraph/readGraph/updateGraph/save/load | writer described by a format (`Fmt`), reader run on it, fold over abstract graph; for C26 every removal order |
| C27, C50 | JSON documents | like C25/C22 on document trees; `Json.text` for printing and parsing |
| C30–C32, C43, C44, C48 | ids, keys, colours, names, labels, extensions | bit/byte arithmetic, string lemmas |
| C33, C34 | EdgeContainer, SceneGraphLayer alone | refinement to a map / a simple graph over histories |
| C35–C38 | graph_utilities.h | loop invariants with distance layers; termination measure; repeated merging shrinks |
| C39, C40 | mesh | list lemmas; alignment invariant over sequences of operations |
| C41, C42, C46 | adjacency matrix, layer view, descendants | index lemmas; fold lemmas; induction over the layer order |
| C45 | ZMQ receiver | interleaving semantics, invariant on the shared state |
| C49 | files of format 1.0.2–1.0.4, JSON attributes of 1.0.0–1.0.4 | old layouts specified from the version checks, reader run on them |

(Properties added later are at the end of section 7.)

## 5. What is not modelled

* Memory exhaustion, `bad_alloc`, `length_error` from huge sizes (a 17-byte binary message can ask for 2^32 padding slots), stack depth, time.
* The state left behind by a graph call that throws is modelled in Model/Through (C58); that of updateGraph on a message in Model/Receive (C68, C69); the state left by a throw in the mesh, other file-reading and Python functions is not (only the exception is), nor is a mesh half-resized by `bad_alloc`.
* Misaligned loads in the binary reader (it `memcpy`s words; no alignment requirement was found).
* Sharing: `setMesh` keeps the caller's `shared_ptr`; nodes and layers handed out by reference are values here. `updateFromLayer` and
  `mergeGraph` are modelled for a source object different from the target.
* JSON text itself (nlohmann), locale. The file system is a map from paths to bytes: no directories, links or permissions other than through `Fate` (C65, C66); blocks of a file are assumed to arrive in order.
* Floating point geometry: `atan2`, `sin`, `cos` are parameters (C63 assumes an accuracy of 2^-20); `std::sort` is a parameter (any function that meets the standard's requirements); in the merging of boxes (C55-C57) the yaw-aligned fit is a parameter, C63 models it on its own; the hue of an id (`log2`, `exp2`) and `Color::random`, mesh transforms (the transform is an uninterpreted function of points).
* ZeroMQ: message loss, the socket options set after connect, `should_shutdown_` read before it is set by the constructor.
* `global header` (`io::GlobalInfo`) is thread-local; one thread is modelled.
* `binary_serializer.cpp` is not part of the build and is not modelled. `bounding_box_extraction.cpp` is modelled in full (Model/Box, Model/Hull). For boxes: no fused multiply-add, no `-ffast-math`, no x87 excess precision; Eigen reduces three
  coefficients as `f c0 (f c1 c2)` and its `min`/`max`/`maxCoeff` are `std::min`/`std::max` (for NaN coefficients Eigen leaves this open).
* Python: only the iterator classes (C53) and the functions that exchange a mesh with arrays (C62); the rest of the binding glue is not modelled.

## 6. Findings

Facts about the code that contradict what a user would expect; each is a theorem with a concrete history or document.

Graph: appending to a trajectory after back-filling gives a node that cannot be found, removing it dereferences null (C12); removing or merging
a node with an edge into another layer of the same layer id leaves a dangling edge (Misuse); mergeNodes on dynamic nodes faults; insertParentEdge
inside a layer stores an invisible edge; duplicate stamps by back-filling make numNodes wrong; null edge attributes are stored and later dereferenced;
findEdge throws for unknown nodes; the reserved layer id accepts nodes but no edges; back-filling reports ids as removed that never existed
(C14); removed lists may name a present node, or one node twice, merged nodes are reported for ever (C14); an edge removed and re-inserted
between mark and sweep is swept (C16); clone loses stamps of static nodes, empty dynamic layers and the append position (C17); mergeGraph and
updateFromLayer can put one node id into two layers, leave stale siblings, several parents, keep edges the other graph removed (C18, C19).

Yaw-aligned boxes (C63): one point, or the lowest point twice, gives a NaN centre; the tolerance 1e-9 on angles is below the float resolution near 1, so points in
one direction from the lowest are sorted by rounding errors and can be lost from the hull; nearly flat point sets lose points; huge coordinates make `std::sort` undefined.
Boxes below a node (C64): a place in two rooms is used twice, which can make the yaw-aligned box of the building NaN; one node below gives no valid box; layer 0 is missed.

Files (C65, C66): a JSON save opens, and so empties, the file before it builds the text, so a save that throws (a name that is not UTF-8) destroys what was there;
no error of an output stream is ever noticed, so `save` into a missing directory or onto a full disk returns as if it had worked; a JSON graph file loaded as a
mesh gives an empty mesh without an error; saving over a file is not atomic; a binary file that ends exactly before the mesh is loaded without mesh and without
an error, because the test for the mesh takes the end of the buffer for "no".

Searching: getMergedComponents can return overlapping sets (C38); getAncestorsOfLayer compares a layer id with a bool, so layer 0 is missed (C46);
adjacency matrices with shared rows overwrite (C41); a default layer view iterates through a null pointer (C42).

Formats: writeGraph dereferences null if any dynamic node was removed (C25, for every graph C73); dynamic nodes in layers without a static layer are dropped (C25); a
Khronos object loses its Object members (C23); more than 256 attribute classes wrap (C24); an unknown class desynchronises the stream (C24);
matrix dimensions overflow or write out of bounds in release builds (C22); updateGraph keeps the receiver's mesh when the sender has none (C26);
a NaN or infinite scalar (edge weight, room probability, distance, quaternion, voxel position) is saved without complaint and makes the JSON file unreadable (C72), infinities in vectors and matrices become NaN (C27), non-UTF-8 names cannot be saved (C71);
reading JSON of version ≤ 1.0.2 without colour uses an uninitialised colour, negative dimensions (C50); NeedEndianSwap is never true (C47);
`save("foo")` then `load("foo")` fails (C30); `Place2dNodeAttributes()` and `AgentNodeAttributes()` leave members uninitialised, so a document without these fields loads whatever was in memory (C70). Python: iterating over the nodes of any dynamic layer reads past the end of a vector (C53). ZMQ: data race on the graph, an update announced twice, a malformed message terminates the program (C45).
Equality: attribute objects of different classes compare unequal in one direction only; a different feature size ends the program; room class probabilities,
three members of 2D places and trajectory time stamps are ignored (C54).
Boxes: the IoU of a box with itself can be above 1 (ordinary numbers), negative, 0 or NaN; a box fitted to points often misses one of them by a rounding
error, and is invalid if the points lie in a plane along the axes; a box may not contain its own corners; oriented boxes never intersect anything, and
merging them gives an invalid box (C55–C57).
Exceptions: after a history with two misuses (a dangling edge, then its id reused by a trajectory whose prefix has an index part) removeAllStaleEdges
removes some edges and then throws (C58).
Messages: an edge whose class the receiver does not know gets default attributes from the first message and a null pointer from the second, merging then faults; a trajectory that was
received cannot be appended to, and after a message without it, appending and removing faults (C68); a truncated message is half applied: new nodes are there, old
edges are not removed (C69). Python (not modelled): `add_node` drops its result, `Mesh()` has a string as default of `has_labels`.
Components of limited depth can share nodes, depending on the iteration order of the hash set of roots (C59).
Colours: a NaN argument is undefined behaviour in every colour map; a colour blended with itself can come out one step darker and more transparent;
the colours of ids, documented as never repeating, repeat within 1537 ids (C60).
Logger: a node with two parents is counted as having none; lines of different layers do not line up, since empty layers write none; a layer named late has no
header and appends to an old file (C61).
Python arrays: colours above 1 (such as bytes) are undefined behaviour in set_vertices; face indices are not checked (C62).
Mesh: eraseVertices on short attribute vectors is undefined; resizing down leaves faces that point nowhere (C39, C40).
mergeGraph twice: with an id map that chains (12 to 10, 10 to 20) a second identical merge can remove an edge that the first added (C76).

## 7. Revisions of the property list

Properties that turned out false as first stated were revised to the strongest true statement found, always with the counterexample kept as a theorem:
C05 (misuse list), C09 (merging), C12 (when appending works), C14 (exact list), C15 (per container), C16, C17–C19 (preconditions), C23–C27, C30,
C38 (repeat the call), C41, C42, C45, C46, C47. New while working: C47 byte order, C48 labels, C49 older files, C50 JSON safety, and the following.

* C51, C52: histories with misuse. Method: the invariant `MV` (everything the code relies on when it follows a pointer, first used for hostile
  messages in C22) and `Graph.Tame` (no null attributes, slots of append-only trajectories) are kept by each of the 24 calls (Lemmas/Mem5–Mem8).
* C53: the Python iterators. Positions are list suffixes; a loop is the deterministic relation `Py.Loop`, proved by induction over the layers.
* C54: attribute equality. Numbers are bit patterns compared as IEEE 754 prescribes; every comparator is shown symmetric, transitive, reflexive
  without NaN and exact on plain numbers by one structure (`Comp`, Lemmas/Equal) that is closed under lists and products.
* C55–C57: bounding boxes over IEEE floats. Every finite float is an integer multiple of 2^-149, so values are integers (`F32.val`), rounding is a monotone
  function `fl` on integers that fixes floats and errs by at most one part in 2^24 (Lemmas/Float32), and the claims become linear arithmetic. Containment and
  intersection are compared with the exact boxes; on a grid of at most 2^21 cells everything is exact (`V3f.OnGrid`). The float model was compared with the
  hardware on 200 000 random pairs for each of +, -, *, / (no difference); that comparison is a test, not part of the proof.
* C58: exceptions caught by the caller. The functions are modelled a second time, statement by statement (`Model/Through.lean`): an exception carries the
  state with every write made before it. `Graph.res_stepT` proves that both models agree on results and faults; the exception guarantee is then proved per
  function (reads that may throw come before the first write), and `runCatching` is compared with the history without the throwing calls.
* C59: components of limited depth. Invariant of the revisiting search (`DepthInv`): costs are lengths of walks, every processed node is relaxed, and the
  frontier is sorted by cost with a spread of at most one, so that no queued node changes its cost; termination by the weight `(D + 1)^(limit - cost)`.
* C60: colours. Error analysis over the rationals: each float operation has a relative error of at most `2^-24` (`real_add`, `real_sub`, `real_mul`), the
  double operations behind `fmod` one of `2^-53` (`Dbl.near_err`); the shares of a hue are Lipschitz functions, so a hue rounded into the next sextant does no
  harm (`sextant`, `hue_parts`). Ends and the colours of the rainbow are exact, by monotonicity of rounding.
* C61: the logger (`Model/Logger.lean`). The counting loop adds filter lengths (`Logger.count_fold`); the representation relation and the change-log lemmas of
  C14 turn the status table into history (`Reached.deleted_iff`, `Reached.merged_iff`); files follow by induction over the layers and over the calls.
* C62: meshes as arrays. Doubles are bit patterns whose magnitudes are integers in units of 2^-1074; `c / 255.0 * 255` is decided for all 256 bytes by the
  kernel, general entries by the error bound `near_real`; the loops by induction over the prefix already written (`set_prefix`).
* C63: fitting yaw-aligned boxes (`Model/Hull.lean`). The comparison is a strict weak ordering because equal and unequal float angles are never within 1e-9 of
  each other unless equal (`tidy_strictWeak`); the scan keeps a convex chain by induction over the sorted points, with exact integer turns (`Graham.lean`); on a
  raster the float turn test has the sign of the exact one, and separated cosines are sorted as the exact ones are (`sorted_turns`). The box: an error calculus
  for floats as reals (`Ap`, Hull7-Hull14) bounds each rounded distance against the exact hyperplane distances.
* C64: boxes around what is below a node (`Model/AncestorBox.lean`). C46 gives the nodes; the cast of a double to a float is within half a unit in the last place
  (`F64.narrow_near`, over the integers, then `F64.toFloat_near`); the fits are those of C57 and C63.
* C65: files, end to end (`Model/Disk.lean`). The disk maps paths to bytes; what becomes of the bytes given to an output stream is a parameter (`Fate`:
  not opened, cut after `k` bytes, whole). Composition of C25, C27, C29, C30 and, for arbitrary contents, C22 and C50.
* C66: interrupted saves. For each reader, by its structure: on a shortened buffer it throws or does exactly what it does on the whole buffer (`Rd.Cut`), with
  the one exception of the test for a mesh, which treats the end of the buffer as "no mesh" (`checkIfTrue_end`); the writer is split before the mesh
  (`Graph.write_eq`) and the reader likewise (`Rd.readCore`).
* C67: catching exceptions and going on. The invariant of C51/C52 (`Graph.Inv`: memory is valid, the layers fit together, trajectories are tame) is shown to
  hold of the state at every `throw` of the statement-level model (`Inv.removeEdgeT` …, Lemmas/Basic2, Basic3), then by induction over the calls. The public
  meaning of the invariant is `Graph.Intact` (Spec/Intact.lean).
* C68: bad messages (`Model/Receive.lean`). The reader is modelled a second time as a program that writes to the graph while it reads (`Upd`), so that an
  exception carries the half-updated graph; `Upd.same_updateGraphFrom` proves that both models agree. The weakest form of the invariant of C67
  (`Graph.Sound`) holds at every exception, by the structure of the reader (`Upd.SafeU`).
* C69: a lossy line. A triple `Upd.Tr` for the statement-level reader on the short buffer: where the whole message was written for the calls `syncOps`, the reader
  makes a prefix of these calls (from `Rd.RT` on the whole buffer and `Rd.Cut`), and never fails an assertion, since the whole message would have failed it too.
  Along every prefix the abstract graph consists of nodes and edges of the versions (`Spec.Mix`), which gives `Graph.Accepts` for the next message; C26 does the rest.
* C70: documents with missing fields. Each member's read lemma of C27 (`JRT`) is extended to objects in which a field is present or absent (`JRT.Partly`,
  `JRT.lacks`); the document level reuses the reconstruction of C27 with the attribute functions as parameters (`R.json`). Members a constructor leaves
  uninitialised come from `JEnv.fresh`, an arbitrary value.
* Text in documents (C27, C70) is specified as a sequence of Unicode characters encoded as UTF-8 (`Str.IsText`, Spec/Utf8.lean); Lemmas/Utf8.lean proves that
  the library's byte-level validator accepts exactly these (`utf8_iff`).
* C71: which graphs can be written. Printing a tree succeeds iff a boolean over its strings holds (`Json.prints`, mutual induction); that boolean is computed for
  each writer (`clean_*`), so that it is exactly that of the strings in Spec/OnlyText.lean.
* C72: which saved documents can be loaded. One direction is C27; for the other, each reader is inverted (`Reads`, Lemmas/Loadable.lean): if it accepts what
  the writer made of a value, the scalars of the value were finite, since a number that is not finite is printed as `null`.
* C73: which graphs can be written in binary. `Wr.When w p` says that a writer succeeds if `p` and throws otherwise; it composes along `seq`, loops and vectors, so
  the condition of the whole is computed from the parts. A null slot is found through the representation relation `R` (`R.gap_of`).
* C74: what a file contains depends on content only. The writers run over ordered maps; maps with the same contribution under every key contribute the same
  sequence (`OMap.flatMap_congr`), and the representation relation gives the contribution of every slot in terms of the abstract graph. That a loaded graph has no
  empty slot follows from an invariant of histories without `removeNode`: the last slot of every trajectory holds a node (`Spec.Tight`).
* C75: repeated, superseded and relayed messages, from C26: a graph that mirrors the sender accepts its messages (`Graph.Mirrors.accepts`).
* C76: merging again. A merge leaves every trajectory of the other graph without empty slot and with the next id equal to the number of slots (`DenseAt`, kept by
  every iteration), so that the conditions of C18 hold again; what one iteration does to a node is idempotent.
