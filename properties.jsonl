{"id": "C01", "title": "Every node lives in exactly one layer and the graph knows which", "statement": "After any history of public graph operations, hasNode(n) holds iff exactly one layer (static or dynamic) stores a node with id n, getLayerForNode(n) names that layer, and findNode/getNode(n) return a node whose id is n and whose layer is that layer.", "quantifier": "all layer configurations, all finite histories of graph operations, all node ids; histories outside the explicit misuse list of C05 (each entry has a machine-checked counterexample)", "why_tests_cant": "The lookup table and the per-layer stores are updated separately by ~20 operations; a unit test samples a handful of interleavings, the claim is about every history.", "anchors": ["src/dynamic_scene_graph.cpp: emplaceNode, emplacePrevDynamicNode, insertNode, addOrUpdateNode, removeNode, mergeNodes, findNode, getLayerForNode, getNodePtr"]}
{"id": "C02", "title": "No dangling, duplicate or self edges", "statement": "After any history, if hasEdge(a,b) then a and b are different nodes of the graph; hasEdge is symmetric; each unordered pair carries at most one edge, stored in exactly the container that hasEdge/findEdge consult.", "quantifier": "all histories, all pairs of node ids; histories outside the explicit misuse list of C05 (each entry has a machine-checked counterexample)", "why_tests_cant": "Needs an invariant relating five kinds of edge store across all histories.", "anchors": ["src/dynamic_scene_graph.cpp: insertEdge, insertParentEdge, removeEdge, removeNode, mergeNodes, hasEdge, findEdge", "include/spark_dsg/edge_container.h: EdgeKey"]}
{"id": "C03", "title": "Adjacency sets of a node agree with the edges of the graph", "statement": "After any history, m is in siblings(n) iff there is an edge {n,m} and both are in layers with the same layer id; in children(n) iff there is an edge and n's layer id is larger; in parents(n) iff there is an edge and n's layer id is smaller.", "quantifier": "all histories, all pairs of nodes; histories outside the explicit misuse list of C05 (each entry has a machine-checked counterexample)", "why_tests_cant": "The sets are a redundant copy of the edge containers maintained by hand in every mutator.", "anchors": ["src/dynamic_scene_graph.cpp: addAncestry, removeAncestry, rewireInterlayerEdge", "src/scene_graph_layer.cpp: insertEdge, removeEdge, rewireEdge", "src/dynamic_scene_graph_layer.cpp: insertEdge, removeEdge"]}
{"id": "C04", "title": "The graph behaves like a map of nodes and a map of undirected edges", "statement": "Any history of operations returns the same results, and leaves the same nodes (layer, stamp, attributes) and edges (orientation, attributes), as the same history on an abstract graph consisting of one finite map of nodes and one finite map of undirected edges.", "quantifier": "all layer configurations, all histories of the modelled public operations; histories outside the explicit misuse list of C05 (each entry has a machine-checked counterexample)", "why_tests_cant": "Functional correctness over all histories is a refinement statement.", "anchors": ["src/dynamic_scene_graph.cpp: all mutators and queries"]}
{"id": "C05", "title": "Well-behaved histories never throw and never have undefined behaviour", "statement": "No history of graph operations that stays clear of a short explicit list of misuses dereferences null, indexes a vector out of range or throws from map::at; for every misuse on the list there is a history showing it really faults or corrupts the graph.", "quantifier": "all histories of modelled graph operations that contain none of the listed misuses; one counterexample per misuse", "why_tests_cant": "Absence of a crash over an unbounded input space.", "anchors": ["src/dynamic_scene_graph.cpp: layerFromKey, getNodePtr, removeInterlayerEdge, mergeNodes", "src/edge_container.cpp: remove", "src/dynamic_scene_graph_layer.cpp"]}
{"id": "C06", "title": "removeNode removes the node and exactly its edges", "statement": "removeNode(n) returns whether n was present; afterwards n is gone together with every edge incident to n, every other node and edge is unchanged, except that removing a dynamic node linked to both its predecessor and its successor links those two to each other.", "quantifier": "all reachable graphs, all node ids; histories outside the explicit misuse list of C05 (each entry has a machine-checked counterexample)", "why_tests_cant": "Which edges go depends on adjacency sets that must have been right through the whole history.", "anchors": ["src/dynamic_scene_graph.cpp: removeNode", "src/scene_graph_layer.cpp: removeNode", "src/dynamic_scene_graph_layer.cpp: removeNode"]}
{"id": "C07", "title": "mergeNodes redirects every edge of the merged node", "statement": "mergeNodes(from,to) of two distinct nodes of the same static layer removes `from`; for every former neighbour x of `from` other than `to` the graph then has an edge {to,x} (the one `to` already had, else the one from `from` with its attributes); no other node or edge changes. In all other cases it returns false and changes nothing.", "quantifier": "all reachable graphs, all pairs of node ids; histories outside the explicit misuse list of C05 (each entry has a machine-checked counterexample)", "why_tests_cant": "Rewiring loops over sets while edge containers and adjacency sets change.", "anchors": ["src/dynamic_scene_graph.cpp: mergeNodes, rewireInterlayerEdge", "src/scene_graph_layer.cpp: mergeNodes, rewireEdge", "src/edge_container.cpp: rewire"]}
{"id": "C08", "title": "insertParentEdge leaves the child with a single parent", "statement": "After insertParentEdge succeeds between layers of different height, the child's only parent is the new one (hasParent is true and getParent returns it), all its former parent edges are gone, and no other edge changes.", "quantifier": "all reachable graphs, all pairs of nodes; histories outside the explicit misuse list of C05 (each entry has a machine-checked counterexample)", "why_tests_cant": "The former parents are an unbounded set removed by a loop that re-enters removeEdge.", "anchors": ["src/dynamic_scene_graph.cpp: insertParentEdge, dropAllParents", "src/scene_graph_node.cpp: hasParent, getParent"]}
{"id": "C09", "title": "A history of parent insertions keeps every node at one parent", "statement": "If all interlayer edges of a history are inserted with insertParentEdge, and no two nodes with different parents are merged, then at every point each node has at most one parent. (Merging such nodes really gives two parents.)", "quantifier": "all histories; histories outside the explicit misuse list of C05 (each entry has a machine-checked counterexample)", "why_tests_cant": "Inductive statement over histories.", "anchors": ["src/dynamic_scene_graph.cpp: insertParentEdge"]}
{"id": "C10", "title": "A refused operation changes nothing", "statement": "Whenever emplaceNode, insertNode, insertEdge, insertParentEdge, removeNode, removeEdge, mergeNodes, addOrUpdateNode, set*Attributes or createDynamicLayer returns false, every node, edge, layer and status query answers as before.", "quantifier": "all reachable graphs, all arguments; histories outside the explicit misuse list of C05 (each entry has a machine-checked counterexample)", "why_tests_cant": "Partial effects on the failure path are only visible for particular combinations of state and argument.", "anchors": ["src/dynamic_scene_graph.cpp", "src/scene_graph_layer.cpp: emplaceNode (sets status before emplacing)"]}
{"id": "C11", "title": "Dynamic layers: consecutive ids, unique stamps, odometry chain", "statement": "Nodes added by the dynamic emplaceNode get ids prefix(0), prefix(1), ... in order, a stamp already present is refused without effect, and with add_edge each new node is linked to its live predecessor.", "quantifier": "all sequences of dynamic emplaceNode and removeNode; histories outside the explicit misuse list of C05 (each entry has a machine-checked counterexample)", "why_tests_cant": "Needs an invariant tying next_node_, the node vector and the stamp set.", "anchors": ["src/dynamic_scene_graph_layer.cpp: emplaceNode, insertEdgeByIndex", "src/dynamic_scene_graph.cpp: emplaceNode(LayerId, LayerPrefix, ...)"]}
{"id": "C12", "title": "Back-filling dynamic nodes, and appending afterwards", "statement": "emplacePrevDynamicNode succeeds iff the id is unused, places the node at the index encoded in its id and changes nothing else. A later dynamic emplaceNode (unused id and stamp) always reports success; the node it adds can be found and removed if and only if the number of nodes appended so far equals the layer's number of slots, i.e. no index was filled ahead or skipped; otherwise findNode of the new id gives null and removeNode dereferences null.", "quantifier": "all histories mixing emplacePrevDynamicNode and emplaceNode", "why_tests_cant": "The index/id mismatch appears only for particular orders.", "anchors": ["src/dynamic_scene_graph_layer.cpp: emplaceNodeAtIndex, emplaceNode", "src/dynamic_scene_graph.cpp: emplacePrevDynamicNode"]}
{"id": "C13", "title": "New-node tracking", "statement": "getNewNodes(true) returns exactly the live nodes added since the previous getNewNodes(true) (a node that was removed in between is not reported), each once; getNewNodes(false) changes nothing.", "quantifier": "all histories interleaving queries and mutations; histories outside the explicit misuse list of C05 (each entry has a machine-checked counterexample)", "why_tests_cant": "History property: what is reported depends on everything since the last clearing query.", "anchors": ["src/dynamic_scene_graph.cpp: getNewNodes", "src/scene_graph_layer.cpp: getNewNodes", "src/dynamic_scene_graph_layer.cpp: getNewNodes"]}
{"id": "C14", "title": "Removed-node tracking", "statement": "getRemovedNodes returns exactly the nodes that, since the last call that forgot removed nodes, were in some layer they are not in now, plus the nodes merged away earlier from a layer they have not been in since, plus the ids of a trajectory that a back-fill skipped over since (which need never have existed). A non-clearing call changes nothing.", "quantifier": "all histories; histories outside the explicit misuse list of C05 (each entry has a machine-checked counterexample)", "why_tests_cant": "History property.", "anchors": ["src/dynamic_scene_graph.cpp: getRemovedNodes", "src/scene_graph_layer.cpp: getRemovedNodes", "src/dynamic_scene_graph_layer.cpp: getRemovedNodes, emplaceNodeAtIndex"]}
{"id": "C15", "title": "Edge change tracking", "statement": "getNewEdges(true)/getRemovedEdges(true) return exactly the edges present and inserted (resp. absent and removed) since the previous clearing call, each once.", "quantifier": "all histories; histories outside the explicit misuse list of C05 (each entry has a machine-checked counterexample)", "why_tests_cant": "History property over three kinds of container.", "anchors": ["src/dynamic_scene_graph.cpp: getNewEdges, getRemovedEdges", "src/edge_container.cpp: getNew, getRemoved"]}
{"id": "C16", "title": "Mark-and-sweep of stale edges", "statement": "After markEdgesAsStale, removeAllStaleEdges removes exactly the edges that were present at the mark and have not been looked up or updated since; edges inserted after the mark survive. (An edge removed and re-inserted between mark and sweep is swept: counterexample.)", "quantifier": "all reachable graphs, all sequences of lookups, updates and insertions between mark and sweep; histories outside the explicit misuse list of C05 (each entry has a machine-checked counterexample)", "why_tests_cant": "The sweep removes edges while iterating, across all containers.", "anchors": ["src/dynamic_scene_graph.cpp: markEdgesAsStale, removeAllStaleEdges, removeStaleEdges", "src/edge_container.cpp: setStale, find"]}
{"id": "C17", "title": "clone is an equal, independent graph", "statement": "clone() succeeds and has the same layer ids, nodes (id, layer, attributes, stamp of dynamic nodes), edges (orientation, attributes), adjacency sets and mesh, and is again an ordinary graph; later operations on either do not affect the other. Not cloned (counterexamples): stamps of static nodes, empty dynamic layers, the append position of a trajectory; a graph reset to no layers throws.", "quantifier": "all reachable graphs with at least one layer id and no dynamic node at index 2^32-1", "why_tests_cant": "Needs correctness of re-insertion for every graph.", "anchors": ["src/dynamic_scene_graph.cpp: clone"]}
{"id": "C18", "title": "mergeGraph brings in every node and edge of the other graph", "statement": "For two graphs that fit together (shared nodes are in the same layer of both; a node the other graph reports as removed is gone from it; trajectories of both have lost no node, and what is appended has new stamps; with the parent rule the id map keeps nodes in their layer) mergeGraph(other, config) succeeds. Nodes: those reported as removed are gone; those unknown to the other graph stay; new static nodes of a known layer that were not merged away are copied; shared nodes take the other's attributes exactly when the configuration allows (dynamic ones keep their position); trajectories are extended, shifted by the difference of the last shared positions; nothing else appears. Edges: each edge of the result is one of the receiver's that was not removed or the image under the id map of one of the other graph's; edges of the receiver stay unless removed, their end was removed or the parent rule replaces them; each edge of the other graph has its image if the image's ends exist in the right place (with the parent rule: one of the competing images). The result is again an ordinary reachable graph; the other graph stores what it did, only its change logs are cleared on demand. Not so (counterexamples): null dereference for a trajectory that lost a node, a duplicate stamp moves the wrong node, a node in two layers, removed edges between layers are not passed on, a child may keep two parents, chains of merges lose edges.", "quantifier": "all pairs of reachable graphs that fit together, all configurations, any double arithmetic", "why_tests_cant": "Quantifies over pairs of graphs and id maps.", "anchors": ["src/dynamic_scene_graph.cpp: mergeGraph", "src/scene_graph_layer.cpp: mergeLayer", "include/spark_dsg/base_layer.h: GraphMergeConfig"]}
{"id": "C19", "title": "updateFromLayer", "statement": "updateFromLayer(layer, edges) returns false and does nothing if the graph has no such layer. Otherwise it gives shared nodes the source's attributes (keeping layer and stamp), adds the source's other nodes (reported as new), gives listed edges inside the layer the new attributes or adds them, ignores listed edges that leave the layer or join a node to itself, empties the source and leaves everything else alone; the result is again an ordinary graph. Not so (counterexamples): a source edge that is not listed leaves siblings without an edge, a node of another layer ends up in two layers, an edge filed under a wrong key throws, an updated edge keeps its stale mark.", "quantifier": "all reachable graphs, all source layers whose nodes the graph does not have elsewhere, all edge tables", "why_tests_cant": "Quantifies over pairs of containers.", "anchors": ["src/dynamic_scene_graph.cpp: updateFromLayer"]}
{"id": "C20", "title": "Node and edge counts", "statement": "numNodes equals the number of ids for which hasNode holds (plus mesh vertices when asked), numEdges the number of unordered pairs for which hasEdge holds; numStatic*/numDynamic* split them; empty() iff there is no node and no mesh vertex.", "quantifier": "all reachable graphs; histories outside the explicit misuse list of C05 (each entry has a machine-checked counterexample)", "why_tests_cant": "Counts are sums over separate stores; a test checks sums for a few graphs.", "anchors": ["src/dynamic_scene_graph.cpp: numNodes, numStaticNodes, numDynamicNodes, numEdges, numStaticEdges, numDynamicEdges, empty"]}
{"id": "C21", "title": "Binary primitives round-trip", "statement": "For every bool, fixed-width integer, float, string, (nested) list, map, optional and matrix, reading what was written returns the same value (bit for bit) and leaves exactly the bytes that followed it.", "quantifier": "all values, all trailing bytes", "why_tests_cant": "All values of all sizes.", "anchors": ["include/spark_dsg/serialization/binary_serialization.h", "src/serialization/binary_serialization.cpp"]}
{"id": "C22", "title": "Binary deserialisation is memory safe on arbitrary bytes", "statement": "Deserialising any byte string (as a new graph, as an update of an existing graph, as a file, or as single attributes, meshes or headers) terminates, never accesses memory outside the buffer and never follows a null pointer: it succeeds or throws, and the resulting graph can take further arbitrary updates. (Provided that Eigen's assertions are compiled in or no class with column vectors is registered, and that signed overflow wraps: counterexamples proved for both.)", "quantifier": "all byte strings, all graphs built with the API, all sequences of messages", "why_tests_cant": "Adversarial inputs are unbounded.", "anchors": ["src/serialization/binary_serialization.cpp: checkValidPosition, checkType, checkFixedArrayLength", "include/spark_dsg/serialization/binary_serialization.h: read"]}
{"id": "C23", "title": "Attribute classes round-trip through the binary format", "statement": "For every attribute class, serialising an attribute object and deserialising it with the current format version yields an object of the same type with the same members, except that KhronosObjectAttributes lose the members inherited from ObjectNodeAttributes (defect, counterexample proved) and Place2dNodeAttributes three members that are not part of the format.", "quantifier": "all attribute values of all registered classes, all registries containing the class", "why_tests_cant": "All field values and list sizes; polymorphic dispatch through a table.", "anchors": ["src/node_attributes.cpp: serialization_info", "src/edge_attributes.cpp", "include/spark_dsg/serialization/attribute_serialization.h"]}
{"id": "C24", "title": "Attribute type tables make files portable between programs", "statement": "A file written with one registration order of (at most 256) attribute classes is decoded correctly by a program with any other registry that has the class; a class the program lacks yields no attributes and is never mistaken for another class. (Its bytes are not skipped: counterexample proved.)", "quantifier": "all registries (any names, any order)", "why_tests_cant": "Quantifies over registries.", "anchors": ["include/spark_dsg/serialization/attribute_registry.h: fromNames, names", "src/serialization/graph_binary_serialization.cpp: loadFactory"]}
{"id": "C25", "title": "Graph binary round-trip", "statement": "readGraph(writeGraph(g)) reproduces layer ids, all nodes (layer, id, stamp, attributes as in C23), all edges (source, target, attributes), adjacency and mesh, also through a file with its header, also when the reading program registered its attribute classes in another order.", "quantifier": "all reachable graphs with at least one layer, no stamps on static nodes, dynamic layers under known layer ids and without null slots (each condition has a machine-checked counterexample)", "why_tests_cant": "End-to-end over unbounded graphs, at byte level.", "anchors": ["src/serialization/graph_binary_serialization.cpp: writeGraph, readGraph"]}
{"id": "C26", "title": "updateGraph makes the receiver mirror the sender", "statement": "After updateGraph(h, writeGraph(g)), h has exactly g's nodes, edges, attributes (as in C23) and adjacency; receiver nodes and edges that g lacks are gone; edges that h had keep their orientation; the mesh is the message's, or the old one if there is none in the message.", "quantifier": "all pairs (g,h) of reachable graphs where g is as in C25 and, if the layer ids agree, h has no node of g in another layer or with another stamp, no other node with such a stamp in the same dynamic layer, and no edges between different layers of one id; all iteration orders of the stale-node set", "why_tests_cant": "Quantifies over pairs of graphs and hash-set orders.", "anchors": ["src/serialization/graph_binary_serialization.cpp: updateGraph"]}
{"id": "C27", "title": "JSON round-trip", "statement": "Converting a graph to the JSON document, printing, parsing and reading it back succeeds and reproduces layer ids, nodes (layer, stamp, attributes as far as the format keeps them), edges (orientation, attributes), adjacency and, if asked for, the mesh; the result is again an ordinary graph. The format keeps of an attribute object what the binary format keeps, except that an invalid bounding box loses its members, a rotation goes through a quaternion, and coefficients of vectors and matrices (positions, mesh vertices, features) that are not finite come back as NaN. Not so (counterexamples): a weight that is not finite makes the document unreadable, a string that is not UTF-8 cannot be written, a stamped static node moves to a dynamic layer, an unknown edge class silently gives default attributes, a graph without layers cannot be read.", "quantifier": "all reachable graphs with at least one layer, UTF-8 strings, finite scalar numbers (edge weights, probabilities, distances, quaternions, voxel positions), any numbers in vectors, matrices and meshes, and no stamps on static nodes; all pairs of writing and reading programs whose registries know the classes used", "why_tests_cant": "End-to-end over unbounded graphs.", "anchors": ["src/serialization/graph_json_serialization.cpp", "src/serialization/json_conversions.cpp"]}
{"id": "C28", "title": "Mesh binary round-trip", "statement": "Deserialising a serialised mesh yields an equal mesh (points, faces, and the optional colours, stamps, first-seen stamps and labels), for every combination of present attributes.", "quantifier": "all meshes", "why_tests_cant": "Unbounded sizes and 16 attribute combinations.", "anchors": ["src/serialization/mesh_serialization.cpp", "src/mesh.cpp"]}
{"id": "C29", "title": "File header and version gate", "statement": "A header written by the library is read back identically with the payload offset just after it; a file without the identifier is treated as legacy, a file older than 1.0.2 is refused; version comparison is a total order.", "quantifier": "all headers, all versions, all byte strings", "why_tests_cant": "All versions/strings.", "anchors": ["src/serialization/versioning.cpp", "include/spark_dsg/serialization/versioning.h"]}
{"id": "C30", "title": "File type is decided by extension", "statement": "save picks binary exactly for .sparkdsg paths, JSON exactly for .json paths, appends .sparkdsg to a path without extension, refuses others; load reads back what save wrote under the final path and refuses every other extension. (load of the extension-less string itself fails: counterexample.)", "quantifier": "all path strings", "why_tests_cant": "All strings.", "anchors": ["src/serialization/file_io.cpp: verifyFileExtension, identifyFileType"]}
{"id": "C31", "title": "Node ids pack and unpack without loss", "statement": "NodeSymbol(key,index) packs any key and any index < 2^56 injectively and returns them; LayerPrefix::makeId/index/matches/fromId are mutually inverse for indices < 2^32; incrementing a symbol never changes its category.", "quantifier": "all 64-bit ids, keys and indices", "why_tests_cant": "2^64 values.", "anchors": ["include/spark_dsg/node_symbol.h", "src/node_symbol.cpp", "src/scene_graph_types.cpp: LayerPrefix"]}
{"id": "C32", "title": "Edge keys are undirected and totally ordered", "statement": "EdgeKey(a,b) = EdgeKey(b,a), two keys are equal iff they denote the same unordered pair, and operator< is a strict total order consistent with equality.", "quantifier": "all pairs of ids", "why_tests_cant": "2^128 values.", "anchors": ["include/spark_dsg/edge_container.h: EdgeKey"]}
{"id": "C33", "title": "Edge container is a map with status log", "statement": "insert/remove/rewire/find/reset on an edge container act as on a map from unordered pairs to edges; insert never overwrites; every present edge has status NEW or VISIBLE, every absent one DELETED or none.", "quantifier": "all operation sequences", "why_tests_cant": "History property.", "anchors": ["src/edge_container.cpp"]}
{"id": "C34", "title": "An isolated layer behaves like a simple graph", "statement": "Any history of operations on a single static layer (emplace/insert/remove/merge nodes, insert/remove/rewire edges) keeps siblings equal to the edge relation, has no dangling or self edges and never faults.", "quantifier": "all histories", "why_tests_cant": "History property.", "anchors": ["src/scene_graph_layer.cpp", "include/spark_dsg/scene_graph_layer.h: IsolatedSceneGraphLayer"]}
{"id": "C35", "title": "Breadth-first search visits exactly the reachable nodes once", "statement": "breadthFirstSearch from a root calls the callback exactly once for each node reachable from it, in order of non-decreasing hop distance, and terminates.", "quantifier": "all finite graphs, all roots", "why_tests_cant": "All graphs.", "anchors": ["include/spark_dsg/graph_utilities.h: breadthFirstSearch"]}
{"id": "C36", "title": "Depth-limited search and getNeighborhood", "statement": "breadthFirstSearch with limit k and getNeighborhood(n,k) visit exactly the nodes at hop distance at most k, each once.", "quantifier": "all finite graphs, roots and limits", "why_tests_cant": "All graphs.", "anchors": ["include/spark_dsg/graph_utilities.h: breadthFirstSearch(limit)", "src/scene_graph_layer.cpp: getNeighborhood"]}
{"id": "C37", "title": "Connected components partition the graph", "statement": "getConnectedComponents returns pairwise disjoint lists without repetition; two nodes are in the same list iff they are connected; every (valid) node is in one.", "quantifier": "all finite graphs, all iteration orders of the root set", "why_tests_cant": "All graphs and hash orders.", "anchors": ["include/spark_dsg/graph_utilities.h: getConnectedComponents"]}
{"id": "C38", "title": "Merging overlapping components", "statement": "getMergedComponents loses and invents no node, puts two nodes in one output only if a chain of overlapping inputs joins them, never returns more sets than it got, and returns as many exactly when the inputs were disjoint (then unchanged). One call need not return disjoint sets; called again on its own result as often as there were inputs it returns exactly the classes of chained nodes.", "quantifier": "all lists of sets", "why_tests_cant": "Only some orders of overlapping sets break it.", "anchors": ["include/spark_dsg/graph_utilities.h: getMergedComponents"]}
{"id": "C39", "title": "Erasing mesh vertices and faces", "statement": "eraseVertices keeps the remaining vertices in order with their attributes, re-indexes the faces to the same points and drops exactly the faces touching an erased (or nonexistent) vertex; eraseFaces drops exactly the listed faces and (optionally) the vertices no remaining face uses. Both throw, changing nothing, when given more indices than there are vertices/faces.", "quantifier": "all meshes whose attribute vectors are aligned (C40), all index sets", "why_tests_cant": "All sizes and index sets.", "anchors": ["src/mesh.cpp: eraseVertices, eraseFaces"]}
{"id": "C40", "title": "Mesh operations keep attribute vectors aligned", "statement": "After any sequence of mesh operations (resize, set, clear, clone, transform, erase; refused ones included) each enabled attribute vector has one entry per vertex, disabled ones are empty, nothing undefined happens, and setters change exactly what the getter of the same index returns. Faces only refer to existing vertices unless vertices are shrunk by resizeVertices (counterexample) or a face is set to a nonexistent vertex.", "quantifier": "all operation sequences", "why_tests_cant": "History property.", "anchors": ["src/mesh.cpp: resizeVertices, clear, append, clone"]}
{"id": "C41", "title": "Adjacency matrices and Laplacians match the layer", "statement": "For an assignment of distinct rows to nodes of a layer and a weight function, the adjacency matrix holds the weight of the pair where two nodes share an edge and 0 elsewhere; it is symmetric with zero diagonal. The Laplacian is its negation off the diagonal and holds each node's summed weights on the diagonal. The sparse versions hold the weight of the directed pair, and agree with the dense ones for direction-independent weights. (Shared rows overwrite each other: counterexample.)", "quantifier": "all layers, all injective orderings of some of their nodes, all weight functions", "why_tests_cant": "All sizes.", "anchors": ["src/adjacency_matrix.cpp"]}
{"id": "C42", "title": "Layer views filter consistently", "statement": "Iterating over a layer view visits exactly the nodes accepted by its filter (all nodes, without filter), each once, in id order. (A default-constructed view has no layer; iterating over it follows a null pointer.)", "quantifier": "all layers, all predicates", "why_tests_cant": "All layers and predicates.", "anchors": ["src/layer_view.cpp", "include/spark_dsg/layer_view.h"]}
{"id": "C43", "title": "Colours: total order, hash, and blending bounds", "statement": "operator< on colours is a strict total order whose ties are exactly ==, == compares the four channels, and different colours have different hashes.", "quantifier": "all colours", "why_tests_cant": "2^32 (pairs 2^64) values.", "anchors": ["include/spark_dsg/color.h", "src/color.cpp"]}
{"id": "C44", "title": "Layer names and ids", "statement": "StringToLayerId(LayerIdToString(id)) = id for every named layer, is case-insensitive, and unknown strings map to UNKNOWN.", "quantifier": "all strings and ids", "why_tests_cant": "All strings.", "anchors": ["src/scene_graph_types.cpp: LayerIdToString, StringToLayerId"]}
{"id": "C45", "title": "ZMQ receiver hands out each update once and the latest graph", "statement": "hasChange() is true exactly if something was published since the last graph() call began; graph() is null exactly if nothing was published, otherwise it mirrors the graph sent with the last message processed so far (nodes, edges, adjacency, mesh); when the receive thread is idle and hasChange() is false, the last graph() call returned the latest state (no lost update); without overlap of graph() with the processing of a message nothing throws or is undefined. With an overlap there is a data race, an update may be announced again after it was handed out, and a malformed message ends the program (counterexamples).", "quantifier": "all schedules of the receive thread and user threads, all sequences of well-formed messages", "why_tests_cant": "Schedules.", "anchors": ["src/zmq_interface.cpp"]}
{"id": "C46", "title": "Descendant collection", "statement": "getAncestorsOfLayer(parent, child_layer) reports exactly the nodes of the child layer that can be reached from the given node through child links; each once if no node has two parents. (Layer 0 below layer 1 is missed; nodes with several parents are reported once per path: counterexamples.)", "quantifier": "all reachable graphs, nodes, and layers with id other than 0", "why_tests_cant": "All graphs.", "anchors": ["src/scene_graph_utilities.cpp: getAncestorsOfLayer"]}
{"id": "C47", "title": "Byte-order conversion is lossless", "statement": "SwapEndian reverses the bytes and is an involution; on a host of either byte order words are read back as written. (Files are not portable between byte orders, because NeedEndianSwap is never true: counterexample proved.)", "quantifier": "all 16/32/64-bit words", "why_tests_cant": "2^64 values.", "anchors": ["include/spark_dsg/serialization/binary_serialization.h: SwapEndian"]}
{"id": "C48", "title": "Node labels and literals", "statement": "getLabel gives different labels to different symbols with printable categories, and the literal suffix reads \"a12\" as the symbol with category a and index 12.", "quantifier": "all categories and indices", "why_tests_cant": "All 2^64 ids.", "anchors": ["include/spark_dsg/node_symbol.h", "src/node_symbol.cpp: getLabel, operator\"\"_id"]}
{"id": "C49", "title": "Files of older supported versions are still read", "statement": "A binary file that format version 1.0.2, 1.0.3 or 1.0.4 wrote for a graph is loaded without error by the current version, and so are attribute objects in JSON documents of versions 1.0.0 to 1.0.4: layer ids, nodes, edges, adjacency and mesh are those of the graph; members that did not exist yet have their default (is_predicted false), colours without alpha are opaque, and bounding boxes stored by corners get the extent between the corners. (The mesh of a JSON document of version 1.0.1 or older is read without the time stamps and labels its flags announce: counterexample theorem.)", "quantifier": "every graph reachable by API calls that the format can store, every supported old version, every corner pair of every old bounding box, every attribute class, every further member of the JSON objects", "why_tests_cant": "tests hold a few archived files; a wrong version boundary desynchronises the byte stream only for particular classes and versions", "anchors": ["src/node_attributes.cpp:134,184", "src/serialization/binary_conversions.cpp:45", "src/serialization/json_conversions.cpp:67", "src/serialization/graph_binary_serialization.cpp:readGraph", "src/serialization/versioning.cpp:checkCompatibility", "src/serialization/mesh_serialization.cpp:deserializeMeshLegacy"]}
{"id": "C50", "title": "Reading a JSON document of any origin is safe", "statement": "Given any JSON document whose header claims a version after 1.0.2, readGraph returns a graph or throws; given any document, so does reading it as a mesh; and further arbitrary binary messages may be applied to the graph read. This holds in builds where integer arithmetic and float-to-integer conversion give some value and Eigen's assertions are on; without either, and for older documents that leave out a colour, there are documents that cause undefined behaviour (counterexample theorems). Unlike binary files, documents are not checked for compatibility (theorem).", "quantifier": "every JSON tree, every registry of attribute classes, every sequence of binary messages afterwards", "why_tests_cant": "the documents are under nobody's control; tests try a few well-formed ones", "anchors": ["src/serialization/graph_json_serialization.cpp: readGraph, read_node_from_json, read_edge_from_json", "include/spark_dsg/serialization/json_conversions.h", "src/serialization/json_conversions.cpp", "src/node_attributes.cpp: serialization_info", "src/serialization/mesh_serialization.cpp: deserializeFromJson"]}
{"id": "C51", "title": "Misuse does not corrupt memory", "statement": "Whatever is called, in whatever order and with whatever arguments, no call dereferences a null pointer or reads out of bounds, and neither does a later query; known nodes always have a record with attributes. Only four things must be avoided: appending to a trajectory that is also back-filled, merging two different nodes of one trajectory whose layer id has no static layer, merging after null attributes were stored for an edge, and more than 2^32 calls. (For the first three there is a history that is undefined behaviour: counterexample theorems.)", "quantifier": "all histories of graph operations that avoid the four, in particular with all other misuses of C05; up to the first exception", "why_tests_cant": "Misuse combines in ways nobody enumerates; a test sees undefined behaviour only if it happens to crash.", "anchors": ["src/dynamic_scene_graph.cpp", "src/scene_graph_layer.cpp", "src/dynamic_scene_graph_layer.cpp", "src/edge_container.cpp"]}
{"id": "C52", "title": "What survives misuse", "statement": "After every history as in the previous property: a node is known to the graph iff exactly the layer getLayerForNode names stores it; m is a parent of n iff n is a child of m, and the parent's layer id is strictly higher; an edge inside a layer joins two different nodes that list each other as siblings.", "quantifier": "all histories that avoid the four calls of the previous property, all nodes", "why_tests_cant": "Invariant over unbounded histories including misuse.", "anchors": ["src/dynamic_scene_graph.cpp: addAncestry, removeAncestry, dropAllParents, rewireInterlayerEdge, removeNode, mergeNodes"]}
{"id": "C53", "title": "Python iteration visits everything once", "statement": "In Python, for x in graph.nodes / graph.edges yields each node and edge of the static layers exactly once and ends; graph.layers and graph.dynamic_layers yield each layer once; layer.nodes, layer.edges and the interlayer edge lists yield what is stored, in key order. Nodes and edges of trajectories are left out of graph.nodes and graph.edges (counterexample). Iterating over the nodes of a dynamic layer delivers every node and then always reads past the end of the vector (theorem for every layer).", "quantifier": "all reachable graphs, all layers", "why_tests_cant": "Layers may be empty at the start, in the middle or at the end of the iteration; the cases multiply. Reading past the end goes unnoticed in tests.", "anchors": ["python/bindings/scene_graph_iterators.h: NodeIter, DynamicNodeIter, EdgeIter, GlobalNodeIter, GlobalEdgeIter, LayerIter, DynamicLayerIter"]}
{"id": "C54", "title": "What attribute equality means", "statement": "a == b on attribute objects is transitive, and symmetric between objects of one class; an object equals itself and its copies iff it holds no NaN outside its position; for objects whose numbers are neither NaN nor -0, a == b holds exactly if b's class is a's or derived from it and the part of b that a's class describes has the same members, leaving out the geometry of invalid boxes, the rotation of axis-aligned ones, room class probabilities, three members of 2D places and trajectory time stamps; an object read back from a file equals the one written, except for Khronos objects. Across classes equality is not symmetric, and comparing two objects that differ in the size of their semantic feature (or bag of words) ends the program instead of yielding false (counterexamples). Edge attributes, bounding boxes and meshes likewise.", "quantifier": "all attribute objects of the eight classes, including NaN, infinities, signed zeros", "why_tests_cant": "An equality is judged over all pairs and triples of objects; the existing tests change one member at a time.", "anchors": ["src/node_attributes.cpp: is_equal, matricesEqual, quaternionsEqual", "src/edge_attributes.cpp: is_equal", "src/bounding_box.cpp: operator==", "src/mesh.cpp: operator=="]}
{"id": "C55", "title": "Bounding boxes contain what they cover", "statement": "For a valid axis-aligned box with finite numbers, contains(p) is true for every finite point of the box (boundary included), whatever the rounding; a point it accepts is outside by at most one part in 2^24 of its distance to the centre; with two points everything between them is accepted; if the numbers lie on a grid of fewer than 2^21 cells, contains is exact. For a rotated box contains, pointToBoxFrame and pointToWorldFrame are right up to 50 parts in 2^24 of the distances involved. The corners of an axis-aligned box on a grid are its eight corners, all contained. A valid box of any type with finite numbers contains its centre; an invalid one contains nothing and has volume 0. A box need not contain the corners it reports (counterexample).", "quantifier": "all boxes and points with finite float coordinates, including subnormals and the largest floats", "why_tests_cant": "Rounding differs for every combination of magnitudes; tests use a few round numbers.", "anchors": ["src/bounding_box.cpp: isValid, contains, isInside, pointToBoxFrame, corners", "include/spark_dsg/bounding_box.h"]}
{"id": "C56", "title": "Intersection of bounding boxes", "statement": "intersects is symmetric for all boxes. For valid axis-aligned boxes with finite numbers: boxes it reports overlap, boxes that overlap by more than the precision of their coordinates are reported, and on a grid of fewer than 2^21 cells it is exact (touching does not count). computeIoU is symmetric; it is 0 or NaN for boxes that do not intersect; for boxes on a grid of spacing between 2^-48 and 2^17 it lies between 0 and 1, is positive iff the boxes intersect, and is 1 for equal boxes. Off a grid the IoU of a box with itself can be above 1, negative, 0 or NaN, and a valid oriented box does not intersect itself (counterexamples).", "quantifier": "all pairs of boxes with finite float coordinates", "why_tests_cant": "Rounding differs for every combination of magnitudes; tests use a few round numbers.", "anchors": ["src/bounding_box.cpp: intersects, computeIoU, volume, minCorner, maxCorner"]}
{"id": "C57", "title": "Fitting and merging bounding boxes", "statement": "The axis-aligned box fitted to finite points (below 2^127) has the extent of the points up to one part in 2^24, is valid iff on every axis two points differ, and every point is outside by at most one part in 2^24 of the largest coordinate; on a grid of fewer than 2^21 cells it is exactly the smallest box and contains all points. Merging two valid axis-aligned boxes gives a box that covers both and extends no further, up to five parts in 2^24 of the coordinates; exactly on a grid. Merging an invalid box changes nothing; merging into an invalid box copies. Off a grid the fitted box may not contain one of its points; merging two oriented boxes gives an invalid box (counterexamples).", "quantifier": "all non-empty lists of finite points, all pairs of valid axis-aligned boxes", "why_tests_cant": "Rounding differs for every combination of magnitudes, and lists are unbounded.", "anchors": ["src/bounding_box_extraction.cpp: extractAABB, extract", "src/bounding_box.cpp: merge, mergeAABB, mergeGeneral"]}
{"id": "C58", "title": "Exceptions can be caught", "statement": "If a call other than removeEdge, removeNode, insertParentEdge, mergeNodes and the stale sweep throws, the graph is exactly as before the call (strong exception guarantee), whatever the history. After a well-behaved history exactly setEdgeAttributes/findEdge with an unknown node and a merge of two nodes of one trajectory (under a static layer's id) throw, with std::out_of_range, and change nothing: a program that catches these exceptions gets the same answers and ends with the same graph as one that does not make those calls. (After a history with misuse the stale sweep can throw half-way, with part of the edges removed: counterexample.)", "quantifier": "all graphs (strong guarantee); all histories of well-behaved and throwing calls, with every exception caught", "why_tests_cant": "An exception guarantee is about the state after every possible failure of every call in every state.", "anchors": ["src/dynamic_scene_graph.cpp: all mutators", "src/edge_container.cpp: remove, rewire", "src/scene_graph_layer.cpp", "src/dynamic_scene_graph_layer.cpp"]}
{"id": "C59", "title": "Components of limited depth", "statement": "getConnectedComponents(layer, max_depth, roots) ends without fault for every order of the roots; a node is in some returned component iff it is within max_depth hops of a root in the layer; no component is empty; all nodes near one root are in one component; nodes of one component are joined by a chain of overlapping neighbourhoods of roots, and if the components are disjoint they are exactly the classes of that relation. (The components can share nodes and depend on the iteration order of the unordered root set: counterexample.)", "quantifier": "all consistent layers, depths, root sets and enumeration orders of them", "why_tests_cant": "Graphs, depths and hash iteration orders are unbounded.", "anchors": ["include/spark_dsg/graph_utilities.h: getConnectedComponents (286-320), breadthFirstSearch (101-133), getMergedComponents"]}
{"id": "C60", "title": "Colour maps and blending", "statement": "blend/merge, fromHSV, fromHLS, gray, quality, spectrum, ironbow and rainbow are defined for every float but NaN (infinities included): arguments are limited to [0,1] and every channel is the exact formula (linear interpolation, textbook HSV/HLS conversion, position on the path of colours), truncated to an integer, with at most 1/1024 of a step lost or gained by rounding before truncation; the ends of a blend, of gray and of a spectrum are exact; no blended channel exceeds both inputs or is more than one step below both; gray is monotone. spectrum never indexes out of range, for lists of any length. (NaN is undefined behaviour in all of them; blending a colour with itself can darken it and its alpha by one step; the 'never repeating' colours of ids repeat within 1537 ids: counterexamples.)", "quantifier": "all colours, all 2^32 bit patterns of each float argument, all lists of colours", "why_tests_cant": "A test samples a few values; rounding before truncation decides each of 2^32 weights for each of 2^16 channel pairs.", "anchors": ["src/color.cpp: blend, merge, rgbFromChromaHue, fromHSV, fromHLS, gray, quality, spectrum, ironbow, rainbow, rainbowId"]}
{"id": "C61", "title": "Statistics files of the logger", "statement": "logGraph throws nothing on a graph made by any well-behaved history, whatever the names and files. A new logger's first call replaces the file <dir>/<name>_layer.csv of every named layer by the header and one line; every later call appends one line if the layer has a node, and leaves the file alone if not; other files are untouched, and unnamed and dynamic layers write nothing. In each line: the nodes of the layer; the ids that left the layer since the last clearing getRemovedNodes (or clear, reset), other than by a merge, and are not back; the ids merged away and not back; the nodes with exactly one parent (a node with two is not counted); the nodes with a child; the edges inside the layer. A second name for a layer is ignored; a layer first named after the first call gets no header and its lines follow whatever the file held.", "quantifier": "all histories, all sequences of logged graphs, all layer names with distinct files, all previous file contents", "why_tests_cant": "Counts depend on the whole history and files on the whole sequence of calls.", "anchors": ["src/scene_graph_logger.cpp: logGraph, writeStatsToCsv", "include/spark_dsg/scene_graph_logger.h: setLayerName, setOutputPath"]}
{"id": "C62", "title": "Meshes as arrays in Python", "statement": "mesh.get_vertices() works on every mesh and gives a 6 x n array whose column i is the exact position of vertex i and its red, green and blue divided by 255 (zeros without a colour); writing it back with set_vertices restores every position and colour, and only makes the colours opaque. set_vertices with any 6 x n array gives the mesh n vertices with those positions (rounded to float) and, if it has colours, 255 times the entries, truncated; faces and flags stay. A colour entry outside [0, 1] by more than 1/254, an infinity or NaN is undefined behaviour. set_faces stores every 3 x n array of ints, and get_faces gives it back; indices are not checked, negative ones are stored as huge ones; get_faces then set_faces restores the mesh iff no index lies in [2^31, 2^64 - 2^31). Arrays with another number of rows are refused with invalid_argument and change nothing.", "quantifier": "all meshes, all arrays with fewer than 2^31 columns, all doubles and ints as entries", "why_tests_cant": "c / 255.0 * 255 truncates to c only if the roundings work out; entries are arbitrary doubles.", "anchors": ["python/bindings/spark_dsg_bindings.cpp: getEigenVertices, setEigenVertices, getEigenFaces, setEigenFaces"]}
{"id": "C63", "title": "Fitting yaw-aligned boxes", "statement": "A yaw-aligned (RAABB) box can be fitted to every non-empty set of finite points with coordinates below 2^125: no undefined behaviour. The hull found on the way lists distinct input points, beginning with the lowest (the leftmost of these). If, seen from the lowest point, no other point is at the same place and no two are in (nearly) the same direction - cosines 2^-20 apart, for points on a raster of at most 2047 cells; merely different directions, within 64 cells - the hull is the convex hull, in counter-clockwise order. The box of at least two such points is a finite RAABB box that contains every input point up to 2^-10 of the largest coordinate (with sin, cos and atan2 accurate to 2^-20); it lies along an edge of the convex hull, its first axis is the direction of the edge, its sides are the extents of the points along, across and in height, and no box along another edge has an area smaller by more than 2^-12 of the squared largest coordinate. Otherwise things go wrong: a single point, or the lowest point given twice, gives a box with a NaN centre; points in the same or nearly the same direction from the lowest can be lost from the hull; near the largest float the comparison given to std::sort is no ordering (undefined behaviour).", "quantifier": "all lists of points as stated, every sort function that meets the C++ standard's requirements, every sufficiently accurate sin, cos and atan2", "why_tests_cant": "The angle comparison, the turn test and the hyperplane distances are all rounded; the claims are about all point sets and about every conforming std::sort.", "anchors": ["src/bounding_box_extraction.cpp: getAngle, getDist, getJointDirection, get2dConvexHull, getMin2DBox, extractRAABB", "src/bounding_box.cpp: BoundingBox(dimensions, center, yaw), pointToBoxFrame"]}
{"id": "C64", "title": "Boxes around what is below a node", "statement": "computeAncestorBoundingBox(graph, node, layer, type), for a layer other than the one with id 0, ends without fault and fits a box of the type to the positions (rounded to floats) of exactly the nodes of the layer that are below the node. There is no box if there are no such nodes (or no such node), and none of type OBB. The axis-aligned box of finite positions at most M (up to 2^126) from the origin contains every position up to M/2^22, extends at most M/2^21 beyond any bounds of the positions, and is valid exactly if on each axis two positions differ as floats (so a single node below gives no valid box). The yaw-aligned box is defined for positions up to 2^124. Nodes with two parents are used twice, which can give a yaw-aligned box with a NaN centre; nodes of the layer with id 0 can be missed.", "quantifier": "all graphs built with the API, all nodes, layers and positions", "why_tests_cant": "The nodes below a node depend on the whole history; the accuracy claim is about all doubles and two roundings.", "anchors": ["src/scene_graph_utilities.cpp: computeAncestorBoundingBox, NodeAdaptor, getAncestorsOfLayer", "src/bounding_box_extraction.cpp: extract", "src/dynamic_scene_graph.cpp: getPosition"]}
{"id": "C65", "title": "Saving and loading files, end to end", "statement": "graph.save(path) followed by load of the file it names (path, or path.sparkdsg if path has no extension), in any program that knows the attribute classes, gives the same layers, nodes, edges, adjacency and, if asked for, mesh (attributes as far as the format keeps them), for binary and JSON; mesh.save and Mesh::load give the mesh back exactly. Only the named file is touched, and none if the extension is unknown. A binary save that throws touches nothing; a JSON save that throws has emptied the file (what was saved before is lost). Errors of the output stream are never reported: the call ends the same whatever became of the bytes. Loading any contents of any file returns or throws. A binary mesh file is refused as a graph, a binary graph file as a mesh, a JSON mesh file as a graph; a JSON graph file loaded as a mesh silently gives an empty mesh.", "quantifier": "all graphs built with the API, meshes, paths, previous disk contents, programs with other registration orders; every JSON library that parses what it prints", "why_tests_cant": "It is a statement about all graphs, all paths, all disk contents and all failures of the disk.", "anchors": ["src/dynamic_scene_graph.cpp: save, load", "src/serialization/file_io.cpp: saveDsgBinary, loadDsgBinary, saveDsgJson, loadDsgJson", "src/serialization/mesh_serialization.cpp: Mesh::save, Mesh::load"]}
{"id": "C66", "title": "Interrupted saves", "statement": "If writing a file stops after any number of bytes (crash, full disk), the file is afterwards refused with an exception: binary graphs and meshes, and JSON graphs and meshes if the JSON library refuses every proper beginning of the text of an object. There is one exception: a binary graph file from which exactly the bytes of the mesh are missing is loaded without its mesh, and without an error. So a graph with wrong or missing nodes or edges is never loaded. Saving over a file is not atomic: if the process dies before the first byte is written, nothing can be loaded any more.", "quantifier": "all graphs and meshes that can be saved, all crash points, all previous disk contents, all reading programs that know the attribute classes", "why_tests_cant": "The crash point is arbitrary, and so are the bytes after which the file ends.", "anchors": ["src/serialization/file_io.cpp: saveDsgBinary, loadDsgBinary, saveDsgJson, loadDsgJson", "src/serialization/mesh_serialization.cpp: Mesh::save, Mesh::load", "include/spark_dsg/serialization/binary_serialization.h: checkIfTrue, checkDynamicArrayEnd", "src/serialization/graph_binary_serialization.cpp: updateGraph"]}
{"id": "C67", "title": "Catching exceptions and going on", "statement": "A program makes any calls, catches every exception (also those thrown half-way through removeEdge, removeNode, insertParentEdge, mergeNodes or removeAllStaleEdges) and goes on with the graph as the throwing call left it. If no trajectory is both appended to and back-filled, and no merge comes after a null edge attribute was stored or joins nodes of a trajectory without a static layer, then no call runs into undefined behaviour, every call is answered with a value or an exception, and the graph it ends with answers every query, has no null nodes, stores every known node in exactly one layer, and has mirrored parents, children and siblings.", "quantifier": "all layer lists, all histories of calls within the stated limits, all places where a call can throw", "why_tests_cant": "The calls after a half-finished call start from states that no history without exceptions reaches; the claim is about all of them.", "anchors": ["src/dynamic_scene_graph.cpp: removeEdge, removeNode, insertParentEdge, mergeNodes, removeAllStaleEdges, removeStaleEdges, and the other mutators", "src/scene_graph_layer.cpp: removeNode, removeEdge, mergeLayer", "src/dynamic_scene_graph_layer.cpp: removeNode, removeEdge"]}
{"id": "C68", "title": "Bad messages do not break the receiver", "statement": "A program applies arbitrary byte strings as messages to its graph with updateGraph, makes other calls in between (neither appending to trajectories nor merging nodes), catches every exception and goes on with the graph as the exception left it: half-applied messages included. It never runs into undefined behaviour (with Eigen's assertions on, or no agent attributes registered, and signed overflow wrapping), and as long as it runs its graph answers every query, has no null nodes, stores every known node in exactly one layer and has mirrored parents, children and siblings. Merging is excluded because a message with unknown edge attributes can leave a null pointer that a merge dereferences; appending because a received trajectory cannot be continued and, once removed by a later message, appending to it corrupts the layer.", "quantifier": "all byte strings and sequences of messages, all calls in between within the stated limits, all starting graphs reached by careful histories with caught exceptions (C67)", "why_tests_cant": "The bytes are arbitrary, and every message starts from whatever state the previous broken one left.", "anchors": ["src/serialization/graph_binary_serialization.cpp: updateGraph, parseNode, parseEdge", "src/dynamic_scene_graph.cpp: addOrUpdateNode, addOrUpdateEdge, removeNode, removeAllStaleEdges, mergeNodes", "src/dynamic_scene_graph_layer.cpp: emplaceNode, emplacePrevNode"]}
{"id": "C69", "title": "A receiver on a lossy line recovers", "statement": "A sender sends successive versions of its graph to a receiver, which applies what arrives in place (updateGraph), catches exceptions and goes on. Of every message only a beginning of any length may arrive. The receiver never faults or aborts; its graph is always one that a history of correct calls would have produced; every node (with its attributes), edge and mesh in it is from the receiver's first graph or from a graph that was sent, apart from the default edges that removing a node puts into a trajectory; and after any message that arrives as a whole it mirrors the graph sent, whatever was lost before.", "quantifier": "all receivers' graphs after any history, all finite sequences of messages for graphs that are versions of each other, all points at which each message is cut", "why_tests_cant": "tests try a few truncations of one message; the states that several truncated messages in a row leave behind are a product of all truncation points", "anchors": ["src/serialization/graph_binary_serialization.cpp: updateGraph, parseNode, parseEdge", "include/spark_dsg/serialization/binary_serialization.h: BinaryDeserializer", "src/dynamic_scene_graph.cpp: addOrUpdateNode, removeNode, markEdgesAsStale, removeAllStaleEdges"]}
{"id": "C70", "title": "JSON documents with missing fields", "statement": "A JSON document of a graph of whose attribute objects any fields other than the class name are missing, in any order of the fields and with any unknown fields added, loads without an error. The loaded graph has the same layers, nodes, stamps, edges, adjacency and mesh; present fields have their values, and each missing member has the value of a newly constructed attribute object. The result depends on the document only, unless the missing field is one that the constructor leaves uninitialised (the ellipse of a 2D place; orientation and key of an agent node): then whatever was in memory becomes part of the graph.", "quantifier": "all graphs reachable by correct calls that can be written as JSON, all subsets of fields per class of nodes and of edges, all orders of fields, all additional fields", "why_tests_cant": "The number of subsets and orders of fields is exponential, and the values of uninitialised members in a test run are accidental.", "anchors": ["include/spark_dsg/serialization/attribute_serialization.h: JsonReader::read", "src/node_attributes.cpp: constructors and serialization_info", "src/edge_attributes.cpp: EdgeAttributes", "src/serialization/graph_json_serialization.cpp: readGraph, read_node_from_json, read_edge_from_json"]}
{"id": "C71", "title": "Which graphs can be written as JSON", "statement": "Saving a graph as JSON succeeds exactly if every string in it is text, that is a UTF-8 encoding of Unicode characters: the names of nodes, the class names of rooms, the detail names of Khronos objects, and the names of the attribute classes in use. Numbers of any kind (NaN, infinite) and the mesh never make it fail. Otherwise the call throws the JSON library's exception and nothing else; it never runs into undefined behaviour. A mesh can always be written.", "quantifier": "all graphs reachable by correct calls, all registries, with and without mesh, all byte strings as names", "why_tests_cant": "The strings are arbitrary bytes and can be anywhere in the graph; the other direction is a claim about all values of all other members.", "anchors": ["src/serialization/graph_json_serialization.cpp: writeGraph", "src/serialization/mesh_serialization.cpp: serializeToJson", "src/node_attributes.cpp: serialization_info", "include/spark_dsg/serialization/json_conversions.h: to_json"]}
{"id": "C72", "title": "Which saved JSON documents can be loaded", "statement": "Saving as JSON never complains about numbers that are not finite, and loading accepts them in vectors, matrices and meshes (as NaN) only. A saved graph can be loaded again exactly if its scalars are finite: edge weights, class probabilities of rooms, distances of places, quaternions (for a bounding box that of its rotation, if the box is valid) and voxel positions of places' mesh connections. If one of them is not, the save reports success and loading throws the JSON library's exception; it never faults.", "quantifier": "all graphs reachable by correct calls whose save as JSON succeeded, all finite, infinite and NaN values of all numbers in them, with and without mesh", "why_tests_cant": "A claim in both directions about all values of all numeric members anywhere in the graph; tests try a few values in a few members.", "anchors": ["src/serialization/graph_json_serialization.cpp: writeGraph, readGraph", "include/spark_dsg/serialization/json_conversions.h: from_json, to_json", "src/serialization/json_conversions.cpp: from_json, to_json", "src/dynamic_scene_graph.cpp: save, load"]}
{"id": "C73", "title": "Which graphs can be written in the binary format", "statement": "Saving a graph in the binary format (to a file, or as a message) succeeds exactly if every length in it is a number of 32 bits (number of layers, registered classes, lengths of strings, vectors, maps and matrices in node attributes and of the mesh if included) and no trajectory has an empty slot. A length that is too large is reported by an exception. An empty slot is not: the writer dereferences a null pointer; and removing any node of a trajectory leaves such a slot, so a graph from which an agent node was removed can never be saved in this format again. A graph that fits is saved, and any program that knows its classes loads it.", "quantifier": "all graphs reachable by correct calls, all registries, with and without mesh, all byte strings and numbers as contents", "why_tests_cant": "A claim in both directions about all contents of a graph; the lengths at which writing fails are out of reach of tests.", "anchors": ["src/serialization/graph_binary_serialization.cpp: writeGraph, write_binary", "src/serialization/binary_serialization.cpp: startFixedArray", "src/serialization/file_io.cpp: saveDsgBinary", "src/dynamic_scene_graph_layer.cpp: removeNode"]}
{"id": "C74", "title": "What a file contains depends on the content of the graph only", "statement": "Two graphs with the same layer ids, nodes (layer, stamp, attributes), edges (orientation, attributes) and mesh are written as the same bytes in the binary format and as the same JSON document, whatever their histories: insertion order, removed and re-added nodes and edges, replaced attributes, empty trajectories, pending change logs leave no trace in a file (the binary format cannot write trajectories with empty slots at all, C73; a trajectory that was only appended to has none). In particular a binary file that is loaded and saved again by a program with the same classes is reproduced byte for byte, and the loaded graph is again one that can be saved.", "quantifier": "all pairs of graphs reachable by correct calls with the same content, all histories leading to them, all registries, with and without mesh; all files saved from such graphs", "why_tests_cant": "A claim about all pairs of histories that lead to the same content.", "anchors": ["src/serialization/graph_binary_serialization.cpp: writeGraph, readGraph", "src/serialization/graph_json_serialization.cpp: writeGraph", "src/serialization/file_io.cpp: saveDsgBinary, loadDsgBinary, saveDsgJson", "src/dynamic_scene_graph.cpp: save, load"]}
{"id": "C75", "title": "Messages that are repeated, superseded or passed on", "statement": "Reading a message that was already read changes nothing (layer ids, nodes, edges with their orientation, mesh). What a receiver has after a message depends on that message only, not on what it had or read before, except that edges it already had keep their orientation and that a mesh it already had stays if the message has none. A graph that reads its own message keeps everything but the attribute members that the format does not carry. A receiver that passes on what it has makes the next receiver mirror the original sender.", "quantifier": "all senders, receivers and second receivers reachable by correct calls that accept each other, with arbitrary pasts; all orders in which stale nodes are removed; messages anywhere in a buffer", "why_tests_cant": "A claim about all pairs of histories of receivers and all messages.", "anchors": ["src/serialization/graph_binary_serialization.cpp: updateGraph, writeGraph", "src/zmq_interface.cpp: ZmqReceiver::recv", "src/dynamic_scene_graph.cpp: addOrUpdateNode, addOrUpdateEdge, removeAllStaleEdges"]}
{"id": "C76", "title": "Merging the same graph again", "statement": "After mergeGraph of two graphs that fit together, the result and the other graph fit together again, and a second call with the same arguments succeeds and leaves every node (its layer, time stamp and attributes), the layer ids, the layers, the trajectories and the mesh as they are. If no id map is given and the parent rule is off, it also neither adds nor removes an edge. With an id map that chains it can: an edge that the first call added is removed by the second.", "quantifier": "all pairs of graphs reachable by correct calls that can be merged (the conditions of C18), all configurations, all arithmetic on positions", "why_tests_cant": "A claim about all pairs of histories and two successive calls.", "anchors": ["src/dynamic_scene_graph.cpp: mergeGraph", "src/scene_graph_layer.cpp: mergeLayer", "src/dynamic_scene_graph_layer.cpp: mergeLayer", "include/spark_dsg/base_layer.h: GraphMergeConfig"]}
