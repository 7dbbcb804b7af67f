M=[]
def m(id,file,d,old,new,claim,**k): M.append(dict(id=id,file=file,definition=d,old=old,new=new,claim=claim,**k))
Y='Model/Types.lean'; Q='Model/Equal.lean'
m('M205',Y,'EdgeKey.of','⟨if b < a then b else a, if a < b then b else a⟩','⟨a, b⟩','C02: an edge is found from both ends')
m('M206',Y,'Node.getParent','if n.parents.size != 1 then none','if n.parents.size = 0 then none','C08: getParent of a node with several parents',note='Second run of M181, which survived; C08_queries was added.')
m('M207',Q,'F64.eq','!x.isNan && !y.isNan && (x == y','!x.isNan && (x == y','C54: comparison with NaN',nth=0)
m('M208',Q,'F64.eq','(x == y || (x &&& 0x7FFFFFFFFFFFFFFF == 0 && y &&& 0x7FFFFFFFFFFFFFFF == 0))','(x == y)','C54: the two zeros are equal',note='SURVIVED is possible: C54 says nothing about -0 beyond equivalence.')
m('M209',Q,'Matrix.eqDyn','if a.rows = b.rows ∧ a.cols = b.cols then','if a.rows * a.cols = b.rows * b.cols then','C54: exact on plain numbers; shapes count')
m('M210',Q,'EdgeAttrs.eq','a.weighted == b.weighted && ','','C54: all members of edge attributes count')
m('M211',Q,'BBox.eq','else if a.type == 1 then true\n','','C54: the rotation of an axis-aligned box is ignored')
m('M212',Q,'BBox.eq','!V3f.eq a.dims b.dims || ','','C54: box dimensions count')
m('M213',Q,'Mesh.eq',' && a.labels == b.labels &&\n  a.faces',' &&\n  a.faces','C54: mesh labels count')
m('M214',Q,'NearestVertexInfo.eq',' && a.label == b.label','','C54: connection labels count',nth=0)
m('M215',Q,'BaseAttrs.eq',' && a.isPredicted == b.isPredicted','','C54: is_predicted counts')
m('M216',Q,'BaseAttrs.eq','F64.eqNan a.position.x b.position.x','F64.eq a.position.x b.position.x','C54: NaN positions compare equal')
m('M217',Q,'SemanticAttrs.eq','a.name == b.name && ','','C54: names count')
m('M218',Q,'ObjectAttrs.eq',' && Quat.eq a.worldRObject b.worldRObject','','C54: the object orientation counts')
m('M219',Q,'PlaceAttrs.eq',' &&\n  a.numFrontierVoxels == b.numFrontierVoxels','','C54: the number of frontier voxels counts')
m('M220',Q,'Place2dAttrs.eq',' &&\n  a.hasActiveMeshIndices == b.hasActiveMeshIndices','','C54: has_active_mesh_indices counts')
m('M221',Q,'AgentAttrs.eq','if e then Matrix.eqDyn assertions F32.eq a.dbowValues b.dbowValues else .ok false','.ok e','C54: bag of words values count')
m('M222',Q,'KhronosAttrs.eq','Mesh.eq a.mesh b.mesh','Mesh.eq a.mesh a.mesh','C54: the mesh of a Khronos object counts (swapped argument)')
m('M223',Q,'NodeAttrs.semanticEq','if !b.eq other.base\' then .ok false else s.eq','if false then .ok false else s.eq','C54: position counts')
m('M224',Q,'NodeAttrs.objectEq','if !e then .ok false else .ok (o.eq o\')','if e then .ok true else .ok (o.eq o\')','C54: members of objects count',)
m('M225',Q,'NodeAttrs.isEqual','| room _ _ _ => semanticEq','| _ => semanticEq','C54: a room differs from a place',)
m('M226',Q,'NodeAttrs.object?','| object _ _ o | khronos _ _ o _ => some o','| object _ _ o => some o','C54: a Khronos object is an object')
m('M227',Q,'listEq','| _, _ => false','| _, _ => true','C54: lists of different length differ')
