M=[]
def m(file,defn,old,new,claim,props,nth=0):
    M.append(dict(file=file,defn=defn,old=old,new=new,claim=claim,props=props,nth=nth))
S='Sled';IX='Index';R='Rdf'
m(S,'transaction','| .error _ => d)','| .error _ => .empty)','a failed transaction leaves the trees as they were','C48')
m(S,'insertNode','| none => .ret (.error .serialization)','| none => .ret (.ok ())','an insertion that cannot be serialized is reported','C28 C48')
m(S,'insertEdge','pos := d.pos.insert (encodePos t).1 (toBeBytes i).1','pos := d.pos','all orderings hold the same edges','C26')
m(S,'insertEdge','edgeProps := d.edgeProps.insert (toBeBytes i).1 b','edgeProps := (match d.spo.get (encodeSpo t).1 with | some o => d.edgeProps.erase o | none => d.edgeProps).insert (toBeBytes i).1 b','(a repair) insert_edge leaks one record per overwrite','C33')
m(S,'forwardBatch','edge := b.edge ++ [v]','edge := b.edge','removing a node removes the records of its edges','C26 C33')
m(S,'backwardBatch','spo := b.spo ++ [(encodeSpo t).1]','spo := b.spo','incoming edges are removed in all orders','C26')
m(S,'backwardBatch','none => .error .keySize','none => backwardBatch Id b l','keys of a wrong size are reported','C47')
m(S,'removeNodeTx','nodeProps := d.nodeProps.erase (toBeBytes n).1','nodeProps := d.nodeProps','remove_node removes the node','C26')
m(S,'removeNodeTx','osp := applyBatch (applyBatch d.osp fwd.osp) bwd.osp','osp := applyBatch d.osp bwd.osp','outgoing edges are removed in all orders','C26')
m(S,'removeNode','(d2.osp.rangeArr (keyBounds1 n))','(d1.osp.rangeArr (keyBounds1 n))','(both scans at one moment: equivalent for one thread)','C50')
m(S,'removeEdge','| some i => d.edgeProps.erase i','| some _ => d.edgeProps','remove_edge removes the record','C33')
m(S,'removeEdge','| some i => .call (fun d => { d with edgeProps := d.edgeProps.erase i }) (fun _ => .ret (.ok ()))','| some _ => .ret (.ok ())','(without the second removal of the record: the race disappears partly)','C31')
m(S,'removeEdge','.call (fun d => { d with pos := d.pos.erase (encodePos t).1 }) (fun _ =>\n          .call (fun d => { d with osp := d.osp.erase (encodeOsp t).1 }) (fun _ =>','.call (fun d => { d with osp := d.osp.erase (encodeOsp t).1 }) (fun _ =>\n          .call (fun d => { d with pos := d.pos.erase (encodePos t).1 }) (fun _ =>','(order of the repeated removals)','equivalent?')
m(S,'mergeNode','mN old p','mN p old','merge keeps the stored properties first','C28')
m(S,'mergeNode','match c.n.de v with\n      | none => .error .serialization','match c.n.de v with\n      | none => .ok d','undecodable records are reported','C47')
m(S,'mergeEdge','let d := { d with edgeProps := d.edgeProps.erase o }','let d := d','merge_edge erases the old record','C33')
m(S,'mergeEdge','mE oldProps p','p','merge_edge combines','C28')
m(S,'mergeEdge','osp := d.osp.insert (encodeOsp t).1 (toBeBytes i).1','osp := d.osp','merge_edge redirects all trees to the new record','C26')
m(S,'mergeNodes','| .error e :: _ => k (.error (.right e))','| .error _ :: l => mergeNodes c mN k l','errors of the source are reported','C28')
m(S,'mergeNodes','| .error e => k (.error (.left e))','| .error _ => mergeNodes c mN k l','errors of the store are reported','C28 C47')
m(S,'mergeEdges','| .ok () => mergeEdges c mE (Gen.fresh g).2 l','| .ok () => mergeEdges c mE g l','every merged edge has its own id','C28')
m(S,'extendNodes','none => k (.error (.left .serialization))','none => extendNodes c k l','errors of the store are reported','C28')
m(S,'extendEdges','let u := (Gen.fresh u).2','let u := u','every edge of extend has its own record','C29')
m(S,'extendEdges','| some o =>\n                .call (fun d => { d with edgeProps := d.edgeProps.erase o })\n                  (fun _ => extendEdges c u l)','| some _ => extendEdges c u l','extend erases the replaced record','C33')
m(S,'extendEdges','.call (fun d => { d with edgeProps := d.edgeProps.insert i b }) (fun _ =>\n        .call (fun d => { d with spo := d.spo.insert (encodeSpo x.1).1 i }) (fun d1 =>','.call (fun d => { d with spo := d.spo.insert (encodeSpo x.1).1 i }) (fun d1 =>\n        .call (fun d => { d with edgeProps := d.edgeProps.insert i b }) (fun _ =>','at a crash inside extend no edge points to a missing record','C49 C50')
m(S,'extendEdges','.call (fun d => { d with osp := d.osp.insert (encodeOsp x.1).1 i }) (fun _ =>','.call (fun d => d) (fun _ =>','extend writes all orderings','C26')
m(S,'extend','| .error e => .ret (u, .error e)','| .error _ => extendEdges c u other.edges','extend stops at the first error','C28')
m(S,'decodeId','none => .error .keySize','none => .error .missing','keys of a wrong size are reported as such','C47')
m(S,'getData','| none => .error .serialization','| none => .ok none','undecodable records are reported','C47')
m(S,'iterImpl','obj := (t.obj, op)','obj := (t.obj, sp)','iteration with properties yields the properties of the endpoints','C32')
m(S,'iterImpl','| _, _, _ => .error .missing','| some sp, some pp, none => .ok { sub := (t.sub, sp), pred := (t.pred, pp), obj := (t.obj, sp) } | _, _, _ => .error .missing','missing endpoints are reported','C32')
m(S,'collect','| .error e :: _ => .error e','| .error _ :: l => collect l','errors are reported','C47')
m(S,'vertices','decodeId e.1','decodeId e.2','vertices are the ids of the nodes','C27')
m(S,'iterVertices','deser c.n e.2','deser c.n e.1','iter_vertices yields the properties','C27')
m(S,'orderedEdges','| .OSP => d.osp.entries.map (decodeEntry decodeOsp)','| .OSP => d.spo.entries.map (decodeEntry decodeSpo)','the order is the one asked for','C27')
m(S,'iterEdges','| .ok none => .error .missing','| .ok none => .error .sled','missing records are reported as such','C47')
m(S,'intoIterNodes','| .POS => d.pos.entries.map (decodeEntry decodePos)','| .POS => d.spo.entries.map (decodeEntry decodeSpo)','into_iter agrees with iter','C27')
m(S,'intoIterVertices','deser c.n e.2','deser c.n e.1','into_iter agrees with iter','C27')
m(S,'intoIterEdgesWithProps','| .OSP => d.osp.entries.map (decodeEntry decodeOsp)','| .OSP => d.pos.entries.map (decodeEntry decodeOsp)','into_iter agrees with iter','C27 C32')
m(S,'intoIterEdges','| .ok none => .error .missing','| .ok none => .error .sled','into_iter agrees with iter','C27')
m(S,'tryFold','| .error e => .error e','| .error _ => tryFold f s l','errors of a query are reported','C47')
m(S,'addRange','| none => .error .serialization','| none => .ok r','errors of a query are reported','C47')
m(S,'addRange','| none => .ok r','| none => .error .missing','edges without record are skipped','C30 C47')
m(S,'runQ','keyBounds2 x.2 x.1','keyBounds2 x.1 x.2','SO queries match subject and object','C30')
m(S,'runQ','| .PO items =>\n    tryFold (fun r x => addRange c d decodePos r (d.pos.rangeArr (keyBounds2 x.1 x.2)))','| .PO items =>\n    tryFold (fun r x => addRange c d decodePos r (d.pos.rangeArr (keyBounds1 x.1)))','PO queries match predicate and object','C30')
m(S,'runQ','| some p => .ok (r.insertNode n p)','| some p => .ok ((Mem.new g).insertNode n p)','node queries return all nodes asked for','C30')
m(S,'runQuery','.error (.left e)','.error (.right ())','errors of the store are Left','C47')
m(S,'SledStore.mergeEdge','gen := (Gen.fresh s.gen).2','gen := s.gen','each edge has its own record','C26')
m(S,'SledStore.extend','ulid := r.2.1','ulid := s.ulid','ids drawn by extend are not drawn again','C29')
m(S,'SledStore.new','{ db := d','{ db := .empty','reopening shows the same graph','C24')
# index
m(IX,'MemIndex.set','| some r\' => (s, .error (.duplicateRight l r r\'))','| some r\' => if r = r\' then (s, .ok ()) else (s, .error (.duplicateRight l r r\'))','set refuses a name that is present (also with the same id)','C36 C41')
m(IX,'MemIndex.set','({ s with rightToLeft := s.rightToLeft.insert r l }, .ok ())','(s, .ok ())','both directions are recorded','C36')
m(IX,'MemIndex.set','| some l\' => (s, .error (.duplicateLeft r l l\'))','| some l\' => (s, .error (.duplicateLeft r l\' l))','the payload names the new and the old value','C52')
m(IX,'SledIndex.setTx','| some l\' => .error (.duplicateLeft r l\' l)','| some _ => .ok d','set refuses an id that is present','C36')
m(IX,'SledIndex.setTx','d.rightToLeft.insert rb lb','d.rightToLeft.insert rb rb','both directions are recorded','C36')
m(IX,'SledIndex.setTx','| none => .error .serialization','| none => .error .sled','undecodable values are reported','C37')
m(IX,'SledIndex.setProg','| .ok d\' => d\' | .error _ => d)','| .ok d\' => d\' | .error _ => { d with leftToRight := d.leftToRight.insert lb rb })','a failed set changes nothing','C37')
m(IX,'SledIndex.lookup','| none => .error bad\n      | some r','| none => .ok none\n      | some r','undecodable values are reported','C37')
m(IX,'SledIndex.impl','rightToLeft d r := lookup cr cl .serialization d.rightToLeft r','rightToLeft d r := lookup cr cl .serialization d.leftToRight r','right_to_left inverts left_to_right','C36')
# rdf
m(R,'lookupOrCreateEntity','| (i, .ok ()) => ({ r with nameIndex := i }, .ok id)','| (_, .ok ()) => (r, .ok id)','a name keeps its id','C38')
m(R,'lookupOrCreateEntity','let r := { r with ulid := u }','let _ := u','different names have different ids','C38')
m(R,'lookupOrCreateEntity','| .ok (some id) => (r, .ok id)','| .ok (some _) => (r, .ok (Gen.fresh r.ulid).1)','a name keeps its id','C38')
m(R,'lookupEntity','| .ok none => .error (.nameNotFound s)','| .ok none => .ok 0','unknown names are reported','C40')
m(R,'lookupId','| .ok none => .ok (.ulid id)','| .ok none => .ok (.string "")','ids without name are shown as ids','C39')
m(R,'createTriple','(r, .ok { sub := s, pred := p, obj := o })','(r, .ok { sub := o, pred := p, obj := s })','edges keep their direction','C39')
m(R,'createTriple','match r.lookupOrCreateEntity ix t.obj with\n      | (r, .error e) => (r, .error e)','match r.lookupOrCreateEntity ix t.obj with\n      | (r, .error _) => (r, .ok { sub := s, pred := p, obj := s })','errors of the index are reported','C39')
m(R,'onGraph','({ r with graph := g }, .ok ())','(r, .ok ())','calls change the graph','C39')
m(R,'insertNode','st.insertNode r.graph id p','st.mergeNode r.graph id p','insert_node overwrites','C39')
m(R,'mergeEdge','st.mergeEdge r.graph t p','st.insertEdge r.graph t p','merge_edge merges','C39')
m(R,'removeNode','| .error x => (r, .error x)','| .error _ => (r, .ok ())','removing an unknown name is an error','C40')
m(R,'removeEdge','| .error x => (r, .error x)','| .error _ => (r, .ok ())','removing an edge with an unknown name is an error','C40')
m(R,'absorb','| r, .error e :: _ => (r, .error (.right e))','| r, .error _ :: l => absorb f r l','errors of the source are reported','C39')
m(R,'absorb','| (r, .error x) => (r, .error (.left x))','| (r, .error _) => absorb f r l','errors of the store are reported','C39')
m(R,'extend','insertEdge ix st r x.1 x.2','mergeEdge ix st r x.1 x.2','extend overwrites','C39')
m(R,'merge','mergeNode ix st r x.1 x.2','insertNode ix st r x.1 x.2','merge merges','C39')
m(R,'vertexItem','| .ok e => .ok (e, p)','| .ok _ => .ok (.ulid id, p)','vertices are shown by name','C39')
m(R,'propsItem','obj := (o, t.obj.2)','obj := (o, t.sub.2)','properties belong to the endpoints','C39')
m(R,'vertices','lookupId ix r.nameIndex id','.ok (.ulid id)','vertices are shown by name','C39')
m(R,'intoIterEdgesWithProps','st.intoIterEdgesWithProps r.graph o','st.intoIterEdgesWithProps r.graph .SPO','into_iter agrees with iter','C39')
m(R,'iterNodes','(st.iterNodes r.graph o).edges','(st.iterNodes r.graph .SPO).edges','edges come in the order asked for (by id)','C39')
m(R,'record','| (_, .error e) => .error (.right (.nameIndex e))','| (_, .error _) => .ok m','(a repair) run fails for names occurring twice','C41')
m(R,'recordEdges','[t.sub, t.pred, t.obj]','[t.sub, t.pred]','names of a query result are kept','C41')
m(R,'run','match Sled.tryFold (record ix r) .new vs with','match Sled.tryFold (record ix r) .new (vs.drop 1) with','names of a query result are kept','C41')
m(R,'Mem.impl','mergeNode s n p := (s.mergeNode mN n p, .ok ())','mergeNode s n p := (s.insertNode n p, .ok ())','merge merges','C39')
