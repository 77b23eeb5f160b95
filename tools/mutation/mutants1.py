M=[]
def m(file,defn,old,new,claim,props,nth=0):
    M.append(dict(file=file,defn=defn,old=old,new=new,claim=claim,props=props,nth=nth))
I='Id';MM='Mem';S='Sled';MS='MemSet';Q='Query';T='Triple';U='U64Gen';IX='Index';R='Rdf'
# ids
m(I,'U64.encodePos','copyFromSlice 8 (toBeBytes t.obj)','copyFromSlice 8 (toBeBytes t.sub)','encoded triples decode to themselves; POS order','C01 C02')
m(I,'U64.decodeOsp','sub := fromBeBytes (d.slice 8 8)','sub := fromBeBytes (d.slice 16 8)','decode inverts encode','C01')
m(I,'U64.keyBounds1','pred := MAX, obj := MAX','pred := MAX, obj := MIN','the range of a first id contains all its triples','C03')
m(I,'U64.keyBounds2',".included (encodeSpo { sub := a, pred := b, obj := MAX })",".excluded (encodeSpo { sub := a, pred := b, obj := MAX })",'range of two ids includes the last object id u64::MAX','C03 C14')
m(I,'Ulid.keyBounds1',".included (encodeSpo { sub := a, pred := MIN, obj := MIN })",".excluded (encodeSpo { sub := a, pred := MIN, obj := MIN })",'range contains the triple (a, 0, 0)','C03')
m(I,'Ulid.keyBounds2',"pred := b, obj := MAX","pred := MAX, obj := MAX",'range of two ids contains only their triples','C03')
m(I,'Ulid.decodePos','obj := fromBeBytes (d.slice 16 16)','obj := fromBeBytes (d.slice 0 16)','decode inverts encode','C01')
m(I,'Ulid.tryFromBeBytes','(ByteArr.tryFrom 16 b).map fromBeBytes','(ByteArr.tryFrom 16 (b.take 16)).map fromBeBytes','byte strings of the wrong length are rejected','C04')
m(I,'U64.fromBeBytes','ofBe b % 2 ^ 64','ofBe b % 2 ^ 63','from_be_bytes inverts to_be_bytes on the whole range','C01')
m(T,'Triple.partialCmp','some .gt => some .gt','some .gt => some .lt','triples are ordered lexicographically','C02 C18')
m(T,'Triple.tryMap','match f t.pred with','match f t.obj with','try_map maps each component','C42')
m(T,'PropsTriple.tryMap','.ok { sub := s, pred := p, obj := o }','.ok { sub := o, pred := p, obj := s }','try_map maps each component','C42')
m(T,'PropsTriple.toTriple','obj := t.obj.1','obj := t.sub.1','conversion keeps subject, predicate, object','C42 C12')
# mem
m(MM,'insertEdgeDataInternal','osp := s.osp.insert (encodeOsp t) i','osp := s.osp','all three orderings hold the same edges','C10 C11')
m(MM,'insertEdgeCreateData','{ s with edgeProps := s.edgeProps.erase o }','s','no property records are left behind','C13')
m(MM,'insertEdgeCreateData','edgeProps := s.edgeProps.insert i data, gen := g','edgeProps := s.edgeProps.insert i data','each edge has its own properties: the generator advances','C05')
m(MM,'insertNode','{ s with nodeProps := s.nodeProps.insert n data }','s','inserting an existing node replaces its properties','C05')
m(MM,'getOspEdgeRange','decodeOsp','decodeSpo','remove_node removes all edges of the node','C07')
m(MM,'removeEdge','pos := s.pos.erase (encodePos t)','pos := s.pos','removal is seen in all orders','C10')
m(MM,'removeEdge','edgeProps := s.edgeProps.erase i','edgeProps := s.edgeProps','no property records are left behind','C13')
m(MM,'removeNode','(fwd ++ bwd).foldl removeEdge s','fwd.foldl removeEdge s','incoming edges are removed too','C07')
m(MM,'removeNode','(fwdIds ++ bwdIds).foldl','(fwdIds ++ fwdIds).foldl','property records of incoming edges are removed (removeEdge erases them anyway)','equivalent?')
m(MM,'removeNode','let s := { s with nodeProps := s.nodeProps.erase n }','let s := s','the node itself is removed','C07')
m(MM,'mergeEdgeCreateData','mergeE cur data','mergeE data cur','merge keeps the receiver first','C08')
m(MM,'mergeNode','{ s with nodeProps := s.nodeProps.insert n data }','s','merging an absent node inserts it','C08')
m(MM,'mergeNode','mergeN cur data','data','merge combines, not overwrites','C08')
m(MM,'absorb','| s, .error e :: _ => (s, .error e)','| s, .error _ :: l => absorb f s l','extend and merge report the errors of the source','C09')
m(MM,'merge','| (s, .error e) => (s, .error (.right e))','| (s, .error _) => (s, .ok ())','merge reports errors of the source','C09')
m(MM,'extendEdge','| some _ => { s with edgeProps := s.edgeProps.insert i x.2 }','| some _ => s','extend overwrites the properties of existing edges','C09')
m(MM,'extendEdge','pos := s.pos.insert (encodePos x.1) i','pos := s.pos.insert (encodePos x.1) (Gen.fresh g).1','extended edges are seen in all orders','C10')
m(MM,'extend','match absorb extendNode s other.nodes with','match absorb extendNode s (other.nodes.drop 1) with','extend takes in all nodes','C09')
m(MM,'iterImpl','sub := (t.sub, sp)','sub := (t.sub, op)','iteration with properties yields the properties of the endpoints','C12')
m(MM,'iterImpl','| _, _, _ => none','| some sp, some pp, none => some (.ok { sub := (t.sub, sp), pred := (t.pred, pp), obj := (t.obj, sp) }) | _, _, _ => none','orphaned edges are skipped','C12 C32')
m(MM,'vertices','s.nodeProps.entries.map','s.nodeProps.entries.reverse.map','vertices are listed in increasing order','C11')
m(MM,'orderedEdges','| .POS => s.pos.entries','| .POS => s.spo.entries','edges come in the order asked for','C11')
m(MM,'intoIterNodes','| .OSP => s.osp.entries.map (fun e => (decodeOsp e.1, e.2))','| .OSP => s.spo.entries.map (fun e => (decodeSpo e.1, e.2))','into_iter agrees with iter','C11')
m(MM,'intoIterEdges','| .OSP => s.osp.entries.map (fun e => (decodeOsp e.1, e.2))','| .OSP => s.osp.entries.map (fun e => (decodePos e.1, e.2))','into_iter agrees with iter','C11')
m(MM,'addRange','r.insertEdge (decode e.1) d','r.mergeEdge (fun _ b => b) (decode e.1) d','(equivalent on the level of graphs)','equivalent?')
m(MM,'run','keyBounds2 x.2 x.1','keyBounds2 x.1 x.2','SO queries match subject and object','C14')
m(MM,'run','| .O items => items.foldl (fun r x => s.addRange decodeOsp r (s.osp','| .O items => items.foldl (fun r x => s.addRange decodeOsp r (s.spo','O queries match the object','C14')
m(MM,'run','match s.nodeProps.get n with','match r.nodeProps.get n with','node queries return the nodes','C14')
# set ops
m(MS,'nextItem','| .error e :: _ => .error e','| .error e :: [] => .error e | .error _ :: _ :: l => .ok (none, l)','errors of the argument are reported','C21')
m(MS,'walk','walk ltAB ltBA onL onR onB (onB st l r) cur\' it\' ocur\' oit\'','walk ltAB ltBA onL onR onB (onB st l r) cur\' it\' ocur\' oit\' |>.map id','(equivalent)','equivalent?')
m(MS,'drain','| some l, [] => .ok (onL st l)','| some _, [] => .ok st','difference keeps the last element','C20')
m(MS,'union','match addAll (fun r (x : Id × NP) => r.insertNode x.1 x.2) r (errRight other.nodes) with','match addAll (fun r (x : Id × NP) => if (r.nodeProps.get x.1).isSome then r else r.insertNode x.1 x.2) r (errRight other.nodes) with','in a union the argument wins','C18')
m(MS,'union','(errLeft src.edges)','(errLeft (src.edges.drop 1))','a union contains all edges of self','C18')
m(MS,'intersection','st.insertNode l.1 l.2','st.insertNode l.1 l.2 |>.insertNode l.1 l.2','(equivalent)','equivalent?')
m(MS,'intersection','(fun st _ => st) (fun st _ => st) (fun (st : Mem Id NP EP) l _ => st.insertEdge l.1 l.2)','(fun (st : Mem Id NP EP) l => st.insertEdge l.1 l.2) (fun st _ => st) (fun (st : Mem Id NP EP) l _ => st.insertEdge l.1 l.2)','an intersection contains only common edges','C19')
m(MS,'intersection','st.insertNode l.1 l.2)','st)','an intersection contains the common nodes','C19')
m(MS,'difference','(fun st r => (st.1, HSet.insert st.2 r.1))','(fun st _ => st)','edges with a removed endpoint are dropped (also endpoints that are not nodes of self)','C20')
m(MS,'difference','removed.contains l.1.sub || removed.contains l.1.obj','removed.contains l.1.sub','edges with a removed endpoint are dropped','C20')
m(MS,'eqEdgePropById','if p.isNone || q.isNone then (false, cache)\n  else ','','equality fails when a record is missing','C22')
m(MS,'eqLoop','if x.1 ≠ y.1 then false','if x.1.1.head? ≠ y.1.1.head? then false','equal stores have the same edges','C22')
m(MS,'eq','if a.nodeProps.entries ≠ b.nodeProps.entries then false\n  else ','','equal stores have the same nodes','C22')
m(MS,'tryEqLoop','| _, _ => .ok (some false)','| _, _ => .ok none','try_eq compares lengths','C23')
m(MS,'tryEqLoop','.error e => .error (.right e)','.error e => .ok (some false)','try_eq reports errors of the argument','C23')
m(MS,'debug','s.pos.entries.map (fun e => (decodePos e.1, e.2))','s.pos.entries.map (fun e => (decodeSpo e.1, e.2))','Debug shows the graph','C44')
# query
m(Q,'HSet.insert','if a ∈ s then s else s ++ [a]','s ++ [a]','sets hold no duplicates','C42')
m(Q,'Query.map','| .SO s => .SO (HSet.collect (s.map fun (a, b) => (f a, f b)))','| .SO s => .SO (HSet.collect (s.map fun (a, b) => (f b, f a)))','map keeps the positions','C42')
m(Q,'Query.tryMap','| .P s => (collectResult f s []).map .P','| .P s => (collectResult f s []).map .O','try_map keeps the kind','C42')
m(Q,'Query.tryPair','match f x.2 with','match f x.1 with','try_map maps both ids','C42')
m(Q,'QueryPat.pairs','HSet.insert acc (a, b)','HSet.insert acc (b, a)','the query macro builds the pairs in order','C43')
m(Q,'QueryPat.expand','| .ids ls, .ids lo => some (.SO (pairs ls lo))','| .ids ls, .ids lo => some (.SO (pairs lo ls))','the query macro builds the pairs in order','C43')
# u64 gen
m(U,'step','heap := w.heap.set c (x + 1)','heap := w.heap.set c x','ids are distinct','C34')
m(U,'step','{ w with handles := w.handles ++ [c] }','{ heap := w.heap ++ w.heap.drop c, handles := w.handles ++ [w.heap.length] }','clones share the counter','C34 C35')
m(U,'step','some (h, x))','some (h, x + 1))','the first id is the start value','C34')
