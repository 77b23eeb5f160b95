M=[]
def m(file,defn,old,new,claim,props,nth=0):
    M.append(dict(file=file,defn=defn,old=old,new=new,claim=claim,props=props,nth=nth))
C='Conformance';W='World';B='Bincode';R='Rdf';Q='Query';S='Sled';I='Id'
# bincode
m(B,'Format.codec','(f.get b).map Prod.fst','(f.get b).bind fun x => if x.2 = [] then some x.1 else none','bytes after the value are ignored','C69')
m(B,'readN','if n ≤ b.length then some (b.take n, b.drop n) else none','some (b.take n, b.drop n)','missing bytes are an error','C69')
m(B,'leList','leList n (x / 256)','leList n x','each digit once','C69')
m(B,'uint','if h : ofLeList x.1 < N then some (⟨ofLeList x.1, h⟩, x.2) else none','if h : ofLeList x.1 < N then some (⟨ofLeList x.1, h⟩, []) else none','the rest is kept','C69')
m(B,'bool','if d = 0 then some (false, b) else if d = 1 then some (true, b) else none','if d = 0 then some (true, b) else if d = 1 then some (false, b) else none','booleans round-trip','C69')
m(B,'blob','if h : b.length < 2 ^ 64 then (len.put ⟨b.length, h⟩).map (· ++ b) else none','some b','strings carry their length','C69')
m(B,'option','(f.put a).map (1 :: ·)','(f.put a)','options carry a tag','C69')
m(B,'pair','(g.get x.2).map','(g.get b).map','fields follow one another','C69')
m(B,'getAll','(getAll f n x.2)','(getAll f n b)','elements follow one another','C69')
m(B,'seq','getAll f x.1.val x.2','getAll f (x.1.val + 1) x.2','the number of elements','C69')
m(B,'letter','| 18 => 74 | 19 => 75','| 18 => 73 | 19 => 74','the alphabet (I and L are left out)','C69')
m(B,'digit','decide (letter d = c ∨ lower (letter d) = c)','decide (lower (letter d) = c)','upper case is read','C69')
m(B,'digit','decide (letter d = c ∨ lower (letter d) = c)','decide (letter d = c)','lower case is read','C69')
m(B,'text','(x / 32 ^ n)','(x / 16 ^ n)','five bits a letter','C69')
m(B,'value','acc * 32 + d.val','acc * 32 ||| d.val','(the same thing written with or)','C69')
m(B,'value','% 2 ^ 128','% 2 ^ 125','the value has 128 bits','C69')
m(B,'fromText','b.length = 26','b.length = 25','the text has 26 letters','C69')
# skipped or surviving before
m(C,'expectDb','| .error _ => none','| .error _ => some r.1','an error makes a test fail','C64')
m(C,'expectAll','l.mapM expect','some (l.filterMap fun x => match x with | .ok a => some a | .error _ => none)','an error makes a test fail','C64')
m(W,'World.call','gens := Function.update W.gens k r.1.gen\n        ','','a generator does not yield an id twice','C67')
m(W,'World.call','ulids := r.1.ulid\n        ','','Ulid::new() does not yield an id twice','C67')
m(W,'World.call','dbs := Function.update W.dbs b r.1.db','dbs := W.dbs','calls change the database','C67')
m(W,'World.call','dbs := Function.update W.dbs b r.1.db','dbs := fun _ => r.1.db','calls change one database','C67')
m(W,'Res.blur','| .noStore => .noStore','| .noStore => .done','the outcome of a command','C67')
m(W,'setVar','Function.update W.vars v h','fun _ => h','a command changes its own variable','C67')
m(W,'Mem.call','| .merge src => s.merge mN mE src','| .merge src => s.extend src','merge merges','C67')
# ordered maps
m('BMap','alGet','if e.1 = k then some e.2 else alGet l k','if e.1 = k then some e.2 else none','look-up finds every entry','C06')
m('BMap','erase','decide (e.1 ≠ k)','decide (e.1 < k)','only one entry is removed','C06')
m('BMap','range','Bound.contains b e.1','Bound.lowerOk b.1 e.1','both bounds are respected','C11')
m('BMap','insert','⟨alInsert m.entries k v, alInsert_sorted m.sorted⟩','if (m.entries.any fun e => decide (e.1 = k)) then m else ⟨alInsert m.entries k v, alInsert_sorted m.sorted⟩','insertion replaces','C06')
m('ByteArr','beList','x / 256 ^ n % 256','x / 256 % 256','big-endian digits','C01')
m('ByteArr','ofBeList','acc * 256 + d.val','acc + 256 * d.val','big-endian digits','C01')
m('ByteArr','tryFrom','if h : b.length = n then some ⟨b, h⟩ else none','if h : n ≤ b.length then some ⟨b.take n, by simp; omega⟩ else none','keys of other lengths are refused','C04')
m('ByteArr','slice','(data.1.drop lo).take m','(data.1.take (data.1.length - lo)).drop (n - lo - m)','(another slice)','C01')
# ids
m(I,'lowerOk','decide (b ≤ k)','decide (b < k)','included bounds are included','C05')
m(I,'upperOk','decide (k ≤ b)','decide (k < b)','included bounds are included','C05')
m(I,'contains','r.1.lowerOk k && r.2.upperOk k','r.1.lowerOk k || r.2.upperOk k','both bounds hold','C05')
m(I,'MAX','2 ^ 64 - 1','2 ^ 63 - 1','u64::MAX','C05')
m(I,'Ulid.MAX','2 ^ 128 - 1','2 ^ 127','u128::MAX','C05')
m(I,'encodeSpo','data.copyFromSlice 16 (toBeBytes t.obj)','data.copyFromSlice 8 (toBeBytes t.obj)','encodings','C01')
m(I,'Ulid.encodeOsp','data.copyFromSlice 16 (toBeBytes t.sub)','data.copyFromSlice 16 (toBeBytes t.pred)','encodings','C01')
m(I,'Ulid.decodeSpo','obj := fromBeBytes (d.slice 32 16)','obj := fromBeBytes (d.slice 16 16)','decodings','C01')
m(I,'decodeSpo','pred := fromBeBytes (d.slice 8 8)','pred := fromBeBytes (d.slice 0 8)','decodings','C01')
m(I,'rangePanics','| (.included a, .included b) => decide (b < a)','| (.included a, .included b) => decide (b ≤ a)','ranges do not panic','C05')
# queries, triples
m(Q,'HSet.insert','if a ∈ s then s else s ++ [a]','s ++ [a]','a set holds an element once','C17')
m(Q,'collectResult','collectResult f l (HSet.insert acc b)','collectResult f l [b]','all items are collected','C18')
m(Q,'tryTriple','| .ok c => .ok (a, b, c)','| .ok c => .ok (a, c, b)','fields keep their places','C18')
m(Q,'ofTriples','(t.sub, t.pred, t.obj)','(t.sub, t.obj, t.pred)','a triple is queried as itself','C18')
m(Q,'triples','cs.foldl (fun acc c => HSet.insert acc (a, b, c)) acc','cs.foldl (fun acc c => HSet.insert acc (a, b, c)) []','all combinations','C19')
m('Triple','ltOp','== some .lt','!= some .gt','the order of triples','C16')
m('Triple','map','obj := f t.obj','obj := f t.sub','each field is mapped','C18')
m('Triple','PropsTriple.map','sub := f t.sub','sub := f t.obj','each field is mapped','C18')
# programs
m('Prog','bind','call f (fun s => (k s).bind g)','call id (fun s => (k s).bind g)','sequencing keeps the effects','C60')
m('Prog','run','(k s).run (f s)','(k (f s)).run (f s)','a call returns what it found','C26')
m('Prog','states','s :: (k s).states (f s)','(k s).states (f s)','a crash may happen before a call','C29')
m('Prog','states','| ret _, s => [s]','| ret _, s => []','a crash may happen after the last call','C29')
# in-memory store
m('Mem','fresh','fun n => g (n + 1)','g','ids are not reused','C06')
m('Mem','insertEdge','let old := s.spo.get (encodeSpo t)','let old : Option Id := none','the old record is removed','C07')
m('Mem','getSpoEdgeRange','r.map (fun e => e.2)','[]','the records of the edges are removed','C08')
m('Mem','mergeEdge','s.insertEdgeDataInternal t i','{ s with spo := s.spo.insert (encodeSpo t) i }','all orderings are written','C09')
m('Mem','extendNode','| some _ => { s with nodeProps := s.nodeProps.insert x.1 x.2 }','| some _ => s','extend replaces','C10')
m('Mem','iterVertices','s.nodeProps.entries','s.nodeProps.entries.tail','all nodes','C12')
m('Mem','iterEdgesWithProps','(s.orderedEdges o)','(s.orderedEdges .SPO)','in the order asked for','C13')
m('Mem','iterEdges','| some v => some (.ok (e.1, v))\n    | none => none','| some v => some (.ok (e.1, v))\n    | none => some (.error ())','edges without record are skipped','C13')
m('Mem','iterNodes','edges := s.iterEdges o','edges := s.iterEdges .SPO','in the order asked for','C13')
m('Mem','intoIterVertices','s.nodeProps.entries','s.nodeProps.entries.reverse','in order','C12')
m('Mem','intoIterEdgesWithProps','| .OSP => s.osp.entries.map (fun e => (decodeOsp e.1, e.2))','| .OSP => s.osp.entries.map (fun e => (decodeSpo e.1, e.2))','decoded as encoded','C13')
m('MemSet','errLeft','.error (.left e)','.error (.result e)','errors are labelled','C15')
m('MemSet','addAll','| (_, .error e) => .error e','| (st, .error _) => .ok st','errors are returned','C15')
m('MemSet','edgeHashes','m.insert e.2 (F.hash e.1)','m.insert e.2 0','Debug output','C22')
m('MemSet','debugEdges','F.showId e.1.sub ++ ", "','F.showId e.1.obj ++ ", "','Debug output','C22')
# sled store
m(S,'Tree.rangeArr','| .included k => .included k.1','| .included k => .excluded k.1','bounds','C26')
m(S,'applyBatch','t.erase k','t','batches are applied','C26')
m(S,'deser','| none => .error .serialization','| none => .error .missing','errors of the iterators','C34')
m(S,'decodeEntry','| none => .error .keySize','| none => .error .serialization','errors of the iterators','C34')
m(S,'iterEdgesWithProps','(orderedEdges Id d o)','(orderedEdges Id d .SPO)','in the order asked for','C34')
m(S,'iterNodes','edges := iterEdges Id c d o','edges := iterEdges Id c d .POS','in the order asked for','C26')
# name index
m('Index','HMap.insert','if k\' = k then some v else m k\'','if k\' = k then some v else none','other entries stay','C36')
# RDF
m(R,'Rdf.new','ulid := u','ulid := fun _ => u 0','new ids','C39')
m(R,'insertEdge','st.insertEdge r.graph t p','st.mergeEdge r.graph t p','insert replaces','C39')
m(R,'Rdf.mergeNode','st.mergeNode r.graph id p','st.insertNode r.graph id p','merge merges','C39')
m(R,'Rdf.iterVertices','(st.iterVertices r.graph)','(st.iterVertices r.graph).reverse','order of the store','C40')
m(R,'Rdf.iterEdgesWithProps','st.iterEdgesWithProps r.graph o','st.iterEdgesWithProps r.graph .SPO','in the order asked for','C40')
m(R,'Rdf.iterEdges','st.iterEdges r.graph o','st.iterEdges r.graph .SPO','in the order asked for','C40')
m(R,'Rdf.intoIterNodes','edges := (st.intoIterNodes r.graph o)','edges := (st.intoIterNodes r.graph .POS)','in the order asked for','C40')
m(R,'Rdf.intoIterEdges','st.intoIterEdges r.graph o','st.intoIterEdges r.graph .POS','in the order asked for','C40')
m(R,'Mem.runImpl','.ok (s.run g q)','.ok (s.run g (.S []))','queries are run','C41')
m(R,'SledStore.runImpl','Sled.runQuery c s.db g q','Sled.runQuery c s.db s.gen q','the generator of the result','C64')
m('RdfSled','onData','data := f d.data','data := d.data','the store is written','C60')
# generators
m('UlidGen','timestamp','u.val / 2 ^ 80','u.val / 2 ^ 64','the time is in the upper bits','C62')
m('UlidGen','state','(fresh (state env k) (env k)).1','(fresh 0 (env k)).1','the state is kept','C62')
m('U64Gen','run','r.2.toList ++ rs.2','rs.2','ids drawn','C03')
m('U64Gen','init','handles := [0]','handles := [1]','one generator','C03')
# the tests of the library
m(C,'insertEdges','b.st.insertEdge db x.1 x.2','b.st.mergeEdge db x.1 x.2','(merging into nothing inserts)','C64')
m('SledSelf','extendTurnN','[vertexItem Id c e]','[]','each node is written','C66')
m('RdfSled','onIndex','.error (.nameIndex e)','.error (.graph .sled)','errors are labelled','C60')
m(C,'TestMergeable.merge','{ self with a := some a }','{ other with a := some a }','(the properties of the tests)','C64')
m(C,'testQueryOS','.OSP [','.OSP [(⟨c.node1, c.edge2, c.node4⟩, c.edgeProps2), ','the test passes','C64')
m(C,'testDifference','[c.l1, c.l2] [c.eL1L2]','[c.l1, c.l2] [c.eL1L2, c.eL1M1]','the test passes','C64')
m(C,'testNew','(.string foo, p1), (.string knows, q1)','(.string foo, p1), (.string knows, q2)','the test passes','C64')
m(C,'setupRight','c.eM1R1, ','','the test passes','C64')
