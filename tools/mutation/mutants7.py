M=[]
def m(file,defn,old,new,claim,props,nth=0):
    M.append(dict(file=file,defn=defn,old=old,new=new,claim=claim,props=props,nth=nth))
C='Conformance';W='World';L='Closure';SS='SledSelf';R='Rdf'
# the library's own tests, changed so that they fail or check something else
m(C,'testInsertNode','(c.node4, c.nodeData5)]','(c.node4, c.nodeData4)]','the test passes','C64')
m(C,'testInsertEdge','(⟨c.node3, c.edge3, c.node4⟩, c.edgeData4)]','(⟨c.node3, c.edge3, c.node4⟩, c.edgeData3)]','the test passes','C64')
m(C,'testRemoveNode','assert (edges = [(⟨c.node2, c.edge2, c.node3⟩, c.edgeData2)])','assert (edges = [])','the test passes','C64')
m(C,'testRemoveEdge','(c.node4, c.nodeData4)])','(c.node3, c.nodeData4)])','the test passes','C64')
m(C,'testExtend','assert ((c.node1, c.nodeData4) ∈ nodeData)','assert ((c.node1, c.nodeData1) ∈ nodeData)','the test passes','C64')
m(C,'testExtend','assert (edgeData.length = 2)','assert (edgeData.length = 1)','the test passes','C64')
m(C,'Config.expectedFull','| .POS => [c.full1, c.full3, c.full2]','| .POS => [c.full1, c.full2, c.full3]','the test passes','C64')
m(C,'testIntoIterNode','[(c.node1, c.nodeData1), (c.node4, c.nodeData4)','[(c.node4, c.nodeData4), (c.node1, c.nodeData1)','the test passes','C64')
m(C,'testQueryPO','(.PO [(c.edge1, c.node2)])','(.PO [(c.edge1, c.node1)])','the test passes','C64')
m(C,'testQueryNodeProps','assert ((b.q.iterEdges query .SPO).length = 0)','assert ((b.q.iterEdges query .SPO).length = 1)','the test passes','C64')
m(C,'sled','run := SledStore.runImpl c','run := fun s g q => SledStore.runImpl c s g (.S [])','the tests of the sled back-end pass','C64')
m(C,'mem','merge := Mem.merge mN mE','merge := Mem.merge (fun _ b => b) mE','the tests of the in-memory back-end pass','C64')
m(C,'expectDb','| .error _ => none','| .error _ => some r.1','an error makes a test fail','C64')
m(C,'assertSameSet','(∀ x ∈ xs, x ∈ ys) ∧ ∀ y ∈ ys, y ∈ xs','∀ x ∈ xs, x ∈ ys','sets are compared both ways','C64')
# programs with many stores
m(W,'putMem','gens := Function.update W.gens k s.gen, ','','a generator does not yield an id twice','C67')
m(W,'World.call','gens := Function.update W.gens k r.1.gen\n        ','','a generator does not yield an id twice','C67')
m(W,'call','ulids := r.1.ulid\n        ','','Ulid::new() does not yield an id twice','C67')
m(W,'call','dbs := Function.update W.dbs b r.1.db','dbs := W.dbs','calls change the database','C67')
m(W,'call','dbs := Function.update W.dbs b r.1.db','dbs := fun _ => r.1.db','calls change only their own database','C67')
m(W,'withSource','Sled.intoIterNodes c (W.dbs b) .SPO','Sled.intoIterNodes c (W.dbs 0) .SPO','a store yields the contents of its database','C67')
m(W,'withSource','s.intoIterNodes .SPO','s.intoIterNodes .POS','the set operations get their operand in order','C67')
m(W,'feed','(W.setVar w none).call','W.call','the operand is consumed','C67')
m(W,'query','(W.putMem r k (s.run (W.gens k) q), .done)','(W.putMem v k (s.run (W.gens k) q), .done)','a query leaves its store as it is','C67')
m(W,'combine','((W.setVar v none).setVar w none).putMem r k s\'','(W.setVar v none).putMem r k s\'','both operands are consumed','C67')
m(W,'combine','match f s (W.gens k) src with','match f { s with nodeProps := .empty } (W.gens k) src with','the operation is on the store as it is','C67')
m(W,'step','Mem.difference','Mem.intersection','each command is what it says','C67')
m(W,'step','(W.setVar v (some (.sled k b)), .done)','({ W.setVar v (some (.sled k b)) with dbs := Function.update W.dbs b .empty }, .done)','opening a database leaves its contents','C67')
m(W,'Res.ofLR','| .error (.right e) => .source e','| .error (.right e) => .done','errors of the source are reported','C67')
# closures
m(L,'Triple.mapMut','let (s, pred) := f s t.pred\n  let (s, obj) := f s t.obj','let (s, obj) := f s t.obj\n  let (s, pred) := f s t.pred','order of the calls','C68')
m(L,'tryMapMut','match f s t.obj with','match f s t.sub with','each field is mapped','C68')
m(L,'collectMut','| (s, .error e) => (s, .error e)','| (s, .error _) => collectMut f s l acc','stops at the first error','C68')
m(L,'pairMut','match f s x.2 with','match f s x.1 with','each id is mapped','C68')
m(L,'tripleMut','(s, .ok (a, b, c))','(s, .ok (a, c, b))','the answers keep their places','C68')
# extend and merge with a store on the same database
m(SS,'intoEdgeItem','| none => .error .missing','| none => .error .sled','errors of the iterators','C66')
m(SS,'extendTurnE','[intoEdgeItem Id c s.db e]','[]','each edge is written','C66')
m(SS,'mergeTurnE','s.merge c mN mE','s.extend c','merge merges','C66')
m(SS,'ExtendSelf','Loop (fun s => s.db.spo) (extendTurnE c)','Loop (fun s => s.db.pos) (extendTurnE c)','the tree traversed','C66')
m(SS,'MergeSelf','Loop (fun s => s.db.nodeProps) (mergeTurnN c mN mE)','Loop (fun s => s.db.edgeProps) (mergeTurnN c mN mE)','the tree traversed','C66')
m(SS,'Both','(∃ s\', first s (s\', .ok ()) ∧ second s\' out)','(∃ s\', first s (s\', .ok ()) ∧ second s out)','the edges are taken after the nodes','C66')
