M=[]
def m(file,defn,old,new,claim,props,nth=0,dir='Model'):
    M.append(dict(file=file,defn=defn,old=old,new=new,claim=claim,props=props,nth=nth,dir=dir))
R='RdfSled';P='RdfSledRemove';L='RdfSledLoose'
# RDF stores on sled: code
m(P,'removeNodePieces','(lookupEntity cl cr e)','(lookupOrCreateEntity cl cr e)','a removal creates no names','C79')
m(P,'removeNodePieces','Sled.removeNodePieces fs bs id','Sled.removeNode id','(scans at once: another reading of sled)','C79')
m(P,'removeNodePieces','Sled.removeNodePieces fs bs id','Sled.removeNodePieces bs fs id','(sizes of pieces swapped)','C79')
m(R,'lookupOrCreateEntity','(Gen.fresh i.ulid).1)).andThen (fun _ => done (Gen.fresh i.ulid).1))','(Gen.fresh i.ulid).1)).andThen (fun _ => done (Gen.fresh (Gen.fresh i.ulid).2).1))','the id returned is that of the name','C41, C61, C79')
m(R,'lookupOrCreateEntity','{ i with ulid := (Gen.fresh i.ulid).2 }','i','ids are drawn once','C41, C61, C79')
m(R,'Task.andThen','| .error e => .ret (r.1, .error e)','| .error e => .ret ({ r.1 with ulid := fun _ => 0 }, .error e)','(a failed call loses its ids)','C61, C79')
m(R,'tryMap','(f t.sub).andThen (fun s => (f t.pred).andThen (fun p =>','(f t.pred).andThen (fun p => (f t.sub).andThen (fun s =>','subject first (observable through the names left by a crash)','C60, C61, C79')
m(R,'removeEdge','tryMap (lookupEntity cl cr) t','tryMap (lookupOrCreateEntity cl cr) t','a removal creates no names','C60, C79')
m(R,'mergeEdge','{ i with gen := (Gen.fresh i.gen).2 }','i','each edge gets its own record','C61, C79')
m(R,'absorb','| .error e => .ret (r.1, .error (.left e))','| .error _ => absorb f k l r.1','a bulk call stops at the first failure','C60, C79')
m(R,'extend','(absorb (fun x => insertEdge cl cr c x.1 x.2) (fun i => .ret (i, .ok ())) src.edges) src.nodes i','(fun i => .ret (i, .ok ())) src.nodes i','extend takes in the edges','C60, C79')
m(R,'onIndex','p.onNames.bind (fun r => .ret (i, match r with | .ok a => .ok a | .error e => .error (.nameIndex e)))','p.onNames.bind (fun r => .ret ({ i with gen := (Gen.fresh i.gen).2 }, match r with | .ok a => .ok a | .error e => .error (.nameIndex e)))','(a look-up draws an id)','C60, C79')
# specification
m(L,'Fails','| .removeNode e => ∃ s, e = .string s ∧ f s = none','| .removeNode _ => False','(stronger specification: false of the code)','C79',dir='Spec')
m(L,'Fails','| .removeEdge t => ∃ s, .string s ∈ RdfState.parts t ∧ f s = none','| .removeEdge t => ∃ s, .string s = t.sub ∧ f s = none','(stronger specification: false of the code)','C79',dir='Spec')
m(L,'Fails','| .insertNode e _ => ∃ s v, e = .string s ∧ f s = none ∧ f\' s = some v ∧ v ∉ mine th','| .insertNode _ _ => False','(stronger specification: false of the code)','C79',dir='Spec')
m(L,'Fails','| .insertEdge _ t _ => ∃ s v, .string s ∈ RdfState.parts t ∧ f s = none ∧ f\' s = some v ∧ v ∉ mine th','| .insertEdge _ t _ => ∃ s v, .string s ∈ RdfState.parts t ∧ f s = none ∧ f\' s = some v ∧ v ∈ mine th','(stronger specification: false of the code)','C79',dir='Spec')
m(L,'Fails','f s = none ∧ f\' s = some v ∧ v ∉ mine th','f s = none','(weaker specification: any new name may fail)','C79',nth=2,dir='Spec')
m(L,'CallDid','(crash = true ∨ l.length = x.wants.length','(l.length = x.wants.length','(stronger specification: false of the code)','C79',dir='Spec')
m(L,'CallDid','l.map some <+: x.wants.map (pieceIn f\')','l.map some <+: x.wants.map (pieceIn f)','(stronger specification: the names are known at the start)','C79',dir='Spec')
m(L,'CallDid','∨ ∃ y, x.wants[l.length]? = some y ∧ Fails f f\' th y.1','','(stronger specification: false of the code)','C79',dir='Spec')
m(L,'Call.wants','if fails src.nodes then [] else edgeCalls .insertEdge x.ids.gen (oks src.edges)','edgeCalls .insertEdge x.ids.gen (oks src.edges)','(edges are taken in after a failing node)','C79',dir='Spec')
m(L,'Call.wants','(oks src.nodes).map (fun y => .mergeNode y.1 y.2)','(oks src.nodes).map (fun y => .insertNode y.1 y.2)','(merge replaces nodes)','C79',dir='Spec')
m(L,'edgeCalls','mk (.ulid (Gen.fresh g).1) x.1 x.2 :: edgeCalls mk (Gen.fresh g).2 l','mk (.ulid (Gen.fresh g).1) x.1 x.2 :: edgeCalls mk g l','(all edges get the same id)','C79',dir='Spec')
m(L,'Learns','x.1.Creates s ∧ u ∈ x.1.ulids','x.1.Creates s ∧ x.1.ulids.head? = some u','(stronger specification: only the first id is given)','C79',dir='Spec')
m(L,'Learns','Keeps f f\' ∧','','(weaker specification: names may change)','C79',dir='Spec')
m(L,'ThreadDid','∃ ls, List.Forall₂ (CallDid crash f f\' th) th ls','∃ ls, List.Forall₂ (CallDid crash f f\' []) th ls','(weaker specification: any thread may lose a race with itself)','C79',dir='Spec')
m(L,'Did','z.crash = s.crash ∧','','(weaker specification)','C79',dir='Spec')
m(L,'Session.Leads','| true => ∃ rest, Steps (d, s.threads.map (List.map (PieceCall.prog cl cr c mN mE))) (d\', rest)','| true => d\' = d','(a process which crashes has done nothing)','C79',dir='Spec')
