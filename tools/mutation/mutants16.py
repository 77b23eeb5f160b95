M=[]
def m(file,defn,old,new,claim,props,nth=0,dir='Model'): M.append(dict(file=file,defn=defn,old=old,new=new,claim=claim,props=props,nth=nth,dir=dir))
R='RdfSled'
# RDF stores call by call
m(R,'insertNode','(lookupOrCreateEntity cl cr e).andThen','(lookupEntity cl cr e).andThen','insert_node creates the name','C88')
m(R,'removeNode','(lookupEntity cl cr e).andThen','(lookupOrCreateEntity cl cr e).andThen','remove_node creates no name','C88')
m(R,'removeEdge','(tryMap (lookupEntity cl cr) t)','(tryMap (lookupOrCreateEntity cl cr) t)','remove_edge creates no name','C88')
m(R,'removeEdge','onGraph (Sled.removeEdge t)','done ()','the edge is removed','C88')
m(R,'mergeNode','onGraph (Sled.mergeNode c mN id p)','onGraph (Sled.insertNode c id p)','properties are merged','C88')
m(R,'mergeEdge','{ i with gen := (Gen.fresh i.gen).2 }','i','an id is drawn once','C88')
m(R,'insertEdge','(Gen.fresh i.gen).1 t p','(Gen.fresh i.ulid).1 t p','record ids come from the store','C88')
m(R,'tryMap','done { sub := s, pred := p, obj := o }','done { sub := o, pred := p, obj := s }','the parts keep their places','C88')
m(R,'tryMap','(f t.pred).andThen (fun p =>','(f t.sub).andThen (fun p =>','each part has its own id','C88')
m(R,'lookupEntity','.ret (i, .error (.nameNotFound s))','done (i.ulid 0) i','a name not found is an error','C88')
m(R,'lookupEntity','| some id => done id','| some _ => fun i => .ret (i, .error (.nameNotFound s))','a known name is found','C88')
m(R,'lookupOrCreateEntity','| some id => done id','| some _ => fun i => .ret (i, .error (.nameNotFound s))','a known name is found','C88')
m(R,'lookupOrCreateEntity','| some id => done id','| some _ => fun i => done (Gen.fresh i.ulid).1 i','a known name keeps its id','C88')
m(R,'lookupOrCreateEntity','(onIndex (SledIndex.setProg cl cr s (Gen.fresh i.ulid).1)).andThen (fun _ => done (Gen.fresh i.ulid).1)','done (Gen.fresh i.ulid).1','the name is entered','C88')
m(R,'lookupOrCreateEntity','{ i with ulid := (Gen.fresh i.ulid).2 }','i','an id is drawn once','C88')
m(R,'absorb','| .error e => .ret (r.1, .error (.left e))','| .error _ => absorb f k l r.1','extend ends with the first failure','C88')
m(R,'absorb','| .error e :: _, i => .ret (i, .error (.right e))','| .error _ :: l, i => absorb f k l i','extend ends with the first failing item','C88')
m(R,'absorb','| .ok () => absorb f k l r.1','| .ok () => absorb f k l i','ids are drawn once','C88')
m(R,'absorb','| .ok () => absorb f k l r.1','| .ok () => k r.1','all items are taken','C88')
m(R,'extend','absorb (fun x => insertEdge cl cr c x.1 x.2)','absorb (fun x => insertEdge cl cr c { x.1 with sub := x.1.obj } x.2)','edges are inserted as they are','C88')
m(R,'merge','absorb (fun x => mergeNode cl cr c mN x.1 x.2)','absorb (fun x => insertNode cl cr c x.1 x.2)','merge merges nodes','C88')
m('RdfSledRemove','removeNodePieces','(lookupEntity cl cr e)','(lookupOrCreateEntity cl cr e)','remove_node creates no name','C88')
# the specification
L='RdfSledLoose'
m(L,'Named',"l'.length = l.length","l'.length < l.length",'a step that enters names does not end the call','C88',dir='Spec')
m(L,'Named','u ∈ z.1.ulids','u ∈ z.1.records','the id of the name has been drawn by the call','C88',dir='Spec')
m(L,'Fails','| .removeNode e => ∃ s, e = .string s ∧ f s = none','| .removeNode _ => False','remove_node fails for unknown names','C88',dir='Spec')
m(L,'Fails','| .removeEdge t => ∃ s, .string s ∈ RdfState.parts t ∧ f s = none','| .removeEdge t => t.sub = t.sub ∧ ∃ s, t.sub = .string s ∧ f s = none','remove_edge fails for unknown names','C88',dir='Spec')
m(L,'Fails','v ∉ mine th','False','insert_node can fail by a race for a name','C88',dir='Spec')
m(L,'Fails','v ∉ mine th','False','insert_edge can fail by a race for a name','C88',nth=2,dir='Spec')
m(L,'CallDid',"x.wants.map (pieceIn f')",'x.wants.map (pieceIn f)','names get known during a call','C88',dir='Spec')
m(L,'CallDid','(crash = true ∨ l.length = x.wants.length ∨','(l.length = x.wants.length ∨','a crash stops calls','C88',dir='Spec')
m(L,'CallDid',"∨ ∃ y, x.wants[l.length]? = some y ∧ Fails f f' th y.1)",')','calls can fail for names','C88',dir='Spec')
m(L,'Call.wants','| .insertNode e p => [.insertNode e p]','| .insertNode e p => [.mergeNode e p]','what insert_node stands for','C88',dir='Spec')
m(L,'Call.wants','if fails src.nodes then [] else edgeCalls .insertEdge','if fails src.nodes then [] else edgeCalls .mergeEdge','what extend stands for','C88',dir='Spec')
m(L,'Call.wants','if fails src.nodes then [] else edgeCalls .insertEdge x.ids.gen (oks src.edges)','edgeCalls .insertEdge x.ids.gen (oks src.edges)','extend stops at a failing node','C88',dir='Spec')
m(L,'edgeCalls','edgeCalls mk (Gen.fresh g).2 l','edgeCalls mk g l','each edge has its id','C88',dir='Spec')
m(L,'mine','x.1.ulids','x.1.records','the ids of names','C88',dir='Spec')
S='SledLoose'
m(S,'ShowsBut','∀ t, ¬ W t → ∀ o p','∀ t, ∀ o p','(edges raced for can differ between orderings)','C88 C87',dir='Spec')
m(S,'ToRaced','Raced threads t.obj t ∨ Extended threads t ∨ EdgeRaced threads t','Raced threads t.obj t ∨ EdgeRaced threads t','(extend writes out of order)','C88 C87 C76',dir='Spec')
m(S,'ToRaced','Raced threads t.obj t ∨ Extended threads t ∨ EdgeRaced threads t','Raced threads t.obj t ∨ Extended threads t','(remove_edge races)','C88 C87 C76',dir='Spec')
m(S,'Call.acts','[.removeEdge t, .removeEdge t]','[.removeEdge t]','(remove_edge removes twice)','C88 C87 C76',dir='Spec')
m('History','Timed','doneBy i j h <+: ops y','doneBy i j h = ops y','(calls may not finish)','C85 C87 C88',dir='Spec')
m('History','Timed','(part = false → doneBy i j h = ops y)','doneBy i j h = ops y','(calls may fail)','C85 C87 C88',dir='Spec')
m('History','Timed','j + l.length < th.length','j + l.length ≤ th.length','(a call at work has not returned)','C85 C87 C88',dir='Spec')
m('History','Timed','(th.drop j).map prog <:+ l','(th.drop j).length ≤ l.length','(a call at work has begun)','C85 C87 C88',dir='Spec')
