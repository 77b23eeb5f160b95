M=[]
def m(file,defn,old,new,claim,props,nth=0,dir='Model'):
    M.append(dict(file=file,defn=defn,old=old,new=new,claim=claim,props=props,nth=nth,dir=dir))
R='RdfSled';S='Sled';X='Results'
# what concurrent calls return: code
m(R,'absorb','| .error e :: _, i => .ret (i, .error (.right e))','| .error _ :: l, i => absorb f k l i','a failure of the source ends the call','C84')
m(R,'absorb','| .error e => .ret (r.1, .error (.left e))','| .error _ => absorb f k l r.1','a failure of an item ends the call','C84')
m(R,'absorb','| .error e => .ret (r.1, .error (.left e))','| .error _ => k r.1','a failure of an item is returned','C84')
m(R,'lookupEntity','| none => fun i => .ret (i, .error (.nameNotFound s)))','| none => lookupOrCreateEntity cl cr (.string s))','removing about an unknown name fails and creates nothing','C84')
m(R,'lookupEntity','.error (.nameNotFound s)','.ok 0','removing about an unknown name fails','C84')
m(R,'lookupEntity','.error (.nameNotFound s)','.error (.nameNotFound "")','the unknown name is told','C84')
m(R,'lookupOrCreateEntity','(onIndex (SledIndex.setProg cl cr s (Gen.fresh i.ulid).1)).andThen (fun _ => done (Gen.fresh i.ulid).1)','fun j => (onIndex (SledIndex.setProg cl cr s (Gen.fresh i.ulid).1) j).bind (fun r => .ret (r.1, .ok (Gen.fresh i.ulid).1))','the call fails if the name got another id meanwhile','C84, C61')
m(R,'lookupOrCreateEntity','{ i with ulid := (Gen.fresh i.ulid).2 }','i','each new name gets an id of its own','C84, C61')
m(R,'tryMap','(f t.sub).andThen (fun s => (f t.pred)','(f t.pred).andThen (fun s => (f t.sub)','subject and predicate keep their places','C84')
m(R,'tryMap','(f t.pred).andThen (fun p => (f t.obj)','(f t.pred).andThen (fun p => (f t.pred)','the object is looked up','C84')
m(R,'mergeNode','(lookupOrCreateEntity cl cr e)','(lookupEntity cl cr e)','merge_node creates the name','C84')
m(R,'removeEdge','(tryMap (lookupEntity cl cr) t)','(tryMap (lookupOrCreateEntity cl cr) t)','remove_edge does not create names','C84')
m(R,'extend','src.edges) src.nodes i','[]) src.nodes i','extend takes in the edges','C84')
m('Index','setTx','.error (.duplicateRight l r\' r)','.ok { d with leftToRight := d.leftToRight.insert lb rb }','a name keeps its id','C84, C61')
m('Index','setTx','.error (.duplicateRight l r\' r)','.error (.duplicateRight l r r\')','the old id is told first, then the refused one','C84, C61')
m('Index','setTx','.error (.duplicateRight l r\' r)','.ok d','giving a known name another id fails','C84, C61')
m(S,'insertNode','| none => .ret (.error .serialization)','| none => .ret (.ok ())','a failure to serialize is returned','C84')
m(S,'insertEdge','| none => .ret (.error .serialization)','| none => .ret (.ok ())','a failure to serialize is returned','C84')
m(S,'mergeEdge','| none => .error .serialization','| none => .ok d','a failure to serialize is returned','C84')
m(S,'mergeEdge','| none => .error .serialization','| none => .ok d','a failure to serialize is returned','C84',nth=3)
m(S,'mergeNodes','| .error e => k (.error (.left e))','| .error _ => mergeNodes c mN k l','merge stops at the first failure','C84')
m(S,'mergeNodes','k (.error (.right e))','k (.ok ())','the error of the source is returned','C84')
m(S,'extendEdges','.ret (u, .error (.right e))','.ret (u, .ok ())','the error of the source is returned','C84')
m(S,'extendEdges','.ret (u, .error (.left .serialization))','extendEdges c u l','extend stops at the first failure','C84')
# concurrent calls: code
m(S,'removeEdge','''          match d.spo.get (encodeSpo t).1 with
          | some i => d.edgeProps.erase i
          | none => d.edgeProps })
    (fun _ =>''','''          match d.spo.get (encodeSpo t).1 with
          | some i => d.edgeProps.erase i
          | none => d.edgeProps })
    (fun _ => if true then .ret (.ok ()) else''','(remove_edge as one transaction, what the code does not do: the witnesses of races must fail)','C20, C51, C55')
m(S,'removeEdge','| some i => .call (fun d => { d with edgeProps := d.edgeProps.erase i }) (fun _ => .ret (.ok ()))','| some _ => .ret (.ok ())','(the second look-up erases the record)','C55, C52')
m(S,'removeEdge','.call (fun d => { d with pos := d.pos.erase (encodePos t).1 }) (fun _ =>','.call id (fun _ =>','(each ordering is erased again)','C31, C51')
m(S,'insertEdge','edgeProps := d.edgeProps.insert (toBeBytes i).1 b','edgeProps := (match d.spo.get (encodeSpo t).1 with | some o => d.edgeProps.erase o | none => d.edgeProps).insert (toBeBytes i).1 b','(insert_edge erasing the old record, what the code does not do)','C22, C52')
m(S,'mergeEdge','let d := { d with edgeProps := d.edgeProps.erase o }','','merge_edge erases the old record','C22, C52')
m(S,'extendEdges','.call (fun d => { d with edgeProps := d.edgeProps.insert i b }) (fun _ =>','.call (fun d => { d with spo := d.spo.insert (encodeSpo x.1).1 i, pos := d.pos.insert (encodePos x.1).1 i, osp := d.osp.insert (encodeOsp x.1).1 i, edgeProps := (match d.spo.get (encodeSpo x.1).1 with | some o => d.edgeProps.erase o | none => d.edgeProps).insert i b }) (fun _ => if true then extendEdges c u l else','(extend writing an edge in one transaction, what the code does not do)','C31, C51, C55, C56')
m(S,'extendEdges','.call (fun d => { d with pos := d.pos.insert (encodePos x.1).1 i }) (fun _ =>','.call (fun d => { d with pos := d.pos.insert (encodePos x.1).1 i, osp := d.osp.insert (encodeOsp x.1).1 i }) (fun _ =>','(two orderings written at once)','C51, C55')
m(S,'extendEdges','''| some o =>
                .call (fun d => { d with edgeProps := d.edgeProps.erase o })
                  (fun _ => extendEdges c u l)''','| some _ => extendEdges c u l','extend erases the old record','C22, C52')
# specification
m(X,'saved','.error .serialization','.ok ()','(results are always ok: false)','C84',dir='Spec')
m(X,'absorbed','| .error x => .error (.left x)','| .error _ => absorbed item next l','(failures of items are skipped: false)','C84',dir='Spec')
m(X,'absorbed','| .error e :: _ => .error (.right e)','| .error _ :: l => absorbed item next l','(failures of the source are skipped: false)','C84',dir='Spec')
m(X,'Absorbs','item a (.ok ()) ∧ Absorbs item next l r','Absorbs item next l r','(weaker: a failed item may be passed over)','C84',dir='Spec')
m(X,'Absorbs','r = .error (.right e)','∃ y, r = .error (.right y)','(weaker: any error of the source)','C84',dir='Spec')
m(X,'Mixes','∀ old p, (k.ser old).isSome →','∀ old p,','(a stronger hypothesis)','C84',dir='Spec')
m(X,'Puts','v ∈ mine ∧','','(weaker: any refused id)','C84',dir='Spec')
m(X,'Puts','rival s u ∧','','(weaker: any rival id)','C84',dir='Spec')
m(X,'Puts','.string s ∈ es ∧','','(weaker: any name)','C84',dir='Spec')
m(X,'Finds',' ∧ ∀ s, .string s ∈ es → known s = true ∨ made s','','(weaker: success always allowed)','C84',dir='Spec')
m(X,'Finds','known s = true ∨ made s','known s = true','(stronger: only names known at the start are found: false)','C84',dir='Spec')
m(X,'Finds','known s = false ∧','','(weaker: not found always allowed)','C84',dir='Spec')
m(X,'Made','x.Creates s','True','(weaker: any name may be made)','C84',dir='Spec')
m(X,'MadeElsewhere','j ≠ i ∧','','(weaker: a thread may be its own rival)','C84',dir='Spec')
m(X,'MadeElsewhere','u ∈ x.ulids','True','(weaker: any id)','C84',dir='Spec')
m('NameRace','pause','pause k (q s) (f s)','pause k (q (f s)) (f s)','(a look-up sees the database before its call)','C61',dir='Spec')
m('NameRace','around','(q.run (p.pause k s).1).1','(p.pause k s).1','(the other thread does nothing: no race)','C61',dir='Spec')
m('StoreEq','Graph.Begins','''  after : ∀ t u, (G.edges t).isSome → (H.edges u).isSome → G.edges u = none → edgeLT .SPO t u
''','','(== means: the edges of one are among those of the other: false)','C32, C33',dir='Spec')
m('StoreEq','Graph.Begins','edges : ∀ t p, G.edges t = some p → H.edges t = some p','edges : G.edges = H.edges','(== means equal: false of the code)','C32, C33',dir='Spec')
m('StoreEq','AgreeUpToEnd','∧ (x.2 == y.2) = true','','(== ignores properties: false)','C32',dir='Spec')
m('StoreEq','Graph.Reflexive','G.nodes n = some p → (p == p) = true','G.nodes n = some p → True','(== does not need reflexive properties: false)','C32',dir='Spec')
