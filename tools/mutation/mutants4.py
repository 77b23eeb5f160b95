M=[]
def m(file,defn,old,new,claim,props,nth=0):
    M.append(dict(file=file,defn=defn,old=old,new=new,claim=claim,props=props,nth=nth))
D='SledDebug';R='RdfSled';X='Rdf';I='Index'
# Debug of sled stores
m(D,'debugNodes','match tryFromBeBytes (Id := Id) k with\n    | none => .error ()','match tryFromBeBytes (Id := Id) k with\n    | none => debugNodes F l','formatting reports undecodable keys','C58')
m(D,'debugNodes','| (k, _) :: l =>\n    match tryFromBeBytes (Id := Id) k with','| (_, k) :: l =>\n    match tryFromBeBytes (Id := Id) k with','the id of a node is printed','C58')
m(D,'debugHashes','m.insert e.2 (F.hash e.1)','m.insert e.2 (F.hash e.2)','the output does not depend on the ids of the records','C58')
m(D,'debugHashes','m.insert e.2 (F.hash e.1)','m.insert e.1 (F.hash e.1)','the hash is found by the id of the record','C58')
m(D,'debugRecords','m.insert (hashes.get e.1 : Option Nat) e.2','m.insert (hashes.get e.2 : Option Nat) e.2','the properties of an edge are printed under its hash','C58')
m(D,'debugRecords','m.insert (hashes.get e.1 : Option Nat) e.2','m.insert (hashes.get e.1 : Option Nat) e.1','the output does not depend on the ids of the records','C58')
m(D,'debugProps','| some h => "  " ++ F.hex h ++ " -> " ++ F.showBytes e.2 ++ "\\n"','| some h => "  " ++ F.hex h ++ "\\n"','the output tells different properties apart','C58')
m(D,'debugEdges','| some h => F.hex h ++ "\\n"\n           | none => "_\\n"','| some _ => F.showBytes v ++ "\\n"\n           | none => "_\\n"','the output does not depend on the ids of the records','C58')
m(D,'debugEdges','F.showId t.sub ++ ", " ++ F.showId t.pred','F.showId t.sub ++ ", " ++ F.showId t.sub','the output tells different edges apart','C58')
m(D,'debugOf','let hashes := debugHashes F spo\n','let hashes := debugHashes F pos\n','hashes are those of the SPO keys','C58')
m(D,'debugOf','match debugEdges F hashes decodePos pos with','match debugEdges F hashes decodeSpo pos with','keys of an ordering are decoded with its decoder','C58')
m(D,'debugOf','match debugEdges F hashes decodeOsp osp with\n        | .error e => .error e','match debugEdges F hashes decodeOsp osp with\n        | .error _ => .ok []','(on well-formed databases the same) errors are reported','C58')
# RDF on sled, call by call
m(R,'onNames','.call (fun d => { d with names := f d.names })','.call (fun d => { d with names := f (f d.names) })','calls on the index are made once','C60')
m(R,'leftToRightProg','| some _ => .call id (fun d => .ret (lookup cl cr .serialization d.leftToRight l))','| some _ => .call id (fun d => .ret (lookup cl cr .serialization d.rightToLeft l))','names are looked up in the tree of names','C60')
m(R,'Task.andThen','| .error e => .ret (r.1, .error e)\n    | .ok a => f a r.1','| .error e => .ret (r.1, .error e)\n    | .ok a => f a i','ids are not handed out twice','C60')
m(R,'onGraph','| .error e => .error (.graph e)','| .error _ => .ok ()','errors of the store are reported','C60')
m(R,'lookupOrCreateEntity','| some id => done id','| some id => fun i => (onIndex (SledIndex.setProg cl cr s id)).andThen (fun _ => done id) i','known names are used','C60')
m(R,'lookupOrCreateEntity','(fun _ => done (Gen.fresh i.ulid).1))\n          { i with ulid := (Gen.fresh i.ulid).2 })','(fun _ => done (Gen.fresh i.ulid).1))\n          i)','the next name gets another id','C60 C61')
m(R,'lookupOrCreateEntity','(onIndex (SledIndex.setProg cl cr s (Gen.fresh i.ulid).1)).andThen (fun _ => done (Gen.fresh i.ulid).1)','(done (Gen.fresh i.ulid).1)','the name is stored','C60 C61')
m(R,'lookupEntity','| none => fun i => .ret (i, .error (.nameNotFound s)))','| none => lookupOrCreateEntity cl cr (.string s))','removing creates no names','C60 C61')
m(R,'tryMap','(f t.sub).andThen (fun s => (f t.pred).andThen (fun p => (f t.obj).andThen (fun o =>','(f t.sub).andThen (fun s => (f t.obj).andThen (fun o => (f t.pred).andThen (fun p =>','names are created in the order subject, predicate, object','C60')
m(R,'insertNode','(lookupOrCreateEntity cl cr e).andThen (fun id => onGraph (Sled.insertNode c id p))','(lookupOrCreateEntity cl cr e).andThen (fun id => (onGraph (Sled.insertNode c id p)).andThen (fun _ => onGraph (Sled.insertNode c id p)))','(writing twice: the same) one write per call','C60')
m(R,'insertEdge','onGraph (Sled.insertEdge c (Gen.fresh i.gen).1 t p) { i with gen := (Gen.fresh i.gen).2 }','onGraph (Sled.insertEdge c (Gen.fresh i.gen).1 t p) i','edges do not share their properties','C60 C61')
m(R,'insertEdge','onGraph (Sled.insertEdge c (Gen.fresh i.gen).1 t p)','onGraph (Sled.insertEdge c (Gen.fresh i.ulid).1 t p)','records are under ids from the generator of the store','C60')
m(R,'mergeNode','Sled.mergeNode c mN id p','Sled.insertNode c id p','merge_node combines the properties','C60 C61')
m(R,'mergeEdge','Sled.mergeEdge c mE (Gen.fresh i.gen).1 t p','Sled.insertEdge c (Gen.fresh i.gen).1 t p','merge_edge combines the properties','C60 C61')
m(R,'removeNode','(lookupEntity cl cr e).andThen','(lookupOrCreateEntity cl cr e).andThen','removing creates no names','C60')
m(R,'removeEdge','onGraph (Sled.removeEdge t)','onGraph (Sled.removeNode t.sub)','remove_edge removes the edge only','C60 C61')
m(R,'absorb','| .error e :: _, i => .ret (i, .error (.right e))','| .error _ :: l, i => absorb f k l i','errors of the source stop the call','C60')
m(R,'absorb','| .error e => .ret (r.1, .error (.left e))','| .error _ => absorb f k l r.1','errors of the store stop the call','C60')
m(R,'absorb','| .ok () => absorb f k l r.1)','| .ok () => absorb f k l i)','ids are not handed out twice','C60 C61')
m(R,'extend','absorb (fun x => insertNode cl cr c x.1 x.2)\n    (absorb (fun x => insertEdge cl cr c x.1 x.2) (fun i => .ret (i, .ok ())) src.edges) src.nodes i','absorb (fun x => insertEdge cl cr c x.1 x.2)\n    (absorb (fun x => insertNode cl cr c x.1 x.2) (fun i => .ret (i, .ok ())) src.nodes) src.edges i','nodes come before edges','C60')
m(R,'merge','mergeNode cl cr c mN x.1 x.2','insertNode cl cr c x.1 x.2','merge combines the properties','C60 C61')
m(R,'openOn','Rdf.new d.names (SledStore.new d.data g u) u','Rdf.new .empty (SledStore.new d.data g u) u','opening finds the names','C60 C61')
# index
m(I,'SledIndex.setTx','| none =>\n    let d := { d with leftToRight := d.leftToRight.insert lb rb }','| none =>\n    let d := d','both directions are stored','C53 C61')
m(I,'SledIndex.setProg','| .error _ => d)','| .error _ => { d with leftToRight := .empty })','a failing set changes nothing','C53 C61')
# RDF layer
m(X,'createTriple','match r.lookupOrCreateEntity ix t.obj with','match r.lookupOrCreateEntity ix t.sub with','edges end at their object','C39 C60')
m(X,'edgeItem','| .ok t => .ok (t, p)','| .ok t => .ok ({ t with sub := t.obj, obj := t.sub }, p)','edges are read as they were written','C39')
m(X,'iterNodes','edges := (st.iterNodes r.graph o).edges.map (edgeItem ix r.nameIndex)','edges := (st.iterNodes r.graph .SPO).edges.map (edgeItem ix r.nameIndex)','edges come in the order asked for','C39 C59')
m(X,'intoIterVertices','st.intoIterVertices','st.iterVertices','(equivalent for the implementations; not for an arbitrary store)','C39')
m(X,'record','| (_, .error e) => .error (.right (.nameIndex e))','| (m, .error _) => .ok m','(would repair queries) run fails on repeated names','C41')
m(X,'recordEdges','[t.sub, t.pred, t.obj]','[t.sub, t.pred]','names of all three places are recorded','C41')
