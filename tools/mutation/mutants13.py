M=[]
def m(file,defn,old,new,claim,props,nth=0,dir='Model'):
    M.append(dict(file=file,defn=defn,old=old,new=new,claim=claim,props=props,nth=nth,dir=dir))
W='RdfWorld';F='RdfSelf'
# programs with many RDF stores: code
m(W,'RdfRes.ofCall','| .error (.left (.nameNotFound s)) => .unknown s','| .error (.left (.nameNotFound s)) => .failed','an unknown name is told','C82')
m(W,'RdfRes.ofCall','| .error (.right e) => .source e','| .error (.right e) => .failed','the error of the operand is returned','C82')
m(W,'RdfRes.ofRun','| .right (.nameIndex (.duplicateRight _ _ _)) => .twice','| .right (.nameIndex (.duplicateRight _ _ _)) => .done','a query in whose answer a name occurs twice fails','C82')
m(W,'RdfWorld.memStore','ulid := W.names','ulid := fun _ => 0','names get different ids','C82')
m(W,'RdfWorld.memStore','{ s with gen := W.gens k }','s','clones share a generator','C82')
m(W,'RdfWorld.sledStore','nameIndex := (W.dbs b).names','nameIndex := (W.dbs 0).names','each database has its own names','C82')
m(W,'RdfWorld.sledStore','db := (W.dbs b).data','db := (W.dbs 0).data','each database has its own data','C82')
m(W,'RdfWorld.sledStore','gen := W.gens k','gen := W.gens 0','each store has its own generator','C82')
m(W,'RdfWorld.putMem','names := r.ulid','names := W.names','an id given to a name is used up','C82')
m(W,'RdfWorld.putMem','gens := Function.update W.gens k r.graph.gen','gens := W.gens','an id given to an edge is used up','C82')
m(W,'RdfWorld.putMem','(some (.mem k r.nameIndex r.graph))','(some (.mem k .new r.graph))','the names of an answer are kept','C82')
m(W,'RdfWorld.call','names := r.1.ulid','names := W.names','an id given to a name is used up','C82')
m(W,'RdfWorld.call','gens := Function.update W.gens k r.1.graph.gen','gens := W.gens','an id given to an edge is used up','C82')
m(W,'RdfWorld.call','⟨r.1.nameIndex, r.1.graph.db⟩','⟨(W.dbs b).names, r.1.graph.db⟩','new names are stored in the database','C82')
m(W,'RdfWorld.call','⟨r.1.nameIndex, r.1.graph.db⟩','⟨r.1.nameIndex, (W.dbs b).data⟩','the change is stored in the database','C82')
m(W,'RdfWorld.feed','(W.setVar w none).call','W.call','the operand is consumed','C82')
m(W,'RdfWorld.feed','if v = w then (W, .noStore)','if v = w then (W, .done)','(a store cannot be fed to itself)','C82')
m(W,'RdfWorld.withSource','.intoIterNodes MemIndex.impl (Mem.impl mN mE) .SPO)','.iterNodes MemIndex.impl (Mem.impl mN mE) .SPO)','(the same items: equivalent)','C82')
m(W,'RdfWorld.withSource','.intoIterNodes (SledIndex.impl cl cr) (SledStore.impl c mN mE) .SPO)','.intoIterNodes (SledIndex.impl cl cr) (SledStore.impl c mN mE) .OSP)','(the order of the items decides the ids, not the result)','C82, C83')
m(W,'RdfWorld.query','(W.putMem r k res, .done)','(W.putMem v k res, .done)','the answer is a new store','C82')
m(W,'RdfWorld.query','(W.gens k) W.names q with','(W.gens k) (fun _ => 0) q with','the answer draws ids for names from Ulid::new','C82')
m(W,'RdfWorld.query','(W.gens k) W.names q with','(W.gens k\') W.names q with','(the answer has its own generator)','C82')
m(W,'RdfWorld.step','W.feed cl cr c mN mE v w .merge','W.feed cl cr c mN mE v w .extend','merge merges','C82')
m(W,'RdfWorld.step','W.feed cl cr c mN mE v w .extend','W.feed cl cr c mN mE w v .extend','extend takes from the operand','C82')
m(W,'RdfWorld.step','(W.setVar v (some (.sled k b)), .done)','({ W with dbs := Function.update W.dbs b ⟨.empty, .empty⟩, vars := Function.update W.vars v (some (.sled k b)) }, .done)','opening a store keeps what is there','C82')
# specification
m(W,'RdfState.hear','known s || decide (Mentions H (.string s))','known s','(weaker: names in the operand stay unknown)','C82',dir='Spec')
m(W,'Mentions','(H.nodes e).isSome ∨','','(weaker: names of nodes are not learned)','C82',dir='Spec')
m(W,'feed','(S.setVar w none).setState v','S.setState v','the operand is consumed','C82',dir='Spec')
m(W,'feed','known := RdfState.hear (S.state p).known (S.state q).graph','known := fun s => (S.state p).known s || (S.state q).known s','(all names of the operand, also those not in use, are learned: false of the code)','C82',dir='Spec')
m(W,'query','known := RdfState.hear (fun _ => false) (select (S.state p).graph q)','known := (S.state p).known','(the answer knows all names: false of the code)','C82',dir='Spec')
m(W,'query','if NamesOnce (select (S.state p).graph q) then','if True then','(queries never fail: false of the code)','C82',dir='Spec')
m(W,'query','| some s => (S, .unknown s)','| some s => (S, .done)','a query with an unknown name fails','C82',dir='Spec')
m(W,'step','S.feed v w .overlay','S.feed v w (.mergeWith mN mE)','extend overwrites','C82',dir='Spec')
m(W,'step','(S.setVar v (some (.on b)), .done)','({ S with dbs := Function.update S.dbs b .empty, vars := Function.update S.vars v (some (.on b)) }, .done)','opening a store keeps what is there','C82',dir='Spec')
m(W,'rdfFeedCosts','(n.1 + 3 * n.2)','n.1','(stronger: names in edges cost nothing: false of the code)','C82',dir='Spec')
m(W,'rdfCmdCosts','costs k (sizes cl cr c mN mE W v).2','(fun _ => 0, 0)','(stronger: answers draw no ids: false of the code)','C82',dir='Spec')
m(W,'rdfCmdCosts','rdfCosts W v op.draws op.creations','rdfCosts W v op.draws 0','(stronger: names cost nothing: false of the code)','C82',dir='Spec')
m(W,'RdfApart','gens k i = gens k\' j → k = k\'','True','(unsatisfiable hypothesis)','C82, C83',dir='Spec')
m(W,'RdfApart','explicit : ∀ u ∈ K, ∀ j < C.2, names j ≠ u','explicit : True','(stronger: false of the code, C82_alias)','C82',dir='Spec')
m(W,'RdfApart','name : Fresh C.2 names','name : True','(stronger: false of the code)','C82',dir='Spec')
m(W,'RdfCmd.ulids','| .run _ q _ _ => Spec.ulids (queryEntities q)','| .run _ _ _ _ => []','(stronger: ULIDs in queries need not differ from those of names: false of the code)','C82',dir='Spec')
# two RDF stores on one database
m(F,'nodeItem','Rdf.vertexItem (SledIndex.impl cl cr) r.nameIndex','Rdf.vertexItem (SledIndex.impl cl cr) .empty','names are looked up in the index','C83')
m(F,'edgeItem','Rdf.edgeItem (SledIndex.impl cl cr) r.nameIndex','Rdf.edgeItem (SledIndex.impl cl cr) .empty','names are looked up in the index','C83')
m(F,'extendTurnN','{ nodes := [nodeItem cl cr c r e], edges := [] }','{ nodes := [], edges := [] }','nodes are taken in','C83')
m(F,'extendTurnE','r.extend','r.merge','extend overwrites','C83')
m(F,'mergeTurnN','r.merge','r.extend','merge merges','C83')
m(F,'mergeTurnE','r.merge','r.extend','merge merges','C83')
m(F,'Extend','r.graph.db.spo','r.graph.db.pos','edges are read from SPO','C83')
m(F,'Merge','r.graph.db.nodeProps','r.graph.db.edgeProps','nodes are read from the tree of nodes','C83')
m(F,'Merge','(mergeTurnE cl cr c mN mE)','(mergeTurnN cl cr c mN mE)','edges are taken in as edges','C83')
