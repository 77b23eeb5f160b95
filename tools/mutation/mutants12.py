M=[]
def m(file,defn,old,new,claim,props,nth=0,dir='Model'):
    M.append(dict(file=file,defn=defn,old=old,new=new,claim=claim,props=props,nth=nth,dir=dir))
S='RdfSledScan';Q='RdfSledQuery';L='SledLazy'
# iteration over an RDF store while others write: code
m(S,'edgeItem','| .ok o => .ok ({ sub := s, pred := q, obj := o }, p)','| .ok o => .ok ({ sub := o, pred := q, obj := s }, p)','names stay in their places','C80')
m(S,'edgeItem','Rdf.lookupId (SledIndex.impl cl cr) i2 t.pred','Rdf.lookupId (SledIndex.impl cl cr) i1 t.pred','(the predicate is looked up with the subject)','C80')
m(S,'edgeItem','Rdf.lookupId (SledIndex.impl cl cr) i3 t.obj','Rdf.lookupId (SledIndex.impl cl cr) i3 t.sub','each id is replaced by its own name','C80')
m(S,'edgeItem','| .error e => .error (.graph e)','| .error _ => .error (.graph .sled)','the error of the triple store is returned','C80')
m(S,'propsItem','(s, t.sub.2)','(s, t.obj.2)','properties stay with their nodes','C80')
m(S,'propsItem','Rdf.lookupId (SledIndex.impl cl cr) i1 t.sub.1','Rdf.lookupId (SledIndex.impl cl cr) i1 t.pred.1','each id is replaced by its own name','C80')
m(S,'vertexItem','Rdf.vertexItem (SledIndex.impl cl cr) i','fun x => match x with | .error e => .error (.graph e) | .ok (n, p) => .ok (.ulid n, p)','nodes are returned by name','C80')
# specification of the reads
m(S,'Call.Spares','| .mergeEdge t\' _ => tripleIn f t\' ≠ some t','| .mergeEdge _ _ => True','(stronger: merges are harmless: false of the code)','C80, C81',dir='Spec')
m(S,'Call.Spares','| .removeEdge t\' => tripleIn f t\' ≠ some t','| .removeEdge _ => True','(stronger: removals are harmless: false of the code)','C80, C81',dir='Spec')
m(S,'Call.Spares','idIn f e ≠ some t.sub ∧ idIn f e ≠ some t.obj','idIn f e ≠ some t.sub','(stronger: false of the code)','C80, C81',dir='Spec')
m(S,'Call.Spares','| .merge src => ∀ y ∈ oks src.edges, tripleIn f y.1 ≠ some t','| .merge src => True','(stronger: false of the code)','C80, C81',dir='Spec')
m(S,'Call.Leaves','∀ e, x.op = .removeNode e → idIn f e ≠ some n','True','(stronger: false of the code)','C80, C81',dir='Spec')
m(S,'Sled.Uses','(u = t.sub ∨ u = t.pred ∨ u = t.obj)','(u = t.sub ∨ u = t.obj)','(weaker: predicates are no ids in use)','C80',dir='Spec')
m(S,'Sled.Uses','d.nodeProps.get (toBeBytes u).1 ≠ none ∨','','(weaker: nodes are no ids in use)','C80',dir='Spec')
# queries on an RDF store while others write: code
m(Q,'entityIn','Rdf.lookupEntity (SledIndex.impl cl cr) (⟨i, (), fun _ => 0⟩ : Rdf IndexDb Unit) e','match Rdf.lookupEntity (SledIndex.impl cl cr) (⟨i, (), fun _ => 0⟩ : Rdf IndexDb Unit) e with | .ok v => .ok v | .error _ => .ok 0','a query with an unknown name fails','C81')
m(Q,'translate','(k + 1, entityIn cl cr (ask k) e)','(k, entityIn cl cr (ask k) e)','(all names looked up at one moment)','C81')
m(Q,'recordAt','| .ok m => .ok (x.1 + 1, m)','| .ok _ => .ok (x.1 + 1, x.2)','the names are recorded','C81')
m(Q,'recordAt','| .ok m => .ok (x.1 + 1, m)','| .ok m => .ok (x.1, m)','(all names looked up at one moment)','C81')
m(Q,'recordAt','| .error e => .error e','| .error _ => .ok x','a name which occurs twice: the code fails','C81')
m(Q,'recordEdgesAt','[t.sub, t.pred, t.obj]','[t.sub, t.obj]','the names of predicates are recorded','C81')
m(Q,'recordEdgesAt','| .ok x => recordEdgesAt cl cr tell x l','| .ok x => .ok x','the names of all edges are recorded','C81')
m(Q,'runLazy','Sled.tryFold (recordAt cl cr tell) (0, .new) res.vertices','Sled.tryFold (recordAt cl cr tell) (0, .new) []','the names of nodes are recorded','C81')
m(Q,'runLazy','recordEdgesAt cl cr tell x (res.iterEdges .SPO)','recordEdgesAt (EP := EP) cl cr tell x []','the names of edges are recorded','C81')
m(Q,'runLazy','Sled.runLazy c g ρ q with','Sled.runLazy c g ρ (.S []) with','the query is run','C81')
m(Q,'runLazy','| .error e => .error (.left e)','| .error e => .ok (Rdf.new .new (.new g) u)','a query with an unknown name fails','C81')
