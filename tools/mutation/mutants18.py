M=[]
def m(file,defn,old,new,claim,props,nth=0,dir='Model'): M.append(dict(file=file,defn=defn,old=old,new=new,claim=claim,props=props,nth=nth,dir=dir))
# programs
m('SledScan','edgeItem','| .ok (some p) => .ok (t, p)','| .ok (some p) => .ok ({ t with sub := t.obj }, p)','iter_edges returns the edge of the entry','C55 C91')
m('SledScan','propsItem','getData c.n ds.nodeProps (toBeBytes t.sub).1','getData c.n ds.nodeProps (toBeBytes t.obj).1','the subject is looked up','C91 C92')
m('SledScan','propsItem','obj := (t.obj, op)','obj := (t.obj, sp)','each node has its own properties','C91 C92')
m('SledScan','propsItem','| _, _, _ => .error .missing','| some sp, some pp, none => .ok { sub := (t.sub, sp), pred := (t.pred, pp), obj := (t.obj, sp) }\n          | _, _, _ => .error .missing','nodes which are missing make an error','C91 C92')
m('SledScan','vertexItem','| .ok k =>','| .ok (k : Id) =>\n    if k = k then .error .missing else','iterating over nodes never fails','C91 C92')
m('RdfSledScan','edgeItem','(SledIndex.impl cl cr) i3 t.obj','(SledIndex.impl cl cr) i3 t.sub','the name of the object','C80 C92')
m('RdfSledScan','edgeItem','| .error e => .error (.graph e)','| .error _ => .error (.nameNotFound "")','errors of the triple store are passed on','C80 C92')
m('RdfSledScan','propsItem','pred := (q, t.pred.2)','pred := (s, t.pred.2)','the name of the predicate','C80 C92')
m('RdfSledQuery','translate','(ask k) e)) 0','(ask 0) e)) 0','each name is looked up by itself','C81 C92')
m('RdfSledQuery','runLazy','(res.iterEdges .SPO)','((res.iterEdges .SPO).drop 1)','every edge of the answer gets its names','C81 C92')
m('RdfSledQuery','runLazy','(0, .new) res.vertices','(0, .new) []','every node of the answer gets its name','C81 C92')
m('Sled','mergeEdge','edgeProps := d.edgeProps.erase o','edgeProps := d.edgeProps','the old record is removed','C32 C55')
m('Sled','mergeEdge','| some b => .ok { d with edgeProps := d.edgeProps.insert (toBeBytes i).1 b })','| some b => .ok { d with edgeProps := d.edgeProps.insert o b })','the new record is under the new id','C91',nth=0)
m('RdfSled','mergeNode','mN','(fun a b => mN b a)','the old value comes first','C88',nth=1)
# what is claimed
P='Places'
m(P,'Placed','time : ∀ k, a ≤ place k','time : ∀ k, a < place k','(a key may be met at the first moment)','C91',dir='Spec')
m(P,'Placed','place k ≤ N','place k < N','(a key may be met at the last moment)','C91',dir='Spec')
m(P,'Placed','(r = none ∨ r = some v)','r = some v','(a record may be gone)','C91 C92',dir='Spec')
m(P,'Placed','within k → sure k → (∀ r, (k, r) ∉ l) → g (place k) k = none','within k → (∀ r, (k, r) ∉ l) → g (place k) k = none','(edges which are raced for may be missed in other orderings)','C91',dir='Spec')
m(P,'Placed','((∃ r, (k, r) ∈ l) ∨ ∃ r, (k\', r) ∈ l) → place k ≤ place k\'','place k ≤ place k\'','(what is passed over is not in order)','C91',dir='Spec')
m(P,'since','min (a + m) N','min (a + m + 1) N','(the reader begins at a)','C91',dir='Spec')
m(P,'itemFor','| none => .error .missing','| none => .error .serialization','(the error is MissingPropertyData)','C91',dir='Spec')
m(P,'Readers','place y.1 = min (a + e.scan) N','place y.1 = min (a + e.look) N','(an edge is there when its entry is read, not when its record is)','C91',dir='Spec')
m(P,'Readers','∀ t, (t, none) ∈ r → ¬ OnlyInserted threads t','∀ t, (t, none) ∉ r','(records may be gone)','C91',dir='Spec')
m(P,'Readers','(fun t => o = .SPO ∨ ¬ W t) r place','(fun _ => True) r place','(edges which are raced for may be missed in other orderings)','C91',dir='Spec')
m(P,'Readers','(g (min (a + e.scan) N)).edges t = some ep','(g (min (a + e.look) N)).edges t = some ep','(the properties are those of the moment of the entry)','C91',dir='Spec')
m(P,'Readers','(g (min (a + ms) N)).nodes t.sub = some sp','(g (min (a + e.scan) N)).nodes t.sub = some sp','(the nodes are looked up later)','C91',dir='Spec')
m(P,'Readers','Spec.Query.Hits t q → OnlyInserted threads t →','Spec.Query.Hits t q →','(an edge that is removed or merged into may be missed)','C91',dir='Spec')
m(P,'Readers','Spec.Query.order q = .SPO ∨ ¬ W t → ∃ k, a ≤ k ∧ k ≤ N ∧ (g k).edges t = some p','∃ k, a ≤ k ∧ k ≤ N ∧ (g k).edges t = some p','(raced edges may be found in other orderings)','C91',dir='Spec')
R='RdfPlaces'
m(R,'Disturbed','¬ y.1.Spares f u','y.1.op ≠ y.1.op','(records may be gone)','C92',dir='Spec')
m(R,'Settled','o = .SPO ∨ ∀ u, tripleIn f t = some u → ¬ W u','True','(raced edges differ in other orderings)','C92',dir='Spec')
m(R,'EdgeBefore','edgeLT o u u\'','edgeLT o u\' u','(iterations go up)','C92',dir='Spec')
m(R,'NodeBefore','u < u\'','u\' < u','(iterations go up)','C92',dir='Spec')
m(R,'Readers','place y.1 = min (a + e.scan) N','place y.1 = min (a + e.obj) N','(an edge is there when its entry is read, not when its names are)','C92',dir='Spec')
m(R,'Readers','k ≤ min (a + e) N ∧ (X k).edges t = some p','k < min (a + b) N ∧ (X k).edges t = some p','(edges are found while the triple store is read)','C92',dir='Spec')
m(R,'Readers','∀ ms mo, e.scan ≤ ms → e.scan ≤ mo →','∀ ms mo,','(before the entry is read its ids may have other names)','C92',dir='Spec')
m(R,'Readers','¬ Disturbed f threads t → Settled','Settled','(an edge that is removed or merged into may be missed)','C92',dir='Spec')
m(R,'Readers','(¬ NamesOnce y ∧ ∃ s v','(False ∧ ∃ s v','(a name can be needed twice)','C92',dir='Spec')
