M=[]
def m(file,defn,old,new,claim,props,nth=0,dir='Model'): M.append(dict(file=file,defn=defn,old=old,new=new,claim=claim,props=props,nth=nth,dir=dir))
T='SledTx'
# what sled does with a transaction
m(T,'Overlay.get','| some v => (v, o)','| some _ => (Trees.look s t k, o)','a closure sees what it has written','C86')
m(T,'Overlay.get','| some v => (v, o)','| some _ => (Trees.look s t k, o)','a value read twice is the same','C86',nth=1)
m(T,'Overlay.get','{ o with reads := upd o.reads t k (Trees.look s t k) }','o','what is read is remembered','C86')
m(T,'Overlay.get','upd o.reads t k (Trees.look s t k)','upd o.reads t k none','what is read is remembered','C86')
m(T,'Overlay.upd','t\' = t ∧ k\' = k','k\' = k','an entry is remembered with its tree','C86')
m(T,'Overlay.upd','t\' = t ∧ k\' = k','t\' = t','an entry is remembered with its key','C86')
m(T,'Overlay.write','((o.get s t k).1,','(Trees.look s t k,','a write returns what the closure has written before','C86')
m(T,'Overlay.write','{ (o.get s t k).2 with','{ o with','a write that returns the old value has read it','C86')
m(T,'Overlay.write','(o.get s t k).2.writes t k v }','(o.get s t k).2.writes t k none }','the value is written','C86')
m(T,'Overlay.Valid','Trees.look s t k = v','True','(no check at commit)','C86')
m(T,'Overlay.Valid','Trees.look s t k = v','(Trees.look s t k).isSome = v.isSome','(the check looks only whether there is an entry)','C86')
m(T,'Overlay.Commits','| some v => v','| some _ => Trees.look s t k','(nothing is written)','C86')
m(T,'Overlay.Commits','| none => Trees.look s t k','| none => none','(a commit drops the other entries)','C86')
m(T,'TxStep','(o : Overlay T) (hv : o.Valid s) (hc','(o : Overlay T) (hc','(commits are not checked)','C86')
m(T,'TxStep','(e : X) (o : Overlay T) (hv : o.Valid s)','(e : X) (o : Overlay T)','(aborts are not checked)','C86')
m(T,'TxStep','(hb : closures b) (h : Performs b back f k) :','(hb : closures b) :','(any closure may run in any call)','C86')
m(T,'TxStep','(some y, q) :: post) (s, pre ++ (none, q) :: post)','(some y, q) :: post) (s, pre ++ (none, q.tail) :: post)','a transaction that is given up is tried again','C86')
m(T,'TxStep','back (.ok ()) :: q','back (.ok ()) :: q.tail','the thread goes on after the transaction','C86')
m(T,'TxStep','back (.error e) :: q','back (.ok ()) :: q','an abort is returned','C86')
m(T,'Fine','(f s, pre ++ (none, k s :: q) :: post)','(f s, pre ++ (none, k (f s) :: q) :: post)','a call returns what was there before it','C86')
m(T,'Fine','(y : Option (Busy S T X α)) (p : Prog S α)','(p : Prog S α)','(a call fails between transactions only)','C86')
m(T,'atomic','(next (Trees.look s t k)).atomic (Trees.put s t k v)','(next v).atomic (Trees.put s t k v)','a write returns the old value','C86')
m(T,'Performs','| .error e => f s = s ∧ k s = back (.error e)','| .error e => k s = back (.error e)','an aborted transaction leaves the trees as they are','C86')
m(T,'Performs','f s = s\' ∧ k s = back (.ok ())','f s = s\'','the function goes on with the result','C86')
m(T,'Performs','f s = s\' ∧ k s = back (.ok ())','k s = back (.ok ())','the step does what the closure does','C86')
m(T,'Plain','Trees.look s t key = Trees.look s\' t key → k s = k s\'','True','(the result of a call on one key may depend on everything)','C86')
m(T,'Plain','∀ s s\', (∀ key, Trees.look s t key = Trees.look s\' t key) → k s = k s\'','∀ s s\', s = s\' → k s = k s\'','(a read may look at all trees at once)','C86')
# the closures
m(T,'insertEdgeClosure','.insert .spo (encodeSpo t).1','.insert .spo (encodePos t).1','the triple is written to SPO under its key','C86')
m(T,'insertEdgeClosure','.insert .osp (encodeOsp t).1 (toBeBytes i).1 <|','','all orderings get the triple','C86')
m(T,'removeNodeClosure','.removeAll .edgeProps bwd.edge <|','','the records of incoming edges are removed','C86')
m(T,'removeNodeClosure','.removeAll .pos fwd.pos <|','.removeAll .pos fwd.spo <|','POS keys are removed from POS','C86')
m(T,'removeNodeClosure','.remove .nodeProps (toBeBytes n).1 <|','','the node is removed','C86')
m(T,'removeEdgeClosure','| some i => .remove .edgeProps i .done','| some _ => .done','the record is removed','C86')
m(T,'removeEdgeClosure','.write .spo (encodeSpo t).1 none (fun edgePropsId =>','.get .spo (encodeSpo t).1 (fun edgePropsId =>','the entry of SPO is removed','C86')
m(T,'mergeNodeClosure','mN old p','mN p old','the old properties come first','C86')
m(T,'mergeNodeClosure','| none => .abort .serialization','| none => .done','a failure to serialize aborts','C86')
m(T,'mergeNodeClosure','match c.de existing with\n      | none => .abort .serialization','match c.de existing with\n      | none => .done','a failure to deserialize aborts','C86')
m(T,'mergeEdgeClosure','.write .edgeProps oldId none','.get .edgeProps oldId','the old record is removed','C86')
m(T,'mergeEdgeClosure','mE oldProps p','p','the properties are merged','C86')
m(T,'mergeEdgeClosure','(some (toBeBytes i).1) (fun oldId','none (fun oldId','SPO gets the new id','C86')
m(T,'mergeEdgeClosure','| none => .abort .serialization','| none => .done','a failure to serialize aborts','C86')
m(T,'SledIndex.setClosure','.insert .leftToRight lb rb <|','','both directions are written','C86')
m(T,'SledIndex.setClosure','.abort (.duplicateLeft r l\' l)','.insert .rightToLeft rb lb .done','an id keeps its name','C86')
m(T,'SledIndex.setClosure','.abort (.duplicateRight l r\' r)','.abort (.duplicateRight l r r\')','the old id is told first','C86')
m(T,'Closure','  | removeEdge (t : Triple Id) : Closure c mN mE (removeEdgeClosure t)\n','','(a closure is missing)','C86')
m(T,'Closure','  | mergeEdge (i : Id) (t : Triple Id) (p : EP) : Closure c mN mE (mergeEdgeClosure c.e mE i t p)\n','','(a closure is missing)','C86')
m(T,'lift','.write (f t) k v (fun o','.write (f t) k none (fun o','the lifted closure writes the same','C86')
m(T,'lift','.abort (g e)','.done','the lifted closure aborts when the closure does','C86')
# its specification
m(T,'Prog.MadeOf','(Tx.Plain f k ∨ ∃ b back, closures b ∧ Tx.Performs b back f k) ∧','','(any functions)','C86',dir='Spec')
m(T,'Prog.MadeOf','closures b ∧ Tx.Performs','Tx.Performs','(any closures)','C86',dir='Spec')
m(T,'Prog.MadeOf',' ∧ ∀ s, (k s).MadeOf closures','','(only the first step)','C86',dir='Spec')
m(T,'Moment','FineSteps closures false','FineSteps closures true','(moments of runs without failures only)','C86',dir='Spec')
m(T,'Final','FineSteps closures true','FineSteps closures false','(calls may have failed)','C86',dir='Spec')
m(T,'Final',' ∧ ∀ th ∈ rest, th = idle []','','(threads need not have finished)','C86',dir='Spec')
m(T,'Course','∀ k < N, Fine closures (!part)','∀ k < N, Fine closures false','(failures always allowed)','C86',dir='Spec')
# the calls, against the closures
m('Sled','mergeEdge','let d := { d with edgeProps := d.edgeProps.erase o }','','merge_edge erases the old record','C86')
m('Sled','insertEdge','osp := d.osp.insert (encodeOsp t).1 (toBeBytes i).1','osp := d.osp','insert_edge writes OSP','C86')
m('Sled','mergeNode','mN old p','p','merge_node merges','C86')
m('Index','setTx','.error (.duplicateLeft r l\' l)','.ok d','an id keeps its name','C86')
# one history: specification
m('History','doneBy','e.1 == i && e.2.1 == j','e.1 == i','(what a thread has done)','C85',dir='Spec')
m('History','Course','if part then Step (x k) (x (k + 1)) else CalmStep (x k) (x (k + 1))','Step (x k) (x (k + 1))','(failures always allowed: then not everything is done)','C85',dir='Spec')
m('History','Explains','(h.take (cut k))','h','(the database shows everything at once: false)','C85',dir='Spec')
m('History','Timed','  stop : cut N = h.length\n','','(operations that are not yet seen)','C85',dir='Spec')
m('History','Timed','  mono : ∀ k < N, cut k ≤ cut (k + 1)\n','','(operations may be undone)','C85',dir='Spec')
m('History','Timed','doneBy i j h <+: ops y','doneBy i j h = ops y','(every call does everything, even one that fails: false)','C85',dir='Spec')
m('History','Timed','(part = false → doneBy i j h = ops y)','(doneBy i j h = ops y)','(a call that fails does everything: false)','C85',dir='Spec')
m('History','Timed','j + l.length < th.length →','','(calls that have not returned have done everything: false)','C85',dir='Spec')
m('History','Timed','(th.drop j).map prog <:+ l →','j + l.length = th.length →','(a call that has not returned has done nothing: false)','C85',dir='Spec')
# whoever races
m('History','Tells','st (t n) e.2.2 (t (n + 1))','st (t (n + 1)) e.2.2 (t n)','(history read backwards: false)','C87',dir='Spec')
m('History','Tells','shows (x k).1 (t (cut k))','shows (x k).1 (t k)','(one operation per step: false)','C87',dir='Spec')
m('History','Tells','∀ k ≤ N, shows','∀ k, shows','(also after the end: false)','C87',dir='Spec')
m('SledLoose','Call.acts','[.removeEdge t, .removeEdge t]','[.removeEdge t]','(remove_edge removes once: false)','C87',dir='Spec')
m('SledLoose','Call.acts','[.removeEdge t, .removeEdge t]','[]','(remove_edge does nothing: false)','C87',dir='Spec')
m('SledLoose','ToRaced','Raced threads t.obj t ∨ ','','(edges to a node are removed though another thread writes them: false)','C76 C87',dir='Spec')
m('SledLoose','ToRaced',' ∨ EdgeRaced threads t','','(races on the edge before: false)','C76 C87',dir='Spec')
m('SledLoose','ToRaced',' ∨ Extended threads t','','(extend before: false)','C76 C87',dir='Spec')
m('SledLoose','FromRaced','Raced threads t.sub t','False','(all edges from the node are removed: false)','C76 C87',dir='Spec')
