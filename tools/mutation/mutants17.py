M=[]
def m(file,defn,old,new,claim,props,nth=0,dir='Model'): M.append(dict(file=file,defn=defn,old=old,new=new,claim=claim,props=props,nth=nth,dir=dir))
# more calls of sled than are needed, or more entries
m('Sled','insertNode','    .call (fun d => { d with nodeProps','    .call id fun _ => .call (fun d => { d with nodeProps','insert_node is one call','C89')
m('Sled','removeEdge','(fun _ => .ret (.ok ()))','(fun _ => .call id (fun _ => .ret (.ok ())))','remove_edge makes at most five calls','C89')
m('Sled','removeEdge','    (fun _ =>\n      .call (fun d => { d with spo := d.spo.erase (encodeSpo t).1 })','    (fun _ =>\n      .call (fun d => { d with spo := d.spo.insert (encodeSpo t).1 [] })','a removal adds nothing','C90')
m('Sled','extendEdges','(fun _ => extendEdges c u l)','(fun _ => .call id (fun _ => extendEdges c u l))','extend makes at most five calls for an edge','C89')
m('Sled','extendNodes','(fun _ => extendNodes c k l)','(fun _ => .call (fun d => { d with nodeProps := d.nodeProps.insert [] b }) (fun _ => extendNodes c k l))','one entry for each node','C89 C90')
m('Sled','mergeEdge','edgeProps := d.edgeProps.erase o','edgeProps := d.edgeProps.insert (o ++ o) o','one record for each edge','C90')
m('SledRemove','scanPieces','.call id (fun d => k (acc ++','.call id (fun _ => .call id fun d => k (acc ++','each piece is read once','C89')
m('RdfSled','lookupOrCreateEntity','(onIndex (SledIndex.leftToRightProg cl cr s)).andThen','(onIndex (SledIndex.leftToRightProg cl cr s)).andThen fun _ => (onIndex (SledIndex.leftToRightProg cl cr s)).andThen','a name is looked up once','C89')
m('RdfSled','lookupEntity','| none => fun i => .ret (i, .error (.nameNotFound s))','| none => (onIndex (SledIndex.setProg cl cr s 0)).andThen fun _ => fun i => .ret (i, .error (.nameNotFound s))','a removal enters no names','C89 C90')
m('RdfSled','removeEdge','(tryMap (lookupEntity cl cr) t)','(tryMap (lookupOrCreateEntity cl cr) t)','a removal enters no names','C89 C90')
# bounds which are too low
E_='Ends'
m(E_,'PieceCall.cost','| .removeEdge _ => 5','| .removeEdge _ => 4','(remove_edge may need five calls)','C89',dir='Spec')
m(E_,'PieceCall.cost','5 * (oks src.edges).length','4 * (oks src.edges).length','(extend may need five calls for an edge)','C89',dir='Spec')
m(E_,'PieceCall.cost','(x.2.1.length + 1) + (x.2.2.length + 1) + 1','(x.2.1.length + 1) + (x.2.2.length + 1)','(remove_node reads pieces and makes a transaction)','C89',dir='Spec')
m(E_,'PieceCall.cost','| _ => 1','| _ => 0','(insertions need a call)','C89',dir='Spec')
m(E_,'work','cost y + 1','cost y','(a return is a step too)','C89',dir='Spec')
m(E_,'namesIn','namesIn l + 1','namesIn l','(names need look-ups)','C89 C90',dir='Spec')
m(E_,'Conflict','¬ o.Valid x.1','o.Valid x.1','(a valid closure may be given up without end)','C89',dir='Spec')
m(E_,'Spurious','∧ o.Valid x.1','∧ ¬ o.Valid x.1','(a valid closure may be given up without end)','C89',dir='Spec')
G='Grows'
m(G,'PieceCall.adds','| .insertNode _ _ | .mergeNode _ _ => if t = .nodeProps then 1 else 0','| .insertNode _ _ | .mergeNode _ _ => 0','(a node is an entry)','C90',dir='Spec')
m(G,'PieceCall.adds','| .insertEdge _ _ _ | .mergeEdge _ _ _ => if t = .nodeProps then 0 else 1','| .insertEdge _ _ _ | .mergeEdge _ _ _ => if t = .nodeProps ∨ t = .edgeProps then 0 else 1','(an edge has a record)','C90',dir='Spec')
m(G,'PieceCall.adds','if fails src.nodes then 0 else (oks src.edges).length','0','(extend writes edges)','C90',dir='Spec')
m(G,'PieceCall.adds','(oks src.nodes).length else','1 else','(extend writes all nodes)','C90',dir='Spec')
m(G,'total','(threads.map (fun th => (th.map adds).sum)).sum','((threads.head?.getD []).map adds).sum','(all threads write)','C90',dir='Spec')
# how sled runs transactions
m('SledTx','TxStep','(hv : o.Valid s) (hc','(hv : True) (hc','a transaction is committed only if nothing has changed','C86 C89')
m('SledTx','TxStep','(hv : o.Valid s) :','(hv : True) :','a transaction aborts only if nothing has changed','C86 C89')
m('SledTx','get','| some v => (v, o)','| some v => (some v.toList.flatten, o)','a transaction sees what it has written','C86')
m('SledTx','write','writes := upd (o.get s t k).2.writes t k v','writes := upd o.reads t k v','writes are kept','C86')
m('SledTx','TxStep','(some ⟨b, back, b, .new⟩, .call f k :: q)','(some ⟨b, back, .done, .new⟩, .call f k :: q)','the closure is run','C86')
