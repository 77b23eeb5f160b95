M=[]
def m(file,defn,old,new,claim,props,nth=0,dir='Model'):
    M.append(dict(file=file,defn=defn,old=old,new=new,claim=claim,props=props,nth=nth,dir=dir))
B='Bench';C='Bincode';S='Sled'
# benchmarks
m(B,'preloadNodes','sled.st.insertNode dbs.2 id p','sled.st.insertNode dbs.2 (id + 1) p','both stores are filled alike','C78')
m(B,'preloadEdges','let s ← expectDb (sled.st.insertEdge dbs.2 t (p t))\n    return (m, s)','return (m, dbs.2)','both stores are filled alike','C78')
m(B,'preloadEdges','sled.st.insertEdge dbs.2 t (p t)','sled.st.mergeEdge dbs.2 t (p t)','(merge_edge in place of insert_edge: keeps the first, here the same)','C78')
m(B,'queryNode','(shuffle ids).take 1000','(shuffle ids).take 100','1000 elements are asked for','C78')
m(B,'queryNode','expect (sled.run dbs.2 g q)','expect (mem.run dbs.1 g q) >>= fun _ => none','no panic','C78')
m(B,'queryEdge','(shuffle ids).take 1000','(shuffle ids).drop 1000','1000 elements are asked for','C78')
m(B,'queryEdge','Triple.pred ids','Triple.sub ids','the property is the predicate','C78')
m(B,'insertEdge','ids2.map fun t','ids1.map fun t','each store is measured with its own ids','C78')
m(B,'insertNode','insertNodes sled dbs.2 (ids2.map fun id => (id, p))','insertNodes sled dbs.2 []','the iterations insert','C78')
m(B,'zeros','(List.replicate 32 (0 : Fin 256)','(List.replicate 32 (1 : Fin 256)','[0u8; 32] is 32 zeros','C78')
m(C,'array','putAll f l.val','(len.put (Fin.ofNat _ n)).bind fun b => (putAll f l.val).map (b ++ ·)','arrays are written without length','C69, C78')
m(C,'array','getAll f n b','getAll f (n + 1) b','all elements are read','C69, C78')
m(C,'array','putAll f l.val','putAll f l.val.reverse','the order is kept','C69, C78')
# races: code
m(S,'extendEdges','.call (fun d => { d with edgeProps := d.edgeProps.insert i b }) (fun _ =>\n        .call (fun d => { d with spo := d.spo.insert (encodeSpo x.1).1 i }) (fun d1 =>','.call (fun d => { d with spo := d.spo.insert (encodeSpo x.1).1 i }) (fun d1 =>\n        .call (fun d => { d with edgeProps := d.edgeProps.insert i b }) (fun _ =>','an id in the first ordering has its record','C32, C76')
m(S,'extendEdges','match d1.spo.get (encodeSpo x.1).1 with','match d1.osp.get (encodeOsp x.1).1 with','the record of the edge replaced is removed, and no other','C75, C76')
m(S,'mergeEdge','let old := d.spo.get (encodeSpo t).1','let old := d.osp.get (encodeOsp t).1','edges are merged with what SPO shows','C73, C76')
m(S,'removeNode','.call id (fun d2 =>\n        match backwardBatch Id ⟨[], [], [], []⟩ (d2.osp.rangeArr','(fun d2 : Db => match backwardBatch Id ⟨[], [], [], []⟩ (d2.osp.rangeArr','(one scan after the other without a step between: better code)','C50, C76')
m(S,'removeNodeTx','spo := applyBatch (applyBatch d.spo fwd.spo) bwd.spo','spo := applyBatch d.spo fwd.spo','edges to the node leave SPO','C11, C76')
m(S,'removeNodeTx','edgeProps := applyBatch (applyBatch d.edgeProps fwd.edge) bwd.edge','edgeProps := applyBatch (applyBatch d.edgeProps bwd.edge) bwd.edge','records go with their edges','C33, C76')
m(S,'removeEdge','match d1.spo.get (encodeSpo t).1 with\n            | some i => .call','match d1.pos.get (encodePos t).1 with\n            | some i => .call','the record removed is that of the entry removed','C49, C76')
# races: specification; stronger ones should not be provable
L='SledLoose';Z='SledSessions'
m(L,'ToRaced','Raced threads t.obj t ∨ Extended threads t ∨ EdgeRaced threads t','Raced threads t.obj t ∨ EdgeRaced threads t','(stronger specification: false of the code)','C76',dir='Spec')
m(L,'ToRaced','Raced threads t.obj t ∨ Extended threads t ∨ EdgeRaced threads t','Extended threads t ∨ EdgeRaced threads t','(stronger specification: false of the code)','C76',dir='Spec')
m(L,'ToRaced','Raced threads t.obj t ∨ Extended threads t ∨ EdgeRaced threads t','Raced threads t.obj t ∨ Extended threads t','(stronger specification: false of the code)','C76',dir='Spec')
m(L,'FromRaced','Raced threads t.sub t','False','(stronger specification: false of the code)','C76',dir='Spec')
m(L,'LooseStep','(∀ m, G\'.nodes m = if m = n then none else G.nodes m) ∧','(∀ m, m ≠ n → G\'.nodes m = G.nodes m) ∧','(weaker specification: the node may stay)','C76',dir='Spec')
m(L,'LooseStep','(∀ t, t.sub = n → ¬ WS t → G\'.edges t = none) ∧','','(weaker specification: edges may stay)','C76',dir='Spec')
m(L,'LooseStep','((t.sub = n ∨ t.obj = n) ∧ G\'.edges t = none)','G\'.edges t = none','(weaker specification: other edges may go)','C76',dir='Spec')
m(Z,'Session.Breaks','EdgeRaced (calls s.threads) t ∨ if s.crash','if s.crash','(stronger specification: false of the code)','C77',dir='Spec')
m(Z,'Session.Breaks','then Extended (calls s.threads) t else ExtendRaced','then ExtendRaced (calls s.threads) t else ExtendRaced','(stronger specification: false of the code)','C77',dir='Spec')
m(Z,'LooseSessions','(fun t => B t ∨ ToRaced (calls s.threads) t)','(fun t => ToRaced (calls s.threads) t)','(stronger specification: false of the code, C77_left)','C77',dir='Spec')
m(Z,'LooseSessions','(fun t => B t ∨ s.Breaks t) G\' ss G\'\'','(fun t => s.Breaks t) G\' ss G\'\'','(stronger specification: false of the code)','C77',dir='Spec')
m(Z,'Session.Leads','| true => MomentP','| true => FinalP','(a process never crashes)','C77',dir='Spec')
