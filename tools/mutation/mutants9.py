M=[]
def m(file,defn,old,new,claim,props,nth=0):
    M.append(dict(file=file,defn=defn,old=old,new=new,claim=claim,props=props,nth=nth))
D='Docs';R='SledRemove';S='Sled'
# remove_node in pieces
m(R,'rest','k < e.1','k ≤ e.1','a lazy scan goes on after the last key it has read','C74')
m(R,'cursor','| none => cur','| none => none','an empty piece does not restart the scan','C74')
m(R,'cursor','l.getLast?','l.head?','the scan goes on after the last key read','C74')
m(R,'scanPieces','k (acc ++ rest cur ((tree d).rangeArr b))','k (rest cur ((tree d).rangeArr b))','all pieces are used','C74')
m(R,'scanPieces','scanPieces tree b k ss (cursor cur l) (acc ++ l)','scanPieces tree b k ss (cursor cur l) l','all pieces are used','C74')
m(R,'scanPieces','let l := (rest cur ((tree d).rangeArr b)).take s','let l := ((tree d).rangeArr b).take s','a piece begins where the last one ended','C74')
m(R,'scanPieces','| [], cur, acc => .call id (fun d => k (acc ++ rest cur ((tree d).rangeArr b)))','| [], _, acc => .call id (fun _ => k acc)','the scan reads to the end','C74')
m(R,'removeNodePieces','(fun d => d.osp) (keyBounds1 n)','(fun d => d.spo) (keyBounds1 n)','edges to the node are removed','C74')
m(R,'removeNodePieces','removeNodeScanned n fwd bwd','removeNodeScanned n fwd []','edges to the node are removed','C74')
# calls that race, in the store
m(S,'removeEdge','.call (fun d => { d with pos := d.pos.erase (encodePos t).1 }) (fun _ =>','.call (fun d => { d with pos := d.pos }) (fun _ =>','(without the second removal: better code)','C31, C72')
m(S,'removeEdge','| some i => .call (fun d => { d with edgeProps := d.edgeProps.erase i }) (fun _ => .ret (.ok ()))','| some i => .call (fun d => { d with edgeProps := .empty }) (fun _ => .ret (.ok ()))','records of other edges are kept','C49, C72')
m(S,'removeEdge','| some i => d.edgeProps.erase i','| some _ => d.edgeProps','the record goes with the edge','C33')
m(S,'removeEdge','osp := d.osp.erase (encodeOsp t).1\n        edgeProps','osp := d.osp\n        edgeProps','the removal is atomic','C28, C50')
m(S,'insertEdge','transaction (fun d => .ok\n      { d with\n        edgeProps := d.edgeProps.insert (toBeBytes i).1 b','transaction (fun d => .ok\n      { d with\n        edgeProps := (match d.spo.get (encodeSpo t).1 with | some o => d.edgeProps.erase o | none => d.edgeProps).insert (toBeBytes i).1 b','(the old record is removed: better code)','C33')
m(S,'insertEdge','spo := d.spo.insert (encodeSpo t).1 (toBeBytes i).1','spo := if (d.spo.get (encodeSpo t).1).isSome then d.spo else d.spo.insert (encodeSpo t).1 (toBeBytes i).1','orderings agree','C07, C73')
m(S,'mergeEdge','let d := { d with edgeProps := d.edgeProps.erase o }','let d := d','the old record is removed','C33')
m(S,'mergeEdge','match c.e.ser (mE oldProps p) with','match c.e.ser (mE p oldProps) with','the old value is the receiver of merge','C17')
m(S,'mergeEdge','pos := d.pos.insert (encodePos t).1 (toBeBytes i).1\n      osp','pos := if old.isSome then d.pos else d.pos.insert (encodePos t).1 (toBeBytes i).1\n      osp','merging renews the id in all orderings','C49, C73')
m(S,'extendEdges','''.call (fun d => { d with edgeProps := d.edgeProps.insert i b }) (fun _ =>
        .call (fun d => { d with spo := d.spo.insert (encodeSpo x.1).1 i }) (fun d1 =>''','''.call (fun d => { d with spo := d.spo.insert (encodeSpo x.1).1 i }) (fun d1 =>
        .call (fun d => { d with edgeProps := d.edgeProps.insert i b }) (fun _ =>''','the record is written before the id','C29')
m(S,'extendEdges','''.call (fun d => { d with spo := d.spo.insert (encodeSpo x.1).1 i }) (fun d1 =>
          .call (fun d => { d with pos := d.pos.insert (encodePos x.1).1 i }) (fun _ =>''','''.call (fun d => { d with pos := d.pos.insert (encodePos x.1).1 i }) (fun d1 =>
          .call (fun d => { d with spo := d.spo.insert (encodeSpo x.1).1 i }) (fun _ =>''','(the old id may be read too late)','C29, C75')
m(S,'extendEdges','''match d1.spo.get (encodeSpo x.1).1 with
              | some o =>
                .call (fun d => { d with edgeProps := d.edgeProps.erase o })
                  (fun _ => extendEdges c u l)
              | none => extendEdges c u l''','extendEdges c u l','the old record is removed','C33')
m(S,'extendEdges','let u := (Gen.fresh u).2\n','let u := u\n','each edge has an id of its own','C15')
m(S,'extendEdges','| none => .ret (u, .error (.left .serialization))','| none => extendEdges c u l','extend stops at the first error','C16')
m(S,'extendNodes','| none => k (.error (.left .serialization))','| none => extendNodes c k l','extend stops at the first error','C16')
m(S,'removeNodeTx','applyBatch (applyBatch d.edgeProps fwd.edge) bwd.edge','applyBatch d.edgeProps fwd.edge','records go with the edges','C33')
m(S,'removeNodeTx','pos := applyBatch (applyBatch d.pos fwd.pos) bwd.pos','pos := applyBatch d.pos bwd.pos','edges are removed from all orderings','C11, C73')
m(S,'removeNodeTx','nodeProps := d.nodeProps.erase (toBeBytes n).1','nodeProps := d.nodeProps','the node is removed','C11')
m(S,'forwardBatch','edge := b.edge ++ [v]','edge := b.edge ++ [k]','records go with the edges','C33')
m(S,'backwardBatch','spo := b.spo ++ [(encodeSpo t).1]','spo := b.spo ++ [(encodeSpo ⟨t.obj, t.pred, t.sub⟩).1]','edges to the node are removed from SPO','C11')
m('Rdf','SledStore.runImpl','Sled.runQuery c s.db g q','Sled.runQuery c s.db s.gen q','the generator of the result','C64',0)
# documentation
m(D,'build','⟨v.node1, v.edge, v.node3⟩','⟨v.node3, v.edge, v.node1⟩','the example in the documentation','C70')
m(D,'exampleIter','(v.node3, v.baz)]','(v.node3, v.bar)]','the example in the documentation','C70')
m(D,'exampleQuery','(.edge .any .any (.ids [v.node3]))','(.edge (.ids [v.node3]) .any .any)','the example in the documentation','C70')
m(D,'sameQuery','| .S a, .S b => decide (a ⊆ b ∧ b ⊆ a)','| .S a, .S b => decide (a ⊆ b)','(weaker comparison of queries)','C70')
m(D,'macroExamples','.PO (HSet.collect [(a, c), (a, d), (b, c), (b, d)])','.PO (HSet.collect [(a, c), (b, d)])','all combinations','C43, C70')
m(D,'macroExamples','.SO (HSet.collect [(a, c), (a, d), (b, c), (b, d)])','.SO (HSet.collect [(c, a), (d, a), (c, b), (d, b)])','the order in the pairs','C43, C70')
