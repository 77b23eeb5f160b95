M=[]
def m(file,defn,old,new,claim,props,nth=0):
    M.append(dict(file=file,defn=defn,old=old,new=new,claim=claim,props=props,nth=nth))
L='SledScan';S='Sled'
# reading while others write
m(L,'decoder','| .POS => decodePos','| .POS => decodeOsp','iteration decodes the keys of an ordering with its decoder','C55')
m(L,'boundBytes','| .included k => .included k.1','| .included k => .excluded k.1','the range includes the smallest key','C56')
m(L,'boundBytes','(conv b.1, conv b.2)','(conv b.1, .unbounded)','the range ends with the asked subject','C56')
m(L,'edgeItem','| .ok none => .error .missing','| .ok none => .error .sled','the only error is MissingPropertyData','C55')
m(L,'edgeItem','getData c.e d.edgeProps v','getData c.e d.edgeProps e.1','the record of the entry is looked up by the id in the entry','C55')
m(L,'vertexItem','deser c.n e.2','deser c.n e.1','a node is returned with its properties','C55')
m(L,'propsItem','getData c.n dt.nodeProps (toBeBytes t.obj).1','getData c.n ds.nodeProps (toBeBytes t.sub).1','the object is returned with its own properties','C55')
m(L,'propsItem','getData c.n dt.nodeProps','getData c.n ds.nodeProps','the object is looked up after the edge (its properties are those of that moment)','C55')
m(L,'propsItem','getData c.e de.edgeProps v','getData c.e dt.edgeProps v','the record is looked up before the object','C55')
m(L,'propsItem','| _, _, _ => .error .missing','| _, _, _ => .error .keySize','the only error is MissingPropertyData','C55')
m(L,'ranges','| .SO items => items.map (fun x => (.OSP, boundBytes (keyBounds2 x.2 x.1)))','| .SO items => items.map (fun x => (.OSP, boundBytes (keyBounds2 x.1 x.2)))','SO asks for object and subject in the right places','C56')
m(L,'ranges','| .PO items => items.map (fun x => (.POS, boundBytes (keyBounds2 x.1 x.2)))','| .PO items => items.map (fun x => (.POS, boundBytes (keyBounds1 x.1)))','PO results have the object asked for','C56')
m(L,'ranges','| .O items => items.map (fun x => (.OSP','| .O items => items.map (fun x => (.SPO','O looks in the ordering by object','C56')
m(L,'ranges','| .S items => items.map','| .S items => items.tail.map','every item of the query is answered','C56')
m(L,'addSeen','| none => .ok r','| none => .error .missing','a query does not fail when a record has gone','C56')
m(L,'addSeen','| none => .error .serialization','| none => .ok r','undecodable records are reported','C56')
m(L,'addSeen','.ok (r.insertEdge (dec k) p)','.ok r','edges read are in the result','C56')
m(L,'runLazy','x.2.2.edgeProps.get i','x.2.1.edgeProps.get i','(entry and record at one moment: would repair SPO queries)','C56')
m(L,'runLazy','.ok (r.insertNode x.1 p)','.ok ((Mem.new g).insertNode x.1 p)','all nodes asked for are in the result','C56')
m(L,'runLazy','| .PO _ => tryFold (fun r l => addSeen c decodePos r l)','| .PO _ => tryFold (fun r l => addSeen c decodeSpo r l)','the keys are decoded with the decoder of the ordering','C56')
m(L,'runLazy','| .O _ => tryFold (fun r l => addSeen c decodeOsp r l) (Mem.new g) ρ.ranges','| .O _ => tryFold (fun r l => addSeen c decodeOsp r l) (Mem.new g) (ρ.ranges.take 1)','all ranges are in the result','C56')
# atomicity and order of the calls
m(S,'insertEdge','transaction (fun d => .ok\n      { d with\n        edgeProps := d.edgeProps.insert (toBeBytes i).1 b\n        spo := d.spo.insert (encodeSpo t).1 (toBeBytes i).1\n        pos := d.pos.insert (encodePos t).1 (toBeBytes i).1\n        osp := d.osp.insert (encodeOsp t).1 (toBeBytes i).1 })','.call (fun d => { d with spo := d.spo.insert (encodeSpo t).1 (toBeBytes i).1 }) (fun _ => transaction (fun d => .ok\n      { d with\n        edgeProps := d.edgeProps.insert (toBeBytes i).1 b\n        pos := d.pos.insert (encodePos t).1 (toBeBytes i).1\n        osp := d.osp.insert (encodeOsp t).1 (toBeBytes i).1 }))','insert_edge is atomic: a crash inside leaves the old or the new store','C28 C30')
m(S,'insertEdge','transaction (fun d => .ok\n      { d with\n        edgeProps := d.edgeProps.insert (toBeBytes i).1 b\n        spo := d.spo.insert (encodeSpo t).1 (toBeBytes i).1\n        pos := d.pos.insert (encodePos t).1 (toBeBytes i).1\n        osp := d.osp.insert (encodeOsp t).1 (toBeBytes i).1 })','.call (fun d => { d with edgeProps := d.edgeProps.insert (toBeBytes i).1 b }) (fun _ => transaction (fun d => .ok\n      { d with\n        spo := d.spo.insert (encodeSpo t).1 (toBeBytes i).1\n        pos := d.pos.insert (encodePos t).1 (toBeBytes i).1\n        osp := d.osp.insert (encodeOsp t).1 (toBeBytes i).1 }))','a crash inside insert_edge leaves no record behind','C28 C33')
m(S,'mergeNode','.ok { d with nodeProps := d.nodeProps.insert (toBeBytes n).1 b })','.ok { d with nodeProps := (d.nodeProps.erase (toBeBytes n).1).insert (toBeBytes n).1 b })','(equivalent)','equivalent')
m(S,'removeEdge','.call (fun d => { d with spo := d.spo.erase (encodeSpo t).1 }) (fun d1 =>\n        .call (fun d => { d with pos := d.pos.erase (encodePos t).1 }) (fun _ =>\n          .call (fun d => { d with osp := d.osp.erase (encodeOsp t).1 }) (fun _ =>\n            match d1.spo.get (encodeSpo t).1 with\n            | some i => .call (fun d => { d with edgeProps := d.edgeProps.erase i }) (fun _ => .ret (.ok ()))\n            | none => .ret (.ok ()))))','.ret (.ok ())','(the repair: only the transaction) the race of remove_edge and insert_edge exists','C31')
m(S,'removeEdge','| none => d.edgeProps })','| none => .empty })','removing an absent edge changes nothing','C12 C26')
m(S,'removeNodeTx','edgeProps := applyBatch (applyBatch d.edgeProps fwd.edge) bwd.edge','edgeProps := applyBatch d.edgeProps bwd.edge','remove_node leaves no records of outgoing edges','C33')
m(S,'removeNodeScanned','match backwardBatch Id ⟨[], [], [], []⟩ bwd with','match backwardBatch Id ⟨[], [], [], []⟩ [] with','what the second scan saw is removed','C49 C50')
m(S,'removeNodeScanned','match forwardBatch Id ⟨[], [], [], []⟩ fwd with','match forwardBatch Id ⟨[], [], [], []⟩ bwd with','what the first scan saw is removed','C49 C50')
m(S,'extendEdges','.call (fun d => { d with edgeProps := d.edgeProps.erase o })\n                  (fun _ => extendEdges c u l)','(extendEdges c u l).bind (fun r => .call (fun d => { d with edgeProps := d.edgeProps.erase o }) (fun _ => .ret r))','extend frees replaced records as it goes; after a crash at most one is left over','C29 C47')
m(S,'extendEdges','.call (fun d => { d with pos := d.pos.insert (encodePos x.1).1 i }) (fun _ =>\n            .call (fun d => { d with osp := d.osp.insert (encodeOsp x.1).1 i }) (fun _ =>\n              match','.call (fun d => { d with osp := d.osp.insert (encodeOsp x.1).1 i }) (fun _ =>\n            .call (fun d => { d with pos := d.pos.insert (encodePos x.1).1 i }) (fun _ =>\n              match','(order of two insertions) which ordering lags after a crash','C29')
m(S,'extendEdges','match d1.spo.get (encodeSpo x.1).1 with','match d1.pos.get (encodePos x.1).1 with','(the replaced id from another ordering: the same for one thread)','C51')
m(S,'mergeEdge','let old := d.spo.get (encodeSpo t).1','let old := d.pos.get (encodePos t).1','(old id from another ordering: the same while the orderings agree)','C47')
m(S,'mergeEdge','| some o =>\n      let oldValue := d.edgeProps.get o','| some o =>\n      let oldValue := d.edgeProps.get (toBeBytes i).1','merge_edge combines with the stored properties','C26')
m(S,'extendNodes','nodeProps := d.nodeProps.insert (toBeBytes x.1).1 b','nodeProps := if (d.nodeProps.get (toBeBytes x.1).1).isSome then d.nodeProps else d.nodeProps.insert (toBeBytes x.1).1 b','extend overwrites nodes','C15 C26')
m(S,'merge','| .error e => .ret (g, .error e)','| .error _ => mergeEdges c mE g other.edges','merge stops at the first error','C48')
m(S,'removeNode','match backwardBatch Id ⟨[], [], [], []⟩ (d2.osp.rangeArr (keyBounds1 n)) with','match backwardBatch Id ⟨[], [], [], []⟩ (d2.osp.rangeArr (keyBounds1 n)).tail with','all incoming edges are removed','C26')
