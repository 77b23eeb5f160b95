M=[]
def m(file,defn,old,new,claim,props,nth=0,dir='Model'): M.append(dict(file=file,defn=defn,old=old,new=new,claim=claim,props=props,nth=nth,dir=dir))
S='Spec'; C='Converge'; L='Loss'
# what is claimed: stores that merge
m(C,'Joins','idem : ∀ a, f a a = a','idem : True','(a fact may be heard twice)','C93',dir=S)
m(C,'Joins','comm : ∀ a b, f a b = f b a','comm : True','(facts may be heard in any order)','C93',dir=S)
m(C,'Joins','assoc : ∀ a b c, f (f a b) c = f a (f b c)','assoc : True','(facts may be heard in any grouping)','C93',dir=S)
m(C,'Joins','f a b = f b a','f a b = a','(facts may be heard in any order)','C93',dir=S)
m(C,'Lub','| none => ∀ a, ¬ S a','| none => True','nothing is shown only if nothing was heard','C93',dir=S)
m(C,'Lub','∧ ∀ w, (∀ a, S a → f a w = w) → f v w = w','','the least value, not any','C93',dir=S)
m(C,'Lub','(∃ a, S a) ∧','','something is shown only if something was heard','C93',dir=S)
m(C,'Lub','(∀ a, S a → f a v = v)','(∀ a, S a → a = v)','(the value is not the only one that was heard)','C93',dir=S)
m(C,'Sums','∧ ∀ t, Lub mE (fun p => F (.edge t p)) (G.edges t)','∧ ∀ t, Lub mE (fun p => F (.edge t p)) (G.edges { t with sub := t.obj, obj := t.sub })','facts are about directed edges','C93',dir=S)
m(C,'Source.facts','Source.edgePrefix src','Source.edgePrefix { src with nodes := [] }','a failing node hides the edges','C93',dir=S)
m(C,'Source.facts','(n, p) ∈ Source.nodePrefix src','.ok (n, p) ∈ src.nodes','nothing is told after an error','C93',dir=S)
m(C,'Op.told','| .mergeEdge t p => some (fun x => x = .edge t p)','| .mergeEdge t p => some (fun x => x = .edge t p)\n  | .insertEdge t p => some (fun x => x = .edge t p)','insert_edge does not merge','C93',dir=S)
m(C,'Op.told','| .merge src => some (Source.facts src)','| .merge src => some (Source.facts src)\n  | .extend src => some (Source.facts src)','extend does not merge','C93',dir=S)
m(C,'heard','| .on b => H.dbs b','| .on _ => fun _ => False','what a database has heard is passed on','C93',dir=S)
m(C,'hear','(fun x => F₀ x ∨ F x)','(fun x => F x)','what was heard before is kept','C93',dir=S)
m(C,'hear','(fun x => H.dbs b x ∨ F x)','(fun x => F x)','what was heard before is kept','C93',dir=S)
m(C,'step','| some p => (H.setVar w none).hear v (H.heard q) p','| some p => H.hear v (H.heard q) p','the store that is fed is consumed','C93',dir=S)
m(C,'step','| .newMem v => H.setVar v (some (.own (fun _ => False)))','| .newMem v => H','a new store has heard nothing','C93',dir=S)
m(C,'step','| none => H.setVar w none','| none => H','(the operand is moved though there is no store)','C93',dir=S)
m(C,'Cmd.talk','| .merge v w => some (.feed v w)','| .merge v w => some (.feed v w)\n  | .extend v w => some (.feed v w)','extend does not merge','C93',dir=S)
m(C,'Cmd.talk','| .merge v w => some (.feed v w)','| .merge v w => some (.feed w v)','who tells whom','C93',dir=S)
m(C,'RdfCmd.talk','| .merge v w => some (.feed v w)','| .merge v w => some (.feed v w)\n  | .extend v w => some (.feed v w)','extend does not merge','C93',dir=S)
m(C,'Call.told','| .merge _ src => some (Source.facts src)','| .merge _ src => some (Source.facts src)\n  | .extend _ src => some (Source.facts src)','extend does not merge','C93',dir=S)
m(C,'Call.told','| .mergeNode n p => some (fun x => x = .node n p)','| .mergeNode n p => some (fun x => x = .node n p)\n  | .insertNode n p => some (fun x => x = .node n p)','insert_node does not merge','C93',dir=S)
m(C,'Session.Tells','∃ th ∈ s.threads, ∃ y ∈ th','∀ th ∈ s.threads, ∃ y ∈ th','each thread tells something','C93',dir=S)
# power losses
m(L,'Trail','ds\' <+: ds','ds\'.Sublist ds','what comes last is lost','C94',dir=S)
m(L,'Trail','ds\' <+: ds','ds\' <:+ ds','what comes last is lost','C94',dir=S)
m(L,'Trail','ds.getLast? = some d','d ∈ ds','processes go on from the last state','C94',dir=S)
m(L,'Trail','(crash = false → ∀ th ∈ (x N).2, th = []) →','','a process that does not crash comes to its end','C94',dir=S)
m(L,'CutOff','ss.take k ++ [(true, th)]','ss.take k ++ [(false, th)]','a process cut off counts as crashed','C94',dir=S)
m(L,'CutOff','∨ ∃ th, (∃ crash, ss[k]? = some (crash, th)) ∧ ss\' = ss.take k ++ [(true, th)]','','a process may be cut off in the middle','C94',dir=S)
m(L,'CutOff','ss\' = ss.take k ∨','ss\' = ss ∨','processes may be lost altogether','C94',dir=S)
m(L,'Survive','Survive es ss → CutOff ss ss\' →','Survive es ss → CutOff ss\' ss →','what is left is less','C94',dir=S)
m(L,'Survive','(ss ++ [(crash, threads)])','((crash, threads) :: ss)','one process after the other','C94',dir=S)
m(L,'processes','some (crash, threads)','if crash then none else some (crash, threads)','processes that crash count','C94',dir=S)
# programs
m('Sled','mergeNode','mN old p','mN p p','merging has to do with the old value','C93')
m('Sled','mergeNode','d.nodeProps.insert (toBeBytes n).1 b','d.nodeProps','a new node is stored','C93')
m('Sled','mergeNode','mN','(fun _ b => b)','merging has to do with the old value','C93')
m('Mem','mergeNode','mN','(fun _ b => b)','merging has to do with the old value','C93')
m('Mem','mergeEdge','mE','(fun a _ => a)','merging has to do with the new value','C93')
m('Conformance','TestMergeable.merge','| some b => { self with b := some b }','| some b => { self with b := self.b.or (some b) }','the later value wins','C64 C93')
