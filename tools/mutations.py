mutations=[]
def M(id,what,claims,file,old,new,defn,count=1):
    assert all(m['id']!=id for m in mutations),id
    mutations.append(dict(id=id,what=what,claims=claims.split(),edits=[(file,old,new)],defn=defn,count=count))
C='Model/Containers.lean';G='Model/Graph.lean';W='Model/Write.lean';A='Model/Analyse.lean';T='Model/Ast.lean';E='Model/Escape.lean'
L='Model/Lexer.lean';LT='Model/LexTables.lean';P='Model/Parser.lean';PT='Model/ParseTables.lean';CC='Model/Concurrent.lean'
# containers
M('a01','accept unregistered attributes','C12 C44 C49',C,'if validAttrs.contains key then .ok key else .error (.invalidAttr key)','.ok key','newAttr')
M('a02','keep the old value of an attribute that is already set','C05 C08',C,'| .ok a => .ok (mset as a value)','| .ok a => .ok (if mhas as a then as else mset as a value)','attrsAdd')
M('a03','Ammend overwrites','C24 C46',C,'if mhas m e.1 then m else mset m e.1 e.2','mset m e.1 e.2','attrsAmmend')
M('a04','attribute names in descending order','C15',C,'def sortedNames (as : Attrs) : List Str := ssort (mkeys as)','def sortedNames (as : Attrs) : List Str := (ssort (mkeys as)).reverse','sortedNames')
M('a05','removal drops the rest of the node list','C01 C06',C,'then some ps\n','then some []\n','Nodes.removeLoop')
M('a06','removal keeps the node in Lookup','C01 C06',C,'lookup := mdel ns.lookup name, list := l','list := l','Nodes.remove')
M('a07','removal keeps the node in the slice','C01 C06',C,'lookup := mdel ns.lookup name, list := l','lookup := mdel ns.lookup name','Nodes.remove')
M('a08','adding an existing node replaces its attributes','C05',C,'fun as => attrsExtend as node.attrs','fun _ => node.attrs','Nodes.add')
M('a09','adding an existing node only adds missing attributes','C05',C,'fun as => attrsExtend as node.attrs','fun as => attrsAmmend as node.attrs','Nodes.add')
M('a10','a new node is not appended to the slice','C01',C,'list := ns.list ++ [ns.heap.length]','list := ns.list','Nodes.add')
M('a11','DstToSrcs indexed by source first','C02',C,'edgeIndexAdd es.dstToSrcs e.dst e.src e','edgeIndexAdd es.dstToSrcs e.src e.dst e','Edges.add')
M('a12','edges are prepended','C02 C11',C,'edges := es.edges ++ [e] }','edges := e :: es.edges }','Edges.add')
M('a13','a second edge between the same ends replaces the first in the index','C02',C,'((mget inner k2).getD [] ++ [e])','[e]','edgeIndexAdd')
M('a14','Less forgets the second comparison of attribute values','C13',C,'    else if slt (mgetS b k) (mgetS a k) then false\n','','attrsLess')
M('a15','Less forgets that a larger destination decides','C13',C,'else if slt a.dst b.dst then true else if slt b.dst a.dst then false','else if slt a.dst b.dst then true','edgeLess')
M('a16','Less puts undirected edges first','C13',C,'else if a.dir ≠ b.dir then a.dir','else if a.dir ≠ b.dir then b.dir','edgeLess')
M('a17','Less compares only the attribute names of the first edge','C13',C,'(sortedNames (msetAll (attrsCopy a.attrs) b.attrs))','(sortedNames a.attrs)','edgeLess')
M('a18','Relations.Add forgets earlier children','C03 C09',C,'mset m k1 (mset ((mget m k1).getD []) k2 true)','mset m k1 (mset [] k2 true)','relIndexAdd')
M('a19','Relations.Add does not fill ChildToParents','C03',C,'⟨relIndexAdd r.parentToChildren parent child, relIndexAdd r.childToParents child parent⟩','⟨relIndexAdd r.parentToChildren parent child, r.childToParents⟩','Relations.add')
M('a20','Relations.Remove swaps the arguments for ChildToParents','C03',C,'relIndexDel r.childToParents child parent⟩','relIndexDel r.childToParents parent child⟩','Relations.remove')
M('a21','adding an existing subgraph resets it','C09',C,'if mhas sgs name then sgs else mset sgs name ⟨[], name⟩','mset sgs name ⟨[], name⟩','subGraphsAdd')
M('a22','a new subgraph does not get its name','C09 C20',C,'mset sgs name ⟨[], name⟩','mset sgs name ⟨[], []⟩','subGraphsAdd')
M('a23','Nodes.Sorted in descending order','C14',C,'(ssort (mkeys ns.lookup)).map ns.find','(ssort (mkeys ns.lookup)).reverse.map ns.find','Nodes.sorted')
M('a24','SubGraphs.Sorted in descending order','C14',C,'(ssort (mkeys sgs)).map (mget sgs)','(ssort (mkeys sgs)).reverse.map (mget sgs)','subGraphsSorted')
M('a25','SortedChildren in descending order','C14',C,'ssort (mkeys (r.children parent))','(ssort (mkeys (r.children parent))).reverse','Relations.sortedChildren')
# graph
M('b01','AddPortEdge swaps the ports','C11 C18',G,'g.edges.add ⟨src, srcPort, dst, dstPort, directed, as⟩','g.edges.add ⟨src, dstPort, dst, srcPort, directed, as⟩','Graph.addPortEdge')
M('b02','AddNode records the relation before it checks the attributes','C04',G,'''  match newAttrs attrs with
  | .error e => (g, some e)
  | .ok as => ({ g with nodes''','''  match newAttrs attrs with
  | .error e => ({ g with relations := g.relations.add parent name }, some e)
  | .ok as => ({ g with nodes''','Graph.addNode')
M('b03','AddNode swaps parent and child','C11 C03',G,'nodes := g.nodes.add ⟨name, as⟩, relations := g.relations.add parent name','nodes := g.nodes.add ⟨name, as⟩, relations := g.relations.add name parent','Graph.addNode')
M('b04','RemoveNode keeps outgoing edges','C06',G,'!(decide (e.dst = name) || decide (e.src = name))) g.edges.edges','!(decide (e.dst = name))) g.edges.edges','Graph.removeNode')
M('b05','RemoveNode keeps the relation','C06',G,'''        nodes := ns
        relations := g.relations.remove parent name
''','''        nodes := ns
''','Graph.removeNode')
M('b06','AddAttr looks among the subgraphs first','C08',G,'if g.name = parent then','if g.name = parent ∧ mhas g.subGraphs parent = false then','Graph.addAttr')
M('b07','AddAttr ignores unknown subgraphs','C08',G,'| none => (g, some (.noSuchGraph parent))','| none => (g, none)','Graph.addAttr')
M('b08','AddSubGraph continues after an invalid attribute and reports nothing','C09',G,'''  | (k, v) :: rest => match g.addAttr name k v with
    | (g', some e) => (g', some e)
    | (g', none) => g'.addAttrs name rest''','''  | (k, v) :: rest => (g.addAttr name k v).1.addAttrs name rest''','Graph.addAttrs')
M('b09','AddSubGraph records no relation','C09',G,'{ g with relations := g.relations.add parent name, subGraphs := subGraphsAdd g.subGraphs name }','{ g with subGraphs := subGraphsAdd g.subGraphs name }','Graph.addSubGraph')
M('b10','RemoveSubGraph keeps outgoing edges','C07',G,'''decide (e.dstPort = name) ||
                    decide (e.src = name) ||''','''decide (e.dstPort = name) ||''','Graph.removeSubGraph')
M('b11','RemoveSubGraph keeps the subgraph','C07',G,"        subGraphs := mdel g'.subGraphs name\n",'','Graph.removeSubGraph')
M('b12','RemoveSubGraph removes only the first child','C07',G,"    | (g', none) => g'.removeNodes parent cs","    | (g', none) => (g', none)",'Graph.removeNodes')
M('b13','IsNode looks at the subgraphs','C11 C32',G,'mhas g.nodes.lookup name','mhas g.subGraphs name','Graph.isNode')
M('b14','every subgraph is a cluster','C22 C19',G,'g.isSubGraph name && hasPrefix name (b!"cluster")','g.isSubGraph name','Graph.isClusterSubGraph')
M('b15','SetStrict sets the direction','C11',G,'({ g with strict := strict }, none)','({ g with directed := strict }, none)','Graph.setStrict')
M('b16','AddEdge swaps the ends','C11',G,'g.addPortEdge src [] dst [] directed attrs','g.addPortEdge dst [] src [] directed attrs','Graph.addEdge')
M('b17','RemoveNode on an unknown node is silent and removes the relation','C06',G,'''  match g.nodes.remove name with
  | (_, some e) => (g, some e)''','''  match g.nodes.remove name with
  | (_, some _) => ({ g with relations := g.relations.remove parent name }, none)''','Graph.removeNode')
M('b18','edge rebuild reverses the edges','C06 C11',G,'if keep e then acc.add e else acc) newEdges','if keep e then acc.add e else acc) newEdges |> fun r => { r with edges := r.edges.reverse }','edgesRebuild')
# write
M('c01','graph attributes are not written','C37',W,'(sortedNames as).map fun k => .attr ⟨k, mgetS as k⟩','[]','attrStmts')
M('c02','written nodes are not recorded','C17',W,'(Ast.putMap (attrsCopy node.attrs)), mset wr node.name ())','(Ast.putMap (attrsCopy node.attrs)), wr)','newNodeStmt')
M('c03','node attributes are not written','C17 C37',W,'.ok (.node (Ast.makeNodeID node.name []) (Ast.putMap (attrsCopy node.attrs))','.ok (.node (Ast.makeNodeID node.name []) []','newNodeStmt')
M('c04','children that are subgraphs first','C17 C20',W,'''(if g.isNode child then newNodeStmt g wr child
     else if g.isSubGraph child then
       (rec_ wr child).bind fun r => .ok (.sub r.1.1 r.1.2, r.2)
     else .err (.notNodeOrSubGraph child))''','''(if g.isSubGraph child then
       (rec_ wr child).bind fun r => .ok (.sub r.1.1 r.1.2, r.2)
     else if g.isNode child then newNodeStmt g wr child
     else .err (.notNodeOrSubGraph child))''','childLoop')
M('c05','what the children wrote is forgotten','C17',W,'fun rs => .ok (r.1 :: rs.1, rs.2)\n\n/-- write.go:43-64','fun rs => .ok (r.1 :: rs.1, wr)\n\n/-- write.go:43-64','childLoop')
M('c06','a written subgraph is not recorded','C20',W,'(mset wr sub.name ()) (g.relations','wr (g.relations','newSubGraph')
M('c07','a cluster may have a port','C19 C22',W,'if port.length ≠ 0 then .err (.subGraphPort port) else .ok (.node (Ast.makeNodeID name port), wr)','.ok (.node (Ast.makeNodeID name port), wr)','newLocation')
M('c08','a subgraph may have a port (dropped)','C19',W,'''    if port.length ≠ 0 then .err (.subGraphPort port)
    else (newSubGraph''','''    (newSubGraph''','newLocation')
M('c09','source and destination ports swapped','C18',W,'''(newLocation g fuel wr e.src e.srcPort).bind fun s =>
  (newLocation g fuel s.2 e.dst e.dstPort)''','''(newLocation g fuel wr e.src e.dstPort).bind fun s =>
  (newLocation g fuel s.2 e.dst e.srcPort)''','newEdgeStmt')
M('c10','edges get the direction of the graph','C18',W,'[.mk e.dir d.1]','[.mk g.directed d.1]','newEdgeStmt')
M('c11','edge attributes are not written','C18 C37',W,'[.mk e.dir d.1] (Ast.putMap (attrsCopy e.attrs))','[.mk e.dir d.1] []','newEdgeStmt')
M('c12','what an edge wrote is forgotten','C17 C20',W,'(edgeStmts g fuel r.2 es).bind','(edgeStmts g fuel wr es).bind','edgeStmts')
M('c13','all subgraphs are written at the root','C20',W,'if !mhas wr s.name && mhas (g.relations.children g.name) s.name then','if !mhas wr s.name then','rootSubs')
M('c14','subgraphs in edges are written again','C20',W,'if !mhas wr s.name && mhas (g.relations.children g.name) s.name then','if mhas (g.relations.children g.name) s.name then','rootSubs')
M('c15','nodes already written are written again','C17',W,'if !mhas wr n.name then','if true then','rootNodes')
M('c16','strict is not written','C37 C27',W,'strict := g.strict,','strict := false,','writeAst')
M('c17','the name is not written','C37',W,'id := g.name,','id := [],','writeAst')
M('c18','nodes before subgraphs','C15 C17',W,'attrStmts g.attrs ++ es.1 ++ ss.1 ++ ns.1','attrStmts g.attrs ++ es.1 ++ ns.1 ++ ss.1','writeAst')
M('c19','edges are written unsorted','C15',W,'(edgeStmts g fuel [] (sortE g.edges.edges))','(edgeStmts g fuel [] g.edges.edges)','writeAst')
M('c20','subgraph attributes after the children','C15 C20',W,'attrStmts sub.attrs ++ r.1','r.1 ++ attrStmts sub.attrs','newSubGraph')
M('c21','unknown children are skipped','C19',W,'     else .err (.notNodeOrSubGraph child)).bind fun r =>','     else .ok (.attr ⟨[], []⟩, wr)).bind fun r =>','childLoop')
M('c22','unknown edge ends are written as nodes','C19',W,'  else .err (.notNodeOrSubGraph name)','  else .ok (.node (Ast.makeNodeID name port), wr)','newLocation')
# ast
M('d01','the second part of a port is not printed','C36',T,'(if p.id2.length > 0 then [58] ++ p.id2 else [])','[]','portStr')
M('d02','empty attribute lists are printed','C36',T,'(if ss.length > 0 then b!"[ " ++ ss ++ b!" ] " else []) ++ attrListStr als','(b!"[ " ++ ss ++ b!" ] ") ++ attrListStr als','attrListStr')
M('d03','attributes are not separated','C36',T,'| a :: as => b!", " ++ attrStr [] a ++ alistTail as','| a :: as => attrStr [] a ++ alistTail as','alistTail')
M('d04','statements are not terminated','C36',T,'str ++ b!";\\n"','str','stmtsLines')
M('d05','operators swapped','C36',T,'if op then b!"->" else b!"--"','if op then b!"--" else b!"->"','opStr')
M('d06','node defaults printed as edge defaults','C36',T,'| .nodeAttrs as => defaultsStr indent (b!"node") as','| .nodeAttrs as => defaultsStr indent (b!"edge") as','stmtStr')
M('d07','subgraph names starting with anon are not printed','C36',T,'indent ++ b!"subgraph " ++ id ++ b!" {\\n"','indent ++ b!"subgraph " ++ (if hasPrefix id (b!"anon") then [] else id) ++ b!" {\\n"','stmtStr')
M('d08','strict is not printed','C36',T,'(if g.strict then b!"strict " else [])','[]','graphStr')
M('d09','the first occurrence of an attribute wins','C21',T,'getMapFrom (msetAll m (al.map fun a => (a.field, a.value))) als','getMapFrom ((al.map fun a => (a.field, a.value)).foldl (fun m e => if mhas m e.1 then m else mset m e.1 e.2) m) als','getMapFrom')
M('d10','PutMap skips empty values','C21 C18',T,'[(ssort (mkeys m)).map fun k => ⟨k, mgetS m k⟩]','[((ssort (mkeys m)).filter fun k => (mgetS m k).length > 0).map fun k => ⟨k, mgetS m k⟩]','putMap')
M('d11','MakeNodeID swaps the parts of the port','C42',T,'| p1 :: p2 :: _ => ⟨id, ⟨p1, p2⟩⟩','| p1 :: p2 :: _ => ⟨id, ⟨p2, p1⟩⟩','makeNodeID')
M('d12','graph and digraph swapped','C36',T,'if t then b!"digraph" else b!"graph"','if t then b!"graph" else b!"digraph"','typeStr')
M('d13','edge statements lose their attributes','C36',T,'indent ++ trimSpace (locStr src ++ trimSpace (rhsStr rhs) ++ b!" " ++ attrListStr as)','indent ++ trimSpace (locStr src ++ trimSpace (rhsStr rhs))','stmtStr')
M('d14','a subgraph as an edge end is taken for a node','C25 C23',T,'''def Loc.isNode : Loc → Bool
  | .node _ => true
  | .sub _ _ => false''','''def Loc.isNode : Loc → Bool
  | .node _ => true
  | .sub _ _ => true''','Loc.isNode')
# analyse
M('e02','nodes created by edges get no defaults','C24 C66',A,'c.record (I.addNode c.g w.graphName nodeID w.nodeAttrs))','c.record (I.addNode c.g w.graphName nodeID []))','addNodeFromEdge')
M('e03','every mention of a node applies the defaults','C23 C24 C66',A,'let defaults := if isNew then w.nodeAttrs else []','let defaults := w.nodeAttrs','nodeStmt')
M('e04','all edges of a chain start at the first node','C25 C66',A,'edgeLoop I attrs w c dst.getID dst.getPort rest','edgeLoop I attrs w c src srcPort rest','edgeLoop')
M('e05','edge defaults win over explicit attributes','C24 C66',A,'let attrs := attrsAmmend (Ast.getMap as) w.edgeAttrs','let attrs := attrsAmmend w.edgeAttrs (Ast.getMap as)','edgeStmt')
M('e06','node defaults change the edge defaults','C24 C66',A,'| .nodeAttrs as => ({ w with nodeAttrs := overwrite w.nodeAttrs (Ast.getMap as) }, c)','| .nodeAttrs as => ({ w with edgeAttrs := overwrite w.edgeAttrs (Ast.getMap as) }, c)','walkStmt')
M('e07','subgraphs do not get the graph attributes','C26 C66',A,'''    let c := c.record (I.addSubGraph c.g w.graphName id w.graphAttrs)
    (w, (walkStmts''','''    let c := c.record (I.addSubGraph c.g w.graphName id [])
    (w, (walkStmts''','walkStmt')
M('e08','defaults leak out of a subgraph','C24 C66',A,'(w, (walkStmts I (newVisitor id w.nodeAttrs w.edgeAttrs) c body).2)','let r := walkStmts I (newVisitor id w.nodeAttrs w.edgeAttrs) c body; ({ w with nodeAttrs := r.1.nodeAttrs }, r.2)','walkStmt')
M('e09','only the first error is reported','C23',A,'sjoin (b!",") (es.map Err.msg)','sjoin (b!",") ((es.map Err.msg).take 1)','Catcher.getError')
M('e10','errors are dropped','C23 C49 C66',A,'| some e => { g := r.1, errs := c.errs ++ [e] }','| some _ => { g := r.1, errs := c.errs }','Catcher.record')
M('e11','the source of an edge is not walked','C23 C25 C66',A,'''    let c := walkLoc I w c src
    (w, walkRHS I w c rhs)''','''    (w, walkRHS I w c rhs)''','walkStmt')
M('e12','direction negated','C23 C66',A,'I.setDir c.g t.type_','I.setDir c.g (!t.type_)','analyseC')
M('e13','ports of edges dropped','C25 C38 C66',A,'src (Ast.portStr srcPort) dst.getID','src [] dst.getID','edgeLoop')
M('e14','the name is not set','C23 C27 C66',A,'''  let c := c.record (I.setName c.g t.id)
''','','analyseC')
M('e15','nodes created by an edge are not remembered','C23 C66',A,'({ w with created := mset w.created nodeID () }, c.record (I.addNode c.g w.graphName nodeID w.nodeAttrs))','(w, c.record (I.addNode c.g w.graphName nodeID w.nodeAttrs))','addNodeFromEdge')
M('e16','attributes of a chain only on its first edge','C25 C66',A,'edgeLoop I attrs w c dst.getID dst.getPort rest','edgeLoop I [] w c dst.getID dst.getPort rest','edgeLoop')
M('e17','graph [..] only remembered, not set','C26 C66',A,'({ w with graphAttrs := overwrite w.graphAttrs attrs }, graphAttrsLoop I w.graphName c attrs)','({ w with graphAttrs := overwrite w.graphAttrs attrs }, c)','graphAttrsStmt')
M('e18','graph [..] set but not remembered','C26 C66',A,'({ w with graphAttrs := overwrite w.graphAttrs attrs }, graphAttrsLoop I w.graphName c attrs)','(w, graphAttrsLoop I w.graphName c attrs)','graphAttrsStmt')
M('e19','subgraphs inside a subgraph inherit its graph attributes','C26 C66',A,'graphAttrs := [], created := []','graphAttrs := nodeAttrs, created := []','newVisitor')
# escape
M('f01','angle brackets are only counted up','C63',E,'if c = 62 then n - 1 else n','n','angleCount')
M('f02','a minus sign is allowed in identifiers','C63',E,'!isSpaceRune c && c != 45 && c != 47','!isSpaceRune c && c != 47','idRuneOk')
M('f03','an identifier may start with a digit','C30 C63',E,'''  | c :: cs => isLetter U c && (c :: cs).all idRuneOk''','''  | c :: cs => (isLetter U c || (48 ≤ c && c ≤ 57)) && (c :: cs).all idRuneOk''','isID')
M('f04','an unfinished number is a number','C63',E,'| [] => state == 2','| [] => state != 0','isNumberFrom')
M('f05','quotes inside string literals are ignored','C63',E,'some (noBareQuote 0 (runes ((s.drop 1).dropLast)))','some true','isStringLit')
M('f06','ampersands are not escaped','C31 C63',"Model/Base.lean",'else if c = 38 then b!"&amp;"\n','','htmlEscapeByte')
M('f07','quotes are not escaped','C30 C63',"Model/Base.lean",'else if c = 34 then b!"&#34;"\n','','htmlEscapeByte')
M('f08','attribute values are not escaped','C32',E,'''    let v' ← esc U v
''','''    let v' := v
''','escAttrsFrom')
M('f09','the parent of AddAttr is not escaped','C32',E,'return g.addAttr (← esc U parent)','return g.addAttr parent','escAddAttr')
M('f10','IsNode does not escape','C32',E,'return g.isNode (← esc U name)','return g.isNode name','escIsNode')
M('f11','string literals are quoted again','C28',E,'          | some true => some s\n          | some false','          | some true => some ([34] ++ htmlEscape s ++ [34])\n          | some false','esc')
M('f12','unbalanced html is left alone','C30 C63',E,'if c = 60 then some ([34] ++ escapeQuotes s ++ [34])','if c = 60 then some s','esc')
M('f13','ports are escaped','C32',E,'return g.addPortEdge (← esc U src) srcPort (← esc U dst) dstPort','return g.addPortEdge (← esc U src) (← esc U srcPort) (← esc U dst) dstPort','escAddPortEdge')
M('f14','blank strings no longer panic','C29',E,'''  else match trimSpace s with
    | [] => none
    | c :: cs => if c ≠ 60''','''  else match trimSpace s with
    | [] => some false
    | c :: cs => if c ≠ 60''','isHTML')
# lexer
M('g01','a tab advances by eight','C43',L,'(line, column + 4)','(line, column + 8)','advance')
M('g02','a carriage return starts a line','C43',L,'else if r = 13 then (line, 1)','else if r = 13 then (line + 1, 1)','advance')
M('g03','the token starts at the white space before it','C33 C45',L,'start := pos, startLine := line','startLine := line','scanLoop')
M('g04','the column after white space is not updated','C43',L,'startLine := line, startColumn := column, state := 0','startLine := line, state := 0','scanLoop')
M('g05','an invalid token stops before the offending character','C33',L,"| none => some (if st.typ = 0 then { st with pos := pos, end_ := pos } else { st with pos := pos })","| none => some { st with pos := pos }",'scanLoop')
M('g06','the literal is one byte short','C33 C45',L,'take (st.end_ - st.start), st.start','take (st.end_ - st.start - 1), st.start','scan')
M('g07','scanning continues after the last read rune','C33',L,'{ l with pos := st.end_, line := st.line, column := st.column })\n      else','{ l with pos := st.pos, line := st.line, column := st.column })\n      else','scan')
M('g08','the end of input is not recognised after white space','C33 C40',L,'typ := if pos ≥ src.length then 1 else st.typ','typ := st.typ','scanLoop')
# parser
M('h01','statements are prepended','C35',P,'okA (.stmts (ss ++ [← asStmt (← arg X s)]))','okA (.stmts ((← asStmt (← arg X s)) :: ss))','evalAct')
M('h02','a flag means false','C35',P,'okA (.attr ⟨f, b!"true"⟩)','okA (.attr ⟨f, b!"false"⟩)','evalAct')
M('h03','the parts of a port are swapped','C35',P,'okA (.port ⟨a, b⟩)','okA (.port ⟨b, a⟩)','evalAct')
M('h04','strict is ignored','C35',P,'okA (.graph ⟨t, st, id, l⟩)','okA (.graph ⟨t, false, id, l⟩)','evalAct')
M('h05','empty brackets add an empty list','C35',P,'if isNil a then okA (.attrList []) else','if isNil a then okA (.attrList [[]]) else','evalAct')
M('h06','named subgraphs get a generated name','C35 C41',P,'| some s => okA (.sub s (← orNil','| some _ => okA (.sub anon (← orNil','evalAct')
M('h07','the generator is not advanced','C35 C41',P,'cnt := st.cnt + (if actDraws X act then 1 else 0)','cnt := st.cnt','step')
M('h08','the popped values are in the wrong order','C34 C35',P,'let X := ((st.stack.take n).map (·.2)).reverse','let X := ((st.stack.take n).map (·.2))','step')
M('h09','appended attribute lists are dropped','C35',P,'okA (.alist (as ++ [← asAttr (← arg X a)]))','do let _ ← asAttr (← arg X a); okA (.alist as)','evalAct')
M('h10','the operator of a longer chain is that of its first edge','C35',P,'okA (.rhs (e ++ [.mk (← asOp (← arg X op)) (← asLoc (← arg X id))]))','do let o := match e with | .mk o _ :: _ => o | [] => false; let _ ← asOp (← arg X op); okA (.rhs (e ++ [.mk o (← asLoc (← arg X id))]))','evalAct')
M('h11','edge attributes dropped by the production for subgraph sources','C35',PT,'/- 41: line 439 -/ .newEdgeStmt (some 0) (some 1) (some 2)','/- 41: line 439 -/ .newEdgeStmt (some 0) (some 1) none','prodActs')
M('h12','production 58 yields a directed edge','C35',PT,'/- 58: line 609 -/ .op false','/- 58: line 609 -/ .op true','prodActs')
M('h13','strict graph without name is not strict','C35',PT,'/- 7: line 99 -/ .newGraph false true none (some 3)','/- 7: line 99 -/ .newGraph false false none (some 3)','prodActs')
M('h14','Read ignores analysis errors','C49',P,'| .error m => .analyseErr m','| .error _ => .ok newGraph','read')
# concurrency
M('k01','Lock does not wait','C41 C50',CC,'w.procs i = .atLock st → w.lock = none →','w.procs i = .atLock st →','Step.lock')
M('k02','Unlock is forgotten','C50',CC,'{ w.set i (.drawn st p) with lock := none }','(w.set i (.drawn st p))','Step.unlock')
M('k03','the generator is not advanced','C41',CC,'{ w.set i (.stored st p) with pos := p + 1 }','{ w.set i (.stored st p) with pos := p }','Step.store')
M('k04','the lock is released before the new state is stored','C41',CC,'{ w.set i (.locked st) with lock := some i }','{ w.set i (.locked st) with lock := none }','Step.lock')
# pointers
H='Model/Heap.lean'
M('n01','NewAttrs returns the map of the last allocation instead of a new one','C61',H,"| (m', none) => (m', .ok m.maps.length)","| (m', none) => (m', .ok (m.maps.length - 1))",'newAttrs')
M('n02','adding an existing node lets it share the map of the new object','C61 C62',H,'| some n => (extend m n.attrs o.attrs, g)','| some _ => ({ m with nodes := m.nodes.modify q fun n => { n with attrs := o.attrs } }, g)','nodesAdd')
M('n03','adding an existing node replaces the pointer','C61 C62',H,'| some n => (extend m n.attrs o.attrs, g)','| some _ => (m, { g with lookup := mset g.lookup o.name p })','nodesAdd')
M('n04','a new subgraph shares the attributes of the graph','C61',H,'subs := m.subs ++ [⟨m.maps.length, name⟩]','subs := m.subs ++ [⟨g.attrs, name⟩]','subsAdd')
M('n05','adding an existing subgraph makes a new object','C61 C62',H,'if mhas g.subGraphs name then (m, g)\n  else ({ m with','if false then (m, g)\n  else ({ m with','subsAdd')
M('n06','an edge uses the map of the previous edge','C61',H,'⟨src, srcPort, dst, dstPort, directed, a⟩','⟨src, srcPort, dst, dstPort, directed, a - 1⟩','addPortEdge')
M('n07','Extend writes into the other map','C61',H,'(m.map b).foldl (fun m e => m.set a e.1 e.2) m','(m.map b).foldl (fun m e => m.set b e.1 e.2) m','extend')
M('n08','AddAttr of a subgraph writes to the graph','C61',H,'| some s => add m s.attrs field value','| some _ => add m g.attrs field value','addAttr')
M('n09','NewGraph reuses the last map','C61',H,'{ attrs := m.maps.length, name := []','{ attrs := m.maps.length - 1, name := []','newHGraph')
M('n10','RemoveNode keeps edges that end at the node','C61',H,'(fun e => !(decide (e.dst = name) || decide (e.src = name))), none)','(fun e => !(decide (e.src = name))), none)','removeNode')
M('n11','the rebuilt edges are in the reverse order','C61 C62',H,'  g.edges.foldl (fun acc p','  g.edges.reverse.foldl (fun acc p','edgesRebuild')
M('n12','DstToSrcs is filled with the wrong keys','C61',H,'edgeIndexAdd g.dstToSrcs e.dst e.src p','edgeIndexAdd g.dstToSrcs e.src e.dst p','edgesAdd')
M('n13','RemoveNode reuses the object: its name is cleared','C62',H,"let (g', e) := removeNode m g p n; ((m, g'), e)","let (g', e) := removeNode m g p n; (({ m with nodes := m.nodes.map fun o => if o.name = n then { o with name := [] } else o }, g'), e)",'step')
M('n14','a new node goes to the front','C62',H,'list := g.list ++ [p]','list := p :: g.list','nodesAdd')
# slices
S='Model/Slices.lean'
M('s01','Edges.Add appends to the slice without its old elements','C58',S,'append grow m es.edges [some e]','append grow m (es.edges.upto 0) [some e]','SEdges.add')
M('s02','Edges.Sorted sorts in place','C58',S,'  let c : Slice := ⟨m.length, es.edges.len, es.edges.len⟩','  let c : Slice := ⟨es.edges.arr, es.edges.len, es.edges.len⟩','SEdges.sorted')
M('s03','the rebuild reuses the old backing array','C58',S,'  rebuildLoop grow keep es.edges (List.range es.edges.len) r.1 r.2','  rebuildLoop grow keep es.edges (List.range es.edges.len) r.1 { r.2 with edges := es.edges.upto 0 }','rebuild')
M('s04','Nodes.Remove drops one element too many','C58 C59',S,'(v.drop (i + 1))','(v.drop (i + 2))','SNodes.remove')
M('s05','Nodes.Remove copies into a new array','C59',S,'append grow ns.mem (ns.slice.upto i) (v.drop (i + 1))','append grow ns.mem { ns.slice.upto i with cap := i } (v.drop (i + 1))','SNodes.remove')
M('s06','the rebuild skips the last edge','C58',S,'(List.range es.edges.len)','(List.range (es.edges.len - 1))','rebuild')
M('s07','the index shares its slice with the list','C58',S,'    | none => make m\n  let (m, s) := append','    | none => (m, ⟨0, 0, 1⟩)\n  let (m, s) := append','indexAdd')
# walk and visitors
WK='Model/Walk.lean';AV='Model/AnalyseVisit.lean'
M('w01','the value of an attribute is visited before its field','C54',WK,"""    (walkLeaf vis v (.id a.field) s).bind fun s =>
    walkLeaf vis v (.id a.value) s""","""    (walkLeaf vis v (.id a.value) s).bind fun s =>
    walkLeaf vis v (.id a.field) s""",'walkAttr')
M('w02','a nil visitor is ignored for attribute lists (the panic is repaired)','C54',WK,"""  match v with
  | none => none
  | some v =>
    let (v, s) := vis v (.alist al) s""","""  match v with
  | none => some s
  | some v =>
    let (v, s) := vis v (.alist al) s""",'walkAList')
M('w03','the body of a subgraph is walked with the visitor of its parent','C54 C53',WK,"""  | .sub id body, s =>
    match v with
    | none => some s
    | some v =>
      let (v, s) := vis v (.subGraph id body) s
      (walkLeaf vis v (.id id) s).bind fun s =>
      match v with
      | none => some s
      | some v =>
        let (v, s) := vis v (.stmtList body) s
        walkSs vis v body s
  | .attr a, s""","""  | .sub id body, s =>
    match v with
    | none => some s
    | some v0 =>
      let (v, s) := vis v0 (.subGraph id body) s
      (walkLeaf vis v (.id id) s).bind fun s =>
      match v with
      | none => some s
      | some _ =>
        let (v, s) := vis v0 (.stmtList body) s
        walkSs vis v body s
  | .attr a, s""",'walkS')
M('w04','the attributes of an edge are not walked','C54',WK,"""          walkR vis v rhs s).bind fun s =>
      walkAttrList vis v (.attrList as) as s""","""          walkR vis v rhs s)""",'walkS')
M('w05','the rest of a chain is not walked','C54 C53',WK,"""        walkL vis v dst s).bind fun s =>
    walkR vis v rest s""","""        walkL vis v dst s)""",'walkR')
M('w06','the second identifier of a port is not walked','C54',WK,"""    (walkLeaf vis v (.id p.id1) s).bind fun s =>
    walkLeaf vis v (.id p.id2) s""","""    walkLeaf vis v (.id p.id1) s""",'walkPort')
M('v01','a subgraph shares the visitor of its parent','C53',AV,'    s.alloc (newVisitor id w.nodeAttrs w.edgeAttrs)','    (some (.stmtV p), s)','stmtVisit')
M('v02','node statements are walked with the statement visitor','C53',AV,'| .nodeStmt id as => (some .nilV,','| .nodeStmt id as => (some (.stmtV p),','stmtVisit')
M('v03','node defaults replace earlier ones','C53',AV,'nodeAttrs := overwrite w.nodeAttrs (Ast.getMap as) }, s.c))','nodeAttrs := Ast.getMap as }, s.c))','stmtVisit')
M('v04','the attribute lists of edges are walked with the statement visitor','C53',AV,'| .attrList _ => (some .nilV, s)','| .attrList _ => (some (.stmtV p), s)','stmtVisit')
M('v05','SetName before SetDir is dropped','C53',AV,'    let c := c.record (I.setDir c.g t.type_)\n','','graphVisit')
# error messages
ER='Model/Errors.lean'
M('x01','line and column are swapped in the message','C52',ER,'decDigits t.line ++ b!":" ++ decDigits t.column ++ b!": error: "','decDigits t.column ++ b!":" ++ decDigits t.line ++ b!": error: "','errorText')
M('x02','three expected tokens lose the second','C52',ER,'b!"expected one of " ++ a ++ b!", " ++ b ++ b!" or " ++ c','b!"expected one of " ++ a ++ b!" or " ++ c','describeExpected')
M('x03','new lines in the offending token are not escaped','C52',ER,'  else if r = 10 then b!"\\\\n"\n','  else if r = 10 then [10]\n','escapeRune')
M('x04','the expected tokens of a longer list lose the last','C52',ER,'sjoin (b!", ") (ts.dropLast ++ [b!"or " ++ ts.getLastD []])','sjoin (b!", ") ts.dropLast','describeExpected')
M('x05','the end of the input is reported as a token','C52',ER,'  else if t.typ = 1 then b!"end-of-file"\n','','describeToken')
M('x06','newError reports no expected tokens','C52',ER,'.syntaxErr tok (row.map (·.1))','.syntaxErr tok []','newError')
# tables
TT='Model/TokTables.lean'
M('t01','one attribute name is misspelt','C44',"Model/AttrTable.lean",'[97, 114, 101, 97] /- area -/','[97, 114, 101, 98] /- area -/','validAttrs')
M('t02','the scanner accepts digits as second character of identifiers only after letters a-y','C33 C48',LT,'/- S13 -/ ([(48, 57, 44), (65, 90, 13), (95, 95, 21), (97, 122, 13)','/- S13 -/ ([(48, 57, 44), (65, 90, 13), (95, 95, 21), (97, 121, 13)','transTab')
M('t03','a lone dot is a number','C48',LT,'/- S6 -/ ([(48, 57, 37)], none)','/- S6 -/ ([(48, 57, 37), (46, 46, 37)], none)','transTab')
M('t04','line comments end at the carriage return','C40 C48',LT,'/- S3 -/ ([(10, 10, 34)], some 3)','/- S3 -/ ([(13, 13, 34)], some 3)','transTab')
M('t05','strings may contain NUL','C48',LT,'/- S2 -/ ([(1, 33, 30)','/- S2 -/ ([(0, 33, 30)','transTab')
M('t06','-> is reported as --','C52',TT,'[45, 62] /- -> -/','[45, 45] /- -> -/','typeMap')
# maps of Analyse as references (C64)
AM='Model/AnalyseMaps.lean'
M('y01','a node statement passes the live map of the defaults when it has no attributes of its own','C64',AM,"""  let (a, c) := c.make (attrsAmmend (Ast.getMap as) defaults)
  (w', c.record (I.addNode c.g w.graphName nodeID a))""","""  let (a, c) := if (Ast.getMap as).isEmpty then (w.nodeAttrs, c) else c.make (attrsAmmend (Ast.getMap as) defaults)
  (w', c.record (I.addNode c.g w.graphName nodeID a))""",'mNodeStmt')
M('y02','addNodeFromEdge passes a copy','C64',AM,"""  else ({ w with created := mset w.created nodeID () }, c.record (I.addNode c.g w.graphName nodeID w.nodeAttrs))""","""  else
    let (a, c) := c.make (c.mem.mapAt w.nodeAttrs)
    ({ w with created := mset w.created nodeID () }, c.record (I.addNode c.g w.graphName nodeID a))""",'mAddNodeFromEdge')
M('y03','the visitor of a subgraph shares the node defaults with its parent','C64',AM,"""  let (n, c) := c.make (attrsAmmend [] (contents c nodeAttrs))
  let (e, c)""","""  let (n, c) := match nodeAttrs with
    | some a => (a, c)
    | none => c.make []
  let (e, c)""",'newMVisitor')
M('y04','overwrite replaces the contents','C64',AM,'c.write a (overwrite (c.mem.mapAt a) (Ast.getMap as))','c.write a (Ast.getMap as)','mOverwrite')
M('y05','node defaults also change the edge defaults','C64',AM,'| .nodeAttrs as => (w, mOverwrite c w.nodeAttrs as)','| .nodeAttrs as => (w, mOverwrite (mOverwrite c w.nodeAttrs as) w.edgeAttrs as)','mWalkStmt')
M('y06','edges get the live map of the edge defaults when the statement has no attributes','C64',AM,"""  let (a, c) := c.make (attrsAmmend (Ast.getMap as) (c.mem.mapAt w.edgeAttrs))
  let (w, c) := if src.isNode""","""  let (a, c) := if (Ast.getMap as).isEmpty then (w.edgeAttrs, c) else c.make (attrsAmmend (Ast.getMap as) (c.mem.mapAt w.edgeAttrs))
  let (w, c) := if src.isNode""",'mEdgeStmt')
M('y07','every edge of a chain gets a map of its own','C64',AM,"""    let c := c.record (I.addPortEdge c.g src (Ast.portStr srcPort) dst.getID (Ast.portStr dst.getPort) op attrs)
    mEdgeLoop""","""    let (a, c) := c.make (c.mem.mapAt attrs)
    let c := c.record (I.addPortEdge c.g src (Ast.portStr srcPort) dst.getID (Ast.portStr dst.getPort) op a)
    mEdgeLoop""",'mEdgeLoop')
M('y08','a subgraph gets a copy of the graph attributes','C64',AM,"""  newMVisitor id (some w.nodeAttrs) (some w.edgeAttrs) (c.record (I.addSubGraph c.g w.graphName id w.graphAttrs))""","""  let (a, c) := c.make (c.mem.mapAt w.graphAttrs)
  newMVisitor id (some w.nodeAttrs) (some w.edgeAttrs) (c.record (I.addSubGraph c.g w.graphName id a))""",'mSubGraph')
M('x08','the end of the input is called eof','C52',TT,'  [226, 144, 154] /- ␚ -/,\n  [103','  [101, 111, 102] /- ␚ -/,\n  [103','typeMap')
M('x09','bytes of the offending token are printed with one hexadecimal digit','C52',ER,'(if w = 1 ∧ r = runeError then b!"\\\\x" ++ hexDigits 2 b','(if w = 1 ∧ r = runeError then b!"\\\\x" ++ hexDigits 1 b','quoteLoop')
M('x10','backslashes of the offending token are not escaped','C52',ER,'if r = 34 ∨ r = 92 then [92, r]','if r = 34 then [92, r]','escapeRune')
# containers used directly (C65)
DI='Model/Direct.lean'
M('z01','Nodes.Add ignores the map it is given for a known name','C65',DI,'      | some n => d.attrsExtend n.attrs node.attrs','      | some _ => (d, .ok)','nodesAdd')
M('z02','Nodes.Add extends the new node instead of the old one','C65',DI,'      | some n => d.attrsExtend n.attrs node.attrs','      | some n => d.attrsExtend node.attrs n.attrs','nodesAdd')
M('z03','Nodes.Add forgets the slice','C65',DI,'⟨mset ns.lookup node.name p, ns.list ++ [p]⟩','⟨mset ns.lookup node.name p, ns.list⟩','nodesAdd')
M('z04','Nodes.Remove keeps the node in Lookup','C65',DI,'⟨mdel ns.lookup name, l⟩','⟨ns.lookup, l⟩','nodesRemove')
M('z05','Nodes.Remove of an unknown name is not an error','C65',DI,'    | none => (d, .err (.nodeNotFound name))','    | none => (d, .ok)','nodesRemove')
M('z06','Edges.Add indexes by the ports','C65',DI,'edgeIndexAdd es.srcToDsts e.src e.dst p','edgeIndexAdd es.srcToDsts e.src e.dstPort p','edgesAdd')
M('z07','Edges.Add swaps the second index','C65',DI,'edgeIndexAdd es.dstToSrcs e.dst e.src p','edgeIndexAdd es.dstToSrcs e.src e.dst p','edgesAdd')
M('z08','SubGraphs.Add replaces a known subgraph','C65',DI,'if mhas m name then (d, .ok) else','if mhas m name then (d, .panic) else','subGraphsAdd')
M('z09','SubGraphs.Add stores the pointer of the previous subgraph','C65',DI,'(mset m name d.subs.length)','(mset m name (d.subs.length - 1))','subGraphsAdd')
M('z10','Attrs.Copy of an empty map returns the map of another','C65',DI,'[Gographviz.attrsCopy (d.attrs a)]','[Gographviz.attrsCopy (d.attrs (a.map (· - 1)))]','attrsCopy')
M('z11','Attrs.Ammend overwrites','C65',DI,'fun m => Gographviz.attrsAmmend m (d.attrs b)','fun m => Gographviz.attrsExtend m (d.attrs b)','attrsAmmend')
M('z12','Attrs.Add on a nil map is ignored','C65',DI,"    | none => (d, .panic)\n    | some i => ({ d with maps := d.maps.modify i fun m => mset","    | none => (d, .ok)\n    | some i => ({ d with maps := d.maps.modify i fun m => mset",'attrsAdd')
M('z13','SubGraphs.Remove removes nothing','C65',DI,'d.subGraphs.set c (mdel m name)','d.subGraphs.set c m','subGraphsRemove')
M('z14','the search of Nodes.Remove skips the first node','C65',DI,'    | some ns => match d.removeLoop name ns.list with'.replace('    |','  |'),'  | some ns => match (d.removeLoop name ns.list.tail).map (ns.list.take 1 ++ ·) with','nodesRemove')
M('u01','the second port is dropped from the name of a node statement','C66',T,'([58] ++ p.id1 ++ (if p.id2.length > 0 then [58] ++ p.id2 else []))'[1:-1],'[58] ++ p.id1','portStr')
M('u02','node statements ignore their port','C66',T,'def nodeIDStr (n : NodeID) : Str := n.id ++ portStr n.port','def nodeIDStr (n : NodeID) : Str := n.id','nodeIDStr')
M('u03','new nodes are put at the front','C66',C,'list := ns.list ++ [ns.heap.length] }','list := ns.heap.length :: ns.list }','Nodes.add')
M('u04','subgraph attributes of the statement k=v go to the whole graph','C66 C26',A,'| .attr a => (w, c.record (I.addAttr c.g w.graphName a.field a.value))','| .attr a => (w, c.record (I.addAttr c.g [] a.field a.value))','walkStmt')
# unpacking the tables (C35)
TI='Model/TableInit.lean'; GZ='Model/Gzip.lean'; GB='Model/Gob.lean'
M('v91','shift and reduce are swapped while the table is unpacked','C35',TI,'else if a.action = 1 then store acts a.index.toNat (some (.reduce','else if a.action = 1 then store acts a.index.toNat (some (.shift','storeActions')
M('v92','rows are stored one too far','C35',TI,'| some rows => storeRows rows 0 zeroTable','| some rows => storeRows rows 1 zeroTable','initActionTab')
M('v95','all rows are marked as recovery states','C35',TI,"    | none => some false\n    | some (.bool b)","    | none => some true\n    | some (.bool b)",'rawRow')
M('v96','a byte of the stored table is wrong','C35','Model/TableData.lean','def gotoData : List Nat := [\n  31, 139,','def gotoData : List Nat := [\n  31, 140,','gotoData')
M('v97','copies start one byte too late','C35',GZ,'let w := out.take dist','let w := out.take (dist - 1)','copyBack')
# the parser with its memory
PM='Model/ParserMem.lean'
M('p01','popN gives the actions the wrong part of the stack','C67',PM,'take s.states.len).drop lo).map','take s.states.len).drop (lo - 1)).map','MStack.popN')
M('p02','popN does not shorten the stack of values','C67',PM,'some (X, { s with states := s.states.upto lo, attribs := s.attribs.upto lo })','some (X, { s with states := s.states.upto lo })','MStack.popN')
M('p03','Reset keeps the values of the last parse','C67',PM,'{ s with states := s.states.upto 0, attribs := s.attribs.upto 0 }','{ s with states := s.states.upto 0 }','MStack.reset')
M('p04','lists use the arrays of earlier trees again','C67 C69',PM,'(h ++ [[some c]], ⟨h.length, 1, 1⟩)','(match h with\n  | [] => [[some c]]\n  | a :: r => (some c :: a.drop 1) :: r, ⟨0, 1, 1⟩)','single')
M('p05','the literal of a token is one byte too short','C67 C68',PM,'some (⟨st.typ, st.start, st.end_, st.start','some (⟨st.typ, st.start, st.end_ - 1, st.start','mscan')
M('p06','the literal of a token reaches to the position of the lexer','C67 C68',PM,'some (⟨st.typ, st.start, st.end_, st.start','some (⟨st.typ, st.start, st.pos, st.start','mscan')
M('p07','appending a statement overwrites the last one','C67',PM,'append grow h ss [some (.stmt (← mStmt (← marg X s)))]','append grow h (ss.upto (ss.len - 1)) [some (.stmt (← mStmt (← marg X s)))]','evalActM')
M('p08','an edge statement without attributes shares the list of its ends','C67',PM,'let (as, h) ← attrsOr h (← marg X as)\n    okM (.stmt (.edge (← mLoc (← marg X id)) (← mRHS (← marg X e)) as)) h','let (_, h) ← attrsOr h (← marg X as)\n    okM (.stmt (.edge (← mLoc (← marg X id)) (← mRHS (← marg X e)) (← mRHS (← marg X e)))) h','evalActM')
M('p09','generated names are not counted','C67',PM,'| .newSubGraph id _ => ((marg X id).map mDrawsName).getD false','| .newSubGraph _ _ => false','mActDraws')
M('p10','the stack is two states short of values','C67',PM,'let (am, at_) := append grow s.amem s.attribs [some a]','let (am, at_) := append grow s.amem (s.attribs.upto (s.attribs.len - 1)) [some a]','MStack.push')
# failing removals
M('b19','a failed RemoveSubGraph removes the relation all the same','C07',G,"  | (g', some e) => (g', some e)\n  | (g', none) =>\n    ({ g' with","  | (g', some e) => ({ g' with relations := g'.relations.remove parent name }, some e)\n  | (g', none) =>\n    ({ g' with",'Graph.removeSubGraph')
M('b20','RemoveSubGraph goes on after a child that is no node','C07',G,"    | (g', some e) => (g', some e)\n    | (g', none) => g'.removeNodes parent cs","    | (g', some _) => g'.removeNodes parent cs\n    | (g', none) => g'.removeNodes parent cs",'Graph.removeNodes')
# parts of trees (C70)
T2='Model/Ast.lean'
M('r01','String of a statement loses its last byte','C70',T2,'def stmtString (s : Stmt) : Str := stmtStr [] s','def stmtString (s : Stmt) : Str := (stmtStr [] s).dropLast','stmtString')
M('r02','String of a statement list indents with a dash','C70',T2,'def stmtListString (ss : List Stmt) : Str := stmtListStr [] ss','def stmtListString (ss : List Stmt) : Str := stmtListStr (b!"-") ss','stmtListString')
M('r03','String of a statement list leaves out the first statement','C70',T2,'def stmtListString (ss : List Stmt) : Str := stmtListStr [] ss','def stmtListString (ss : List Stmt) : Str := stmtListStr [] ss.tail','stmtListString')
# goroutines that read (C71)
WM='Model/WriteMem.lean'
M('q01','Less extends the map of the edge itself instead of a copy','C71',WM,'    let c ← copyMap x.attrs\n    copyInto c y.attrs','    let c ← (.pure x.attrs : Prog Nat)\n    copyInto c y.attrs','compareM')
M('q02','Edges.Sorted also stores the sorted slice in the graph','C71',WM,'  sortM r (sorter g.edges.length)\n  getArr r','  sortM r (sorter g.edges.length)\n  let l ← getArr r\n  store (.graph i) (.graph { g with edges := l })\n  .pure l','edgesSortedM')
M('q03','WriteAst marks written nodes in one set for all calls','C71',WM,'  let r ← new (.set [])\n  let g ← getGraph i\n  let as ← attrStmtsM g.attrs','  let r ← (.pure 0 : Prog Nat)\n  let g ← getGraph i\n  let as ← attrStmtsM g.attrs','writeAstM')
M('q05','Nodes.Sorted puts the nodes of the graph in order','C71',WM,'  let ks ← rangeOf (mkeys g.lookup)\n  let g ← getGraph i\n  .pure ((ssort ks).map (mget g.lookup))','  let ks ← rangeOf (mkeys g.lookup)\n  let g ← getGraph i\n  store (.graph i) (.graph { g with list := (ssort ks).filterMap (mget g.lookup) })\n  .pure ((ssort ks).map (mget g.lookup))','nodesSortedM')
M('q06','printing a node sets its label','C71',WM,'  setAdd r node.name\n  let as ← attrListM node.attrs','  setAdd r node.name\n  mapSet node.attrs (b!"label") node.name\n  let as ← attrListM node.attrs','newNodeStmtM')
M('q07','SortedChildren makes a missing entry','C71',WM,'  let ks ← rangeOf (mkeys (g.relations.children parent))\n  .pure (ssort ks)','  store (.graph i) (.graph { g with relations := { g.relations with parentToChildren := mset g.relations.parentToChildren parent (g.relations.children parent) } })\n  let ks ← rangeOf (mkeys (g.relations.children parent))\n  .pure (ssort ks)','sortedChildrenM')
M('q08','WriteAst prints the edges in the order of the graph','C71',WM,'  let es ← edgesSortedM sorter i\n  let es ← edgeStmtsM i r fuel es','  let es ← (.pure g.edges : Prog (List Nat))\n  let es ← edgeStmtsM i r fuel es','writeAstM')
M('q09','the keys of an attribute map are not sorted','C71',WM,'  let ks ← rangeOf (mkeys m)\n  .pure (ssort ks)\n\n/-- The values of the given keys','  let ks ← rangeOf (mkeys m)\n  .pure ks\n\n/-- The values of the given keys','sortedNamesM')
# goroutines with graphs of their own (C72)
GM='Model/GraphMem.lean'
M('m01','all graphs made by NewGraph share one attribute map','C72',GM,'def newGraphM : Prog Nat := do\n  let a ← new (.map [])','def newGraphM : Prog Nat := do\n  let a ← (.pure 0 : Prog Nat)','newGraphM')
M('m02','NewAttrs uses one map for nil arguments','C72',GM,'def newAttrsM (arg : Option Nat) : Prog (Except Err Nat) := do\n  let a ← new (.map [])','def newAttrsM (arg : Option Nat) : Prog (Except Err Nat) := do\n  let a ← (if arg = none then (.pure 0 : Prog Nat) else new (.map []))','newAttrsM')
M('m03','NewAttrs deletes the entries of the argument that it has read','C72',GM,'    let m ← getArg r\n    let e ← addM a k (mgetS m k)','    let m ← getArg r\n    store (.arg r) (.arg (mdel m k))\n    let e ← addM a k (mgetS m k)','newAttrsLoopM')
M('m04','AddNode forgets the relation','C72',GM,"    nodesAddM i p\n    modGraph i fun g => { g with relations := g.relations.add parent name }\n    .pure none","    nodesAddM i p\n    .pure none",'addNodeM')
M('m05','Nodes.Add extends the new object instead of the old one','C72',GM,'    copyInto n.attrs o.attrs','    copyInto o.attrs n.attrs','nodesAddM')
M('m06','RemoveNode keeps the lookup entry','C72',GM,'    modGraph i fun g => { g with lookup := mdel g.lookup name }\n','','removeNodeM')
M('m07','RemoveNode keeps edges to the node','C72',GM,'    modGraph i fun g => { g with relations := g.relations.remove parent name }\n    edgesRebuildM i fun e => !(decide (e.dst = name) || decide (e.src = name))','    modGraph i fun g => { g with relations := g.relations.remove parent name }\n    edgesRebuildM i fun e => !(decide (e.src = name))','removeNodeM')
M('m08','Edges.Add stores the edge only in the slice and the first index','C72',GM,'  modGraph i fun g => { g with dstToSrcs := edgeIndexAdd g.dstToSrcs e.dst e.src p }\n','','edgesAddM')
M('m09','AddSubGraph sets the attributes in the parent','C72',GM,'    let ks ← rangeOf (mkeys m)\n    addAttrsM i name r ks','    let ks ← rangeOf (mkeys m)\n    addAttrsM i parent r ks','addSubGraphM')
M('m10','RemoveSubGraph goes on after an error','C72',GM,"    let e ← removeNodeM i parent c\n    match e with\n    | some e => .pure (some e)","    let e ← removeNodeM i parent c\n    match e with\n    | some _ => removeNodesM i parent cs",'removeNodesM')
M('m11','AddAttr on the graph writes to the shared graph 0','C72',GM,'def addAttrM (i : Nat) (parent field value : Str) : Prog (Option Err) := do\n  let g ← getGraph i','def addAttrM (i : Nat) (parent field value : Str) : Prog (Option Err) := do\n  let g ← getGraph 0','addAttrM')
M('m12','AddPortEdge swaps the ports','C72',GM,'new (.edge ⟨src, srcPort, dst, dstPort, directed, a⟩)','new (.edge ⟨src, dstPort, dst, srcPort, directed, a⟩)','addPortEdgeM')
M('m13','SetName also changes the direction','C72',GM,'{ g with name := n }','{ g with name := n, directed := true }','Change.prog')
M('m14','a subgraph that is added again gets a new object','C72',GM,'  if mhas g.subGraphs name then .pure ()\n  else do','  if false then .pure ()\n  else do','subsAddM')
LK='Model/Locked.lean'
M('l01','RLock is granted while a writer has the lock','C73',LK,"call.excl = false →\n      c.lock = .shared readers →\n      Step sorter fuel next i c (.begin call) ⟨c.set i ⟨rs, some (call, call.prog sorter fuel)⟩, .shared (i :: readers), c.mem⟩","call.excl = false →\n      (c.lock = .shared readers ∨ (readers = [] ∧ ∃ j, c.lock = .held j)) →\n      Step sorter fuel next i c (.begin call) ⟨c.set i ⟨rs, some (call, call.prog sorter fuel)⟩, .shared (i :: readers), c.mem⟩",'LConf.Step')
M('l02','Lock is granted while others read','C73',LK,"call.excl = true → c.lock = .shared [] →","call.excl = true → (∃ readers, c.lock = .shared readers) →",'LConf.Step')
M('l03','a method that changes the graph may be called with RLock','C73',LK,"  | .change _ _ => true","  | .change _ _ => false",'LCall.excl')
M('l04','a reader takes all readers out of the lock','C73',LK,".shared (readers.erase i), c.mem⟩",".shared [], c.mem⟩",'LConf.Step')
M('l05','Unlock does not free the lock','C73',LK,"⟨c.set i ⟨rs ++ [r], none⟩, .shared [], c.mem⟩","⟨c.set i ⟨rs ++ [r], none⟩, .held i, c.mem⟩",'LConf.Step')
M('l06','SortedChildren stores the graph it has read','C73',WM,'  let ks ← rangeOf (mkeys (g.relations.children parent))\n  .pure (ssort ks)','  store (.graph i) (.graph g)\n  let ks ← rangeOf (mkeys (g.relations.children parent))\n  .pure (ssort ks)','sortedChildrenM')
M('l07','the reply of a changing method is always success','C73',LK,"    .pure (.error e)","    .pure (.error (match e with | some _ => none | none => none))",'LCall.prog')
# cost (C74) and readers (C75)
RD='Model/Reader.lean'
M('rd01','ReadAll drops the bytes that come together with the end','C75',RD,"| some .eof => (.ret b' none, [ev])","| some .eof => (.ret b none, [ev])",'readAll')
M('rd02','ReadAll stops at an empty piece','C75',RD,"      | none =>\n        let r :=","      | none => if d = [] then (.ret b' none, [ev]) else\n        let r :=",'readAll')
M('rd03','a failing reader is parsed as far as it was read','C75',RD,"  | (.ret _ (some m), evs) => (.ioErr m, evs)","  | (.ret b (some _), evs) => (.parsed (parseBytes rnd cnt b), evs)",'parseReader')
M('rd04','the file is not closed','C75',RD,"      | none => (r, .opened none :: evs ++ [.closed none])","      | none => (r, .opened none :: evs)",'parseFile')
M('rd05','the error of Close is ignored','C75',RD,"      | some m => (.ioErr m, .opened none :: evs ++ [.closed (some m)])","      | some m => (r, .opened none :: evs ++ [.closed (some m)])",'parseFile')
M('rd06','a full buffer does not grow','C75',RD,"(if b'.length = cap then grow cap else cap)","cap",'readAll')
M('rd07','a full buffer grows only when it is more than full','C75',RD,"if b'.length = cap then","if b'.length > cap then",'readAll')
M('cst02','the scanner goes back to the start of the text after layout','C74','Model/Lexer.lean',"              start := pos, startLine := line, startColumn := column, state := 0, pos,","              start := pos, startLine := line, startColumn := column, state := 0, pos := 0,",'scanLoop')
# survivors of the automatic survey (tools/survey.py)
M('sv01','anonymous subgraphs are called enon...','C41','Model/Parser.lean','def anonName (n : Nat) : Str := b!"anon" ++','def anonName (n : Nat) : Str := b!"enon" ++','anonName')
M('sv02','U+00A1 is not shown as it is in messages','C52','Model/Errors.lean','(0xA1 ≤ r && r != 0xAD)','(0xA1 < r && r != 0xAD)','isPrint')
# literals (C76)
LI='Model/Literals.lean'
M('li01','upper-case digits are one too large','C76',LI,'ch - 65 + 10','ch - 65 + 11','digitVal')
M('li02','\\u takes only two digits','C76',LI,'escNumber lit 4 16 0x10FFFF 3','escNumber lit 2 16 0x10FFFF 3','escapeCharVal')
M('li03','surrogates are accepted','C76',LI,'if x > max ∨ (0xD800 ≤ x ∧ x < 0xE000) then none','if x > max then none','escNumber')
M('li04','the smallest negative number is out of range','C76',LI,'neg = true ∧ un > 2 ^ 63','neg = true ∧ un ≥ 2 ^ 63','parseIntTail')
M('li05','the overflow test is missing for the last digit','C76',LI,'      else if n * 10 + (c - 48) ≥ 2 ^ 64 then .rangeErr (2 ^ 64 - 1)\n','','parseUintLoop')
M('li06','Equals also compares the line','C76',LI,'t.lit == u.lit)','t.lit == u.lit && t.line == u.line)','equals')
M('li07','Pos.String swaps line and column','C76',LI,'path ++ b!":" ++ decDigits line ++ b!":" ++ decDigits column','path ++ b!":" ++ decDigits column ++ b!":" ++ decDigits line','posString')
M('li08','NewLexerFile forgets the path','C76',LI,'.ok (newLexer src, .source path)','.ok (newLexer src, .plain)','newLexerFile')
M('li09','DEL is shown between quotes','C76',LI,'0x20 ≤ r ∧ r < 0x7f','0x20 ≤ r ∧ r ≤ 0x7f','runeToString')
M('li10','StringValue keeps the last byte','C76',LI,'take (lit.length - 1 - 1)','take (lit.length - 1)','inner')
# size (C77)
M('dn01','HTML escaping forgets the ampersand','C79','Model/Base.lean','  else if c = 38 then b!"&amp;"\n','','htmlEscapeByte')
M('dn02','a quote is escaped as &quot; without semicolon','C79','Model/Base.lean','b!"&#34;"','b!"&#34"','htmlEscapeByte')
M('dn03','the direction of an edge is dropped when it is written','C81','Model/Write.lean','[.mk e.dir d.1]','[.mk true d.1]','newEdgeStmt')
M('or01','an edge needs its nodes','C82',G,'  | .ok as => ({ g with edges := g.edges.add','  | .ok as => if !mhas g.nodes.lookup src then (g, some (.nodeNotFound src)) else ({ g with edges := g.edges.add','Graph.addPortEdge')
M('or02','AddNode forgets where the node is if it exists','C82',G,'relations := g.relations.add parent name }, none)\n\n/-- graph.go:109','relations := if mhas g.nodes.lookup name then g.relations else g.relations.add parent name }, none)\n\n/-- graph.go:109','Graph.addNode')
M('mg01','a new name empties the graph','C83',G,'({ g with name := name }, none)','({ newGraph with name := name }, none)','Graph.setName')
M('mg02','the defaults of a document start with what the graph has','C83',A,'(walkStmts I (newVisitor t.id [] []) c t.stmts).2','(walkStmts I { newVisitor t.id [] [] with created := [(t.id, ())] } c t.stmts).2','analyseC')
M('rs01','Reset goes to the second byte','C78','Model/Literals.lean','{ l with pos := 0 }','{ l with pos := 1 }','reset')
M('rs02','Reset does nothing','C78','Model/Literals.lean','{ l with pos := 0 }','l','reset')
M('sz01','a nested subgraph that has been written is not written again','C77','Model/Write.lean','     else if g.isSubGraph child then\n       (rec_ wr child)','     else if g.isSubGraph child then if mhas wr child then .ok (.sub child [], wr) else\n       (rec_ wr child)','childLoop')
M('sz02','subgraphs of subgraphs are also written at the top','C77','Model/Write.lean','if !mhas wr s.name && mhas (g.relations.children g.name) s.name then','if !mhas wr s.name then','rootSubs')
M('sz03','nested subgraphs of the graph are written at the top although they have been written','C77','Model/Write.lean','if !mhas wr s.name && mhas (g.relations.children g.name) s.name then','if mhas (g.relations.children g.name) s.name then','rootSubs')
M('sz04','a cluster at the end of an edge is written in full','C77','Model/Write.lean','  else if g.isClusterSubGraph name then\n','  else if false then\n','newLocation')
EI='Model/EscapeIface.lean'
M('es01','Analyse drops the attributes of a node on the way to the Escape','C85',EI,'addNode x p n m := escCall x fun g => escStep U g (.addNode p n m)','addNode x p n _ := escCall x fun g => escStep U g (.addNode p n [])','escIface')
M('es02','the ports of an edge are exchanged on the way to the Escape','C85',EI,'escStep U g (.addPortEdge s sp d dp dir m)','escStep U g (.addPortEdge s dp d sp dir m)','escIface')
M('es03','errors of an Escape are not reported to Analyse','C85',EI,'    | some (g\', e) => (some g\', e)','    | some (g\', _) => (some g\', none)','escCall')
M('es04','an error of an Escape leaves the old graph','C85',EI,'    | some (g\', e) => (some g\', e)','    | some (g\', none) => (some g\', none)\n    | some (_, some e) => (none, some e)','escCall')
# renaming and undoing (C86, C87)
CO='Model/Containers.lean'
M('rn01','SetName drops double quotes from the name','C86',G,'({ g with name := name }, none)','({ g with name := name.filter (· ≠ 34) }, none)','Graph.setName')
M('rn02','AddSubGraph puts anonymous subgraphs at the top','C86',G,'{ g with relations := g.relations.add parent name, subGraphs','{ g with relations := g.relations.add (if hasPrefix name (b!"anon") then g.name else parent) name, subGraphs','Graph.addSubGraph')
M('rn03','a node whose name starts with cluster is not put anywhere','C86',G,'relations := g.relations.add parent name }, none)\n\n/-- graph.go:109','relations := if hasPrefix name (b!"cluster") then g.relations else g.relations.add parent name }, none)\n\n/-- graph.go:109','Graph.addNode')
M('un01','RemoveNode keeps the edges that end in the node','C87',G,'edges := edgesRebuild (fun e => !(decide (e.dst = name) || decide (e.src = name))) g.edges.edges }, none)','edges := edgesRebuild (fun e => !decide (e.src = name)) g.edges.edges }, none)','Graph.removeNode')
M('un02','Relations.Remove forgets all children of the parent','C87',CO,'  | some inner => mset m k1 (mdel inner k2)','  | some _ => mset m k1 []','relIndexDel')
M('un03','Nodes.Remove also forgets the node before the removed one','C87',CO,'else (ns.removeLoop name ps).map (p :: ·)','else (ns.removeLoop name ps).map (fun l => if l = ps.tail then l else p :: l)','Nodes.removeLoop')
M('un04','RemoveSubGraph keeps the subgraph in the index','C87',G,'        subGraphs := mdel g\'.subGraphs name\n','','Graph.removeSubGraph')
# truncated documents (C88)
M('tr01','missing closing braces at the end of the input are supplied','C88',P,'| some row => match rowAction row st.next.typ with','| some row => match (rowAction row st.next.typ).or (if st.next.typ = 1 then rowAction row 4 else none) with','step')
M('tr02','an unfinished token at the end of the input counts as the end of the input','C88',L,'some (if st.typ = 0 then { st with end_ := st.pos } else st)','some (if st.typ = 0 then { st with end_ := st.pos, typ := 1 } else st)','scanLoop')
M('pc01','Nodes.Add gives an existing node the new attributes instead of adding them','C89',C,'| some p => ns.updateAttrs p (fun as => attrsExtend as node.attrs)','| some p => ns.updateAttrs p (fun _ => node.attrs)','Nodes.add')
M('pc02','Analyse starts with an empty set of attributes','C89',G,'def Graph.setName (g : Graph) (name : Str) : Graph × Option Err := ({ g with name := name }, none)','def Graph.setName (g : Graph) (name : Str) : Graph × Option Err := ({ g with name := name, attrs := [] }, none)','Graph.setName')
M('se01','String returns an empty text for a graph that cannot be written','C90',W,'  | .err e => .ok (b!"error: " ++ e.msg)','  | .err _ => .ok []','graphString')
M('se02','String returns the message of the error alone','C90',W,'  | .err e => .ok (b!"error: " ++ e.msg)','  | .err e => .ok e.msg','graphString')
M('kd01','edges of a graph get the direction of the graph','C91',G,'edges := g.edges.add ⟨src, srcPort, dst, dstPort, directed, as⟩','edges := g.edges.add ⟨src, srcPort, dst, dstPort, g.directed, as⟩','Graph.addPortEdge')
M('kd02','WriteAst writes only one of equal edges of a strict graph','C91',W,'(edgeStmts g fuel [] (sortE g.edges.edges)).bind fun es =>','(edgeStmts g fuel [] (if g.strict then (sortE g.edges.edges).eraseDups else sortE g.edges.edges)).bind fun es =>','writeAst')
M('sp01','Nodes.Add appends an existing node to the list again','C92',C,'| some p => ns.updateAttrs p (fun as => attrsExtend as node.attrs)','| some p => { ns.updateAttrs p (fun as => attrsExtend as node.attrs) with list := ns.list ++ [p, p] }','Nodes.add')
M('sp02','AddPortEdge of an undirected edge adds both directions','C92',C,'    edges := es.edges ++ [e] }','    edges := es.edges ++ (if e.dir then [e] else [e, { e with src := e.dst, dst := e.src }]) }','Edges.add')
M('sp03','a subgraph at the end of an edge is visited once more by the edge','C92',A,'    (w, walkRHS I w c rhs)\n','    (w, walkRHS I w (walkLoc I w c src) rhs)\n','walkStmt')
M('df01','an edge counts its node ends as written','C93',W,'(newNodeID g name port).bind fun n => .ok (.node n, wr)','(newNodeID g name port).bind fun n => .ok (.node n, mset wr name ())','newLocation')
M('df02','nodes written in a subgraph are written again at the end','C93',W,'    if !mhas wr n.name then\n','    if !mhas wr n.name || mhas (g.relations.children g.name) n.name then\n','rootNodes')
M('df03','a subgraph without children is not written at the top level','C93',W,'    if !mhas wr s.name && mhas (g.relations.children g.name) s.name then','    if !mhas wr s.name && mhas (g.relations.children g.name) s.name && !(g.relations.children s.name).isEmpty then','rootSubs')
M('te01','edges are written directed whenever one end has a port','C94',W,'  .ok (.edge s.1 [.mk e.dir d.1] (Ast.putMap (attrsCopy e.attrs)), d.2)','  .ok (.edge s.1 [.mk (e.dir || e.srcPort.length ≠ 0) d.1] (Ast.putMap (attrsCopy e.attrs)), d.2)','newEdgeStmt')
M('dl01','a semicolon counts as a comma where only a comma is allowed','C95',P,'| some row => match rowAction row st.next.typ with','| some row => match (rowAction row st.next.typ).or (if st.next.typ = 7 then rowAction row 13 else none) with','step')
M('dl02','an undirected operator is rejected after a subgraph','C95',P,'| some row => match rowAction row st.next.typ with','| some row => match (if top = 22 ∧ st.next.typ = 17 then none else rowAction row st.next.typ) with','step')
M('en01','the error text of String is cut after 20 bytes of the name','C96',C,'  | .notNodeOrSubGraph n => n ++ b!" is not a node or a subgraph"','  | .notNodeOrSubGraph n => n.take 20 ++ b!" is not a node or a subgraph"','Err.msg')
M('en02','a port is cut to 8 bytes (compass points and record fields are short)','C96',T,'    | [p1] => ⟨id, ⟨p1, []⟩⟩','    | [p1] => ⟨id, ⟨p1.take 8, []⟩⟩','makeNodeID')
M('cp01','node names are trimmed when written (invisible for names that parse)','C97',W,'.ok (.node (Ast.makeNodeID node.name []) (Ast.putMap (attrsCopy node.attrs))','.ok (.node (Ast.makeNodeID (trimSpace node.name) []) (Ast.putMap (attrsCopy node.attrs))','newNodeStmt')
M('cp02','graph attributes with the empty value are not written','C97',W,'(sortedNames as).map fun k => .attr ⟨k, mgetS as k⟩','((sortedNames as).filter fun k => mgetS as k ≠ []).map fun k => .attr ⟨k, mgetS as k⟩','attrStmts')
M('ns01','a reduction leaves the last symbol of its right-hand side on the stack if it is a semicolon','C98',P,'            | some (.ok a) => match st.stack.drop n with','            | some (.ok a) => match (if n = 2 ∧ nt = 3 then st.stack.drop 1 else st.stack.drop n) with','step')
M('ee01','RemoveNode filters the list of edges and leaves the indexes as they are','C99',G,'edges := edgesRebuild (fun e => !(decide (e.dst = name) || decide (e.src = name))) g.edges.edges }, none)','edges := { g.edges with edges := g.edges.edges.filter (fun e => !(decide (e.dst = name) || decide (e.src = name))) } }, none)','Graph.removeNode')
M('ee02','the writer takes the edges from the index by source','C99',W,'(edgeStmts g fuel [] (sortE g.edges.edges))','(edgeStmts g fuel [] (sortE (g.edges.srcToDsts.flatMap fun kv => kv.2.flatMap fun kv2 => kv2.2)))','writeAst')
M('an01','all generated names are the same','C100',P,'def anonName (n : Nat) : Str := b!"anon" ++ decDigits n','def anonName (n : Nat) : Str := b!"anon" ++ decDigits 0','anonName')
M('an02','Analyse gives a subgraph with a generated name no place in its parent','C100',A,'    let c := c.record (I.addSubGraph c.g w.graphName id w.graphAttrs)\n    (w, (walk','    let c := c.record (I.addSubGraph c.g (if hasPrefix id (b!"anon") then [] else w.graphName) id w.graphAttrs)\n    (w, (walk','walkStmt')
M('er01','RemoveNode removes all children of the parent from the relations','C101 C06',G,'        relations := g.relations.remove parent name','        relations := (mkeys (g.relations.children parent)).foldl (fun r c => r.remove parent c) g.relations','Graph.removeNode')
M('er02','RemoveNode also removes edges whose source port is the name','C101 C06',G,'!(decide (e.dst = name) || decide (e.src = name))) g.edges.edges','!(decide (e.dst = name) || decide (e.src = name) || decide (e.srcPort = name))) g.edges.edges','Graph.removeNode')
GD='Model/GraphDirect.lean'
M('mk01','Attrs.Add called directly takes any name','C102',GD,'  | .attrsAdd f v => match Gographviz.attrsAdd g.attrs f v with\n    | .error e => (g, some e)\n    | .ok as => ({ g with attrs := as }, none)','  | .attrsAdd f v => ({ g with attrs := mset g.attrs f v }, none)','Graph.direct')
M('mk02','RemoveNode removes the node from all (sub)graphs','C102 C06',G,'        relations := g.relations.remove parent name','        relations := (mkeys (g.relations.parents name)).foldl (fun r p => r.remove p name) (g.relations.remove parent name)','Graph.removeNode')
M('mk03','AddSubGraph with the name of a node records no place','C102',G,'relations := g.relations.add parent name, subGraphs := subGraphsAdd','relations := if mhas g.nodes.lookup name then g.relations else g.relations.add parent name, subGraphs := subGraphsAdd','Graph.addSubGraph')
M('cl01','a cluster at the end of an edge counts as written','C37 C60',W,'else .ok (.node (Ast.makeNodeID name port), wr)\n','else .ok (.node (Ast.makeNodeID name port), mset wr name ())\n','newLocation')
M('cl02','a cluster at the end of an edge is written out like any subgraph','C37 C60',W,'  else if g.isClusterSubGraph name then\n    if port.length ≠ 0 then .err (.subGraphPort port) else .ok (.node (Ast.makeNodeID name port), wr)\n','','newLocation')
M('cl03','a node with the name of a written cluster is not written at the end','C60 C37',W,'    if !mhas wr n.name then\n','    if !(mhas wr n.name || g.isClusterSubGraph n.name) then\n','rootNodes')
M('en03','long attribute values are cut after 80 bytes when printed','C96 C36',T,'def attrStr (indent : Str) (a : Attr) : Str := indent ++ a.field ++ b!"=" ++ a.value','def attrStr (indent : Str) (a : Attr) : Str := indent ++ a.field ++ b!"=" ++ a.value.take 80','attrStr')
M('ag01','a subgraph at the end of an edge is written without its attributes and children when it was written before','C103 C20',W,'    else (newSubGraph g fuel wr name).bind fun r => .ok (.sub r.1.1 r.1.2, r.2)','    else if mhas wr name then .ok (.sub name [], wr) else (newSubGraph g fuel wr name).bind fun r => .ok (.sub r.1.1 r.1.2, r.2)','newLocation')
M('ag02','the writer adds a comment attribute to subgraphs at the ends of edges','C103',W,'    else (newSubGraph g fuel wr name).bind fun r => .ok (.sub r.1.1 r.1.2, r.2)','    else (newSubGraph g fuel wr name).bind fun r => .ok (.sub r.1.1 (.attr ⟨b!"inline", b!"true"⟩ :: r.1.2), r.2)','newLocation')
M('st01','the first attribute of a node is not written','C60 C17',W,'(.node (Ast.makeNodeID node.name []) (Ast.putMap (attrsCopy node.attrs))','(.node (Ast.makeNodeID node.name []) (Ast.putMap ((attrsCopy node.attrs).drop 1))','newNodeStmt')
M('st02','edges are written the wrong way round','C60 C18',W,'.edge s.1 [.mk e.dir d.1]','.edge d.1 [.mk e.dir s.1]','newEdgeStmt')
M('kp01','the attributes of a node that is called like a subgraph of the graph are kept, those of other nodes in subgraphs are not','C104 C17',W,'(.node (Ast.makeNodeID node.name []) (Ast.putMap (attrsCopy node.attrs))','(.node (Ast.makeNodeID node.name []) (if mhas g.subGraphs name then Ast.putMap (attrsCopy node.attrs) else Ast.putMap [])','newNodeStmt')
M('kp03','a node is not written at the end when an edge mentions it','C104 C17',W,'    if !mhas wr n.name then','    if !mhas wr n.name && !g.edges.edges.any (fun e => decide (e.src = n.name)) then','rootNodes')
