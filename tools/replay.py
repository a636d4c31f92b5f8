#!/usr/bin/env python3
"""Translate the tests of the package to Lean terms over Verif.Replay."""
import re,sys,os
from fractions import Fraction
TOK=re.compile(r'\s*(?:(//[^\n]*)|("(?:\\.|[^"\\])*")|(`[^`]*`)|(\d+\.\d+)|(\d+)|([A-Za-z_]\w*)|(:=|!=|==|\.\.\.|&&|\|\||<=|>=|[-+*/%.,(){}\[\]=;:&<>!]))')
def lex(s):
    out=[];i=0
    while True:
        m=TOK.match(s,i)
        if not m:
            if s[i:].strip()=='' : return out
            raise SyntaxError(s[i:i+60])
        i=m.end()
        if m.group(1) is not None: continue
        for k,n in ((2,'str'),(3,'raw'),(4,'float'),(5,'int'),(6,'id'),(7,'op')):
            if m.group(k) is not None: out.append((n,m.group(k)));break
def goq(s):
    return eval(s) if not s.startswith('`') else s[1:-1]
def leanstr(s):
    r=''
    for ch in s:
        r+={'\\':'\\\\','"':'\\"','\n':'\\n','\t':'\\t','\r':'\\r'}.get(ch,ch)
    return 'c!"'+r+'"'
class P:
    def __init__(s,toks): s.t=toks;s.i=0
    def pk(s,o=0): return s.t[s.i+o] if s.i+o<len(s.t) else ('eof','')
    def nx(s): x=s.pk(); s.i+=1; return x
    def ex(s,v):
        x=s.nx()
        if x[1]!=v: raise SyntaxError(f"expected {v} got {x} near {s.t[s.i-6:s.i+6]}")
    def expr(s):
        e=s.unary()
        while s.pk()[1]=='+':
            s.nx(); f=s.unary(); e=('add',e,f)
        return e
    def unary(s):
        if s.pk()[1]=='-':
            s.nx(); e=s.prim(); return ('neg',e)
        return s.post()
    def post(s):
        e=s.prim()
        while True:
            if s.pk()[1]=='.':
                s.nx(); n=s.nx()[1]; e=('sel',e,n)
            elif s.pk()[1]=='(':
                s.nx(); a=[]
                while s.pk()[1]!=')':
                    a.append(s.expr())
                    if s.pk()[1]=='...': s.nx(); a[-1]=('spread',a[-1])
                    if s.pk()[1]==',': s.nx()
                s.nx(); e=('call',e,a)
            elif s.pk()[1]=='{' and e[0]=='slice':
                s.nx(); a=[]
                while s.pk()[1]!='}':
                    a.append(s.expr())
                    if s.pk()[1]==',': s.nx()
                s.nx(); e=('lit',e,a)
            else: return e
    def prim(s):
        k,v=s.nx()
        if k in('str','raw'): return ('str',goq(v))
        if k=='float': return ('float',v)
        if k=='int': return ('int',v)
        if k=='id': return ('id',v)
        if v=='(':
            e=s.expr(); s.ex(')'); return e
        if v=='[':
            s.ex(']'); e=s.post0(); return ('slice',e)
        raise SyntaxError(f"{k} {v} {s.t[max(0,s.i-8):s.i+4]}")
    def post0(s):
        e=s.prim()
        while s.pk()[1]=='.':
            s.nx(); e=('sel',e,s.nx()[1])
        return e
# kinds: S string, I int, E expr, C cond, CC container, P pattern, N named, O obj, T content, Q sort item, X node, R rel/as is, F float, St stmt
K={
'ANode':'S','AnyNodeNamed':'S','NewNodeWithLabels':'S S*','NewNodeWithProperties':'S E S*','AProperty':'S S','ASymbolic':'S','AParam':'S',
'LiteralOf':'O','StringLiteralCreate':'S','ListLiteralCreate':'R','ListOf':'E*','MapOf':'O*','SortBy':'E','ExpressionWrap':'E',
'IdByNode':'R','Labels':'R','Count':'R','CountDistinct':'R','IdByRelationship':'R','FunctionType':'R','CountDistinctByExpression':'E',
'Point':'E','PointByParameter':'E','Avg':'E','Collect':'E','StDev':'E','StDevP':'E','Sum':'E','Head':'E','Coalesce':'E*','Distance':'E E',
'SizeByPattern':'P','CollectByNamed':'R','CollectDistinctByNamed':'R','PercentileCont':'E F','PercentileDisc':'E F','Range':'E E','RangeRaw':'I I',
'Nodes':'R','CypherValueAt':'E I','ASubList':'E I I','CypherSubListFrom':'E I','ASubListUntil':'E I','SubList':'E E E',
'ConditionsNotByPattern':'P','ConditionsNot':'C','PredicateExistsByPattern':'P','PredicateAll':'S','PredicateAny':'S','PredicateNone':'S','PredicateSingle':'S',
'CypherListWith':'E','ListBasedOn':'P','ListBasedOnNamed':'R','CaseExpression':'E','APath':'S','AShortestPath':'S','DefinedBy':'R',
'Match':'P*','AnOptionalMatch':'P*','OptionalMatch':'P*','Create':'P*','Merge':'P*','With':'E*','WithByNamed':'N*','WithByString':'S*','WithDistinct':'E*','WithDistinctByNamed':'N*',
'Unwind':'E','UnwindMulti':'E*','UnwindByString':'S','CypherReturning':'E*','ACall':'S*','Union':'R*','UnionAll':'R*',
'In':'E','Where':'C','WherePattern':'P','WhereConditionContainer':'R','Returning':'E*','ReturningByNamed':'N*','ReturningByString':'S*','ReturningDistinct':'E*','ReturningDistinctByNamed':'N*',
'As':'S','IsEqualTo':'E','IsNotEqualTo':'E','Lt':'E','Lte':'E','Gt':'E','Gte':'E','Contains':'E','Add':'E','Subtract':'E','Multiply':'E','Divide':'E','Remainder':'E','Pow':'E',
'MatchesPattern':'S','And':'A','Or':'C','Xor':'C','AndPattern':'P','OrPattern':'P','XorPattern':'P','To':'E','When':'E','Then':'E','ElseDefault':'E',
'NamedByString':'S','Named':'S','NamedC':'S','Property':'S','HasLabels':'S*','Project':'T*','WithProperties':'E','Properties':'E','WithRawProperties':'O*',
'RelationshipTo':'R S*','RelationshipFrom':'R S*','RelationshipBetween':'R S*','Min':'I','Max':'I','Length':'I I',
'OrderBySortItem':'R*','OrderBy':'E','Skip':'I','Limit':'I','Delete':'E*','DeleteByNamed':'N*','DeleteByString':'S*','DetachDeleteByNamed':'N*','Set':'E*','SetWithNamed':'N E','SetByNode':'R S*','RemoveByNode':'R S*','Remove':'E*','WithArgs':'E*','YieldString':'S*',
}
NOARG={'AnyNode','AnAsterisk','LiteralTrue','LiteralFalse','ConditionsNoCondition','ConditionsIsTrue','ConditionsIsFalse','GenericCaseExpression','ReturningDefault','Get','IsNull','IsNotNull','IsTrue','IsFalse','IsEmpty','Ascending','Descending','Not','InternalId','GetRequiredSymbolicName','GetSymbolicName','Unbounded','OnCreate','OnMatch','Build'}
FUNS=set('Count ANode AnyNode AnyNodeNamed NewNodeWithLabels NewNodeWithProperties AnAsterisk AProperty ASymbolic AParam LiteralOf LiteralTrue LiteralFalse StringLiteralCreate ListLiteralCreate ListOf MapOf Match Merge Create'.split())
def flo(v):
    f=float(v); m,e=f.as_integer_ratio(); k=e.bit_length()-1
    return f'(GoFloat.fin false {m} (-{k}))'
class Env:
    def __init__(s): s.names={}
def tr(e,env):
    k=e[0]
    if k=='str': return leanstr(e[1])
    if k=='add':
        return leanstr(const(e))
    if k=='int': return e[1]
    if k=='neg': return f'(-{tr(e[1],env)})'
    if k=='float': return flo(e[1])
    if k=='id':
        if e[1]=='nil': return 'Obj.nil'
        if e[1] in('true','false'): return e[1]
        return san(e[1])
    if k=='lit':
        return '['+', '.join(tr(x,env) for x in e[2])+']'
    if k=='call':
        f=e[1]; a=e[2]
        if f[0]=='sel' and f[1]==('id','cypher'):
            name='cypher.'+f[2]; n=f[2]
        elif f[0]=='id' and f[1] in FUNS: name='cypher.'+f[1]; n=f[1]
        elif f[0]=='id' and f[1]=='OtherNode': return '(← OtherNode)'
        elif f==('sel',('call',('id','NewRenderer'),[]),'Render') or f==('sel',('call',('sel',('id','cypher'),'NewRenderer'),[]),'Render'): raise SyntaxError
        elif f[0]=='sel':
            name=tr(f[1],env)+'.'+f[2]; n=f[2]
        else: raise SyntaxError(str(e))
        if n=='Sort': n='SortBy'; name=name.replace('Sort','SortBy')
        if n in('Max','Min') and name.startswith('cypher.'): kinds=['E']
        elif n=='Labels' and not name.startswith('cypher.'): kinds=[]
        elif n in NOARG: kinds=[]
        else: kinds=K[n].split()
        if n=='And' and len(a)>1: kinds=['T*']; name=name+'s'
        if n=='Where' and a==[('id','nil')]: return f'(← {name}Nil)'
        out=[];j=0
        for kd in kinds:
            if kd.endswith('*'):
                out.append('['+', '.join(arg(x,kd[0],env) for x in a[j:])+']'); j=len(a)
            else:
                out.append(arg(a[j],kd,env)); j+=1
        if j!=len(a): raise SyntaxError(f"args {n} {a}")
        return '(← '+' '.join([name]+out)+')'
    raise SyntaxError(str(e))
STR={}
def const(e):
    if e[0]=='id': return STR[e[1]]
    return e[1] if e[0]=='str' else const(e[1])+const(e[2])
def arg(x,kd,env):
    t=tr(x,env)
    if kd=='O':
        if x[0]=='str': return f'(.str {t})'
        if x[0] in('int','neg'): return f'(.int {t})'
        if x[0]=='float': return f'(.float {t})'
        if x==('id','nil'): return '.nil'
        if x in (('id','true'),('id','false')): return f'(.bool {t})'
        return f'(obj {t})'
    if kd=='T':
        if x[0]=='str': return f'(.str {t})'
        return f'(cont {t})'
    if kd in'SIFR' : return t
    if kd=='A': return t
    return {'E':'(ex %s)','C':'(co %s)','P':'(pat %s)','N':'(nm %s)'}[kd]%t
def san(n):
    return n if n not in('have','by','end','at','with','from','open','match','then','do','let') else n+"'"
def funcs(src):
    for m in re.finditer(r'^func (Test\w+)\(t \*testing\.T\) \{\n(.*?)^\}\n',src,re.S|re.M):
        yield m.group(1),m.group(2)
def stmts(body):
    """split the body at statement level; returns token lists"""
    toks=[];depth=0;cur=[];out=[]
    # go newline rule: statement ends at newline if depth 0 and the last token can end one
    for line in body.split('\n'):
        l=lex(line)
        if not l: 
            continue
        for t in l:
            if t[1] in'([{' and t[0]=='op': depth+=1
            if t[1] in')]}' and t[0]=='op': depth-=1
            cur.append(t)
        if depth==0 and not (cur[-1][0]=='op' and cur[-1][1] in('.',',','+','=',':=','(','{')):
            out.append(cur);cur=[]
    return out
PRE={'cypherit':['let userNode ← NodeV.NamedByString (← cypher.ANode c!"User") c!"u"','let bikeNode ← NodeV.NamedByString (← cypher.ANode c!"Bike") c!"b"']}
def translate(name,body):
    STR.clear();lines=[];exp=[];env=Env();lastq=None;bound=set();expects={}
    for st in stmts(body):
        v=[t[1] for t in st]
        if v[0]=='fmt': continue
        if v[0]=='var' and '=' not in v: continue
        if v[0]=='var': st=st[1:]; v=v[1:]
        if v[:3]==['if','query','!='] and st[3][0]=='str':
            n=len(exp); lines.append(f'let text{n} ← rendered {tr(lastq,env)}'); exp.append(goq(v[3])); continue
        if v[0]=='if': continue
        if v[:2]==['Assert','('] or v[:2]==['AssertStatement','('] or v[:2]==['AssertStatementError','(']:
            p=P(st); e=p.expr(); a=e[2]
            if v[0]=='AssertStatementError':
                raise SyntaxError('error test')
            fn='built' if v[0]=='Assert' else 'rendered'
            n=len(exp); lines.append(f'let text{n} ← {fn} {tr(a[1],env)}'); exp.append(const(a[2])); continue
        # assignment
        i=next((j for j,x in enumerate(v) if x in(':=','=')),None)
        if i is None: raise SyntaxError('stmt '+' '.join(v[:12]))
        lhs=[x for x in v[:i] if x!=',']; rhs=st[i+1:]
        p=P(rhs); e=p.expr()
        if p.pk()[0]!='eof': raise SyntaxError('rest '+str(p.pk()))
        if lhs[0]=='query' and 'Render' in v:
            lastq=e[2][0]; continue
        if lhs[0]=='expect':
            n=len(exp); lines.append(f'let text{n} ← rendered {tr(lastq,env)}'); exp.append(const(e)); continue
        if e[0] in('str','add'):
            STR[lhs[0]]=const(e)
            if lhs[0].startswith('expect'): continue
        if lhs[0]=='_': raise SyntaxError('error test')
        t=tr(e,env)
        t=t[3:-1] if t.startswith('(← ') else 'pure '+t
        lines.append(f'let {san(lhs[0])} ← {t}')
    return lines,exp
def main():
    files=sys.argv[2:]; pre=sys.argv[1]
    ok=0
    for f in files:
        src=open(f).read()
        src=re.sub(r'/\*.*?\*/','',src,flags=re.S)
        rel=os.path.relpath(f,'/repo')
        print(f'\n/-! ### {rel} -/')
        for n,b in funcs(src):
            try:
                lines,exp=translate(n,b)
                ln=src[:src.index('func '+n+'(')].count('\n')+1
                user=[] 
                txt='\n'.join(lines)
                P0=[]
                if re.search(r'\buserNode\b',txt) and 'let userNode' not in txt: P0.append('let userNode ← userNodeM')
                if re.search(r'\bbikeNode\b',txt) and 'let bikeNode' not in txt: P0.append('let bikeNode ← bikeNodeM')
                if not exp: raise SyntaxError('no expectation')
                if pre=="eval":
                    print("#eval show IO Unit from do\n  let r := printed (do")
                    for l in P0+lines: print("    "+l)
                    print("    return ["+", ".join(f"text{i}" for i in range(len(exp)))+"])")
                    print("  let e : Option (List Str) := some ["+",\n    ".join(leanstr(x) for x in exp)+"]")
                    print(f"  if r = e then pure () else IO.println s!\"{n}: got {{r.map (·.map String.ofList)}}\"")
                    ok+=1; continue
                print(f'\n/-- {n} -/')
                print('example : printed (do')
                for l in P0+lines: print('    '+l)
                print('    return ['+', '.join(f'text{i}' for i in range(len(exp)))+']) =')
                print('  some ['+',\n    '.join(leanstr(x) for x in exp)+'] := by decide +kernel')
                ok+=1
            except (SyntaxError,KeyError,IndexError,TypeError) as x:
                print(f'-- SKIPPED {n}: {type(x).__name__} {x}'); sys.stderr.write(f'{rel} {n}: {type(x).__name__} {x}\n')
main()
