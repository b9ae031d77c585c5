"""A small recursive descent parser for Apex that builds trees in the shape of the tree-sitter-sfapex grammar."""
import re, sys

class PErr(Exception): pass

class N:
    __slots__=('kind','named','extra','field','s','e','kids')
    def __init__(self,kind,named,s,e,kids=(),field=None,extra=False):
        self.kind=kind; self.named=named; self.s=s; self.e=e; self.kids=list(kids); self.field=field; self.extra=extra

TOK=re.compile(r"""
 (?P<ws>\s+)
|(?P<lc>//[^\n]*)
|(?P<bc>/\*.*?\*/)
|(?P<str>'(?:\\.|[^'\\])*')
|(?P<date>\d{4}-\d\d-\d\d(?:T\d\d:\d\d:\d\d(?:\.\d+)?(?:Z|[+-]\d\d:\d\d))?)
|(?P<pv>[Pp]ackage\.[Vv]ersion\.(?=[\w]))
|(?P<num>\d+\.\d+[dDlL]?|\.\d+[dDlL]?|\d+[dDlLfF]?(?![\w]))
|(?P<id>[^\W\d]\w*|\d\w*)
|(?P<op>\?\.|\?\?|===|!==|==|!=|<>|<=|&&|\|\||\+\+|--|\+=|-=|\*=|/=|%=|\|=|&=|\^=|<<=|<<|=>|[-+*/%&|^!~<>=?:;,.(){}\[\]@])
""",re.X|re.S)

MODS={'global':'global','public':'public','private':'private','protected':'protected','override':'override','static':'static','final':'final','virtual':'virtual','abstract':'abstract','testmethod':'testMethod','transient':'transient','webservice':'webservice'}
DATELITS=set('yesterday today tomorrow last_week this_week next_week last_month this_month next_month last_90_days next_90_days this_quarter last_quarter next_quarter this_year last_year next_year this_fiscal_quarter last_fiscal_quarter next_fiscal_quarter this_fiscal_year last_fiscal_year next_fiscal_year'.split())
DATEPAR=set('last_n_days next_n_days next_n_weeks last_n_weeks next_n_months last_n_months next_n_quarters last_n_quarters next_n_years last_n_years next_n_fiscal_quarters last_n_fiscal_quarters next_n_fiscal_years last_n_fiscal_years n_days_ago n_weeks_ago n_months_ago n_quarters_ago n_years_ago'.split())

PREC={'??':4.5,'||':5,'&&':6,'|':7,'^':8,'&':9,'==':10,'!=':10,'===':10,'!==':10,'<>':10,'<':12,'>':12,'<=':12,'>=':12,'<<':13,'>>':13,'>>>':13,'+':14,'-':14,'*':15,'/':15,'%':15}
ASSIGN={'=','+=','-=','*=','/=','%=','|=','&=','^=','<<=','>>=','>>>='}
EXPRKW={'new','null','true','false','this','super'}
STMTKW={'if','for','while','do','try','return','throw','break','continue','switch','insert','update','delete','undelete','merge','upsert','else','catch','finally','new','instanceof'}

class P:
    def __init__(self,src):
        self.src=src; self.toks=[]; self.comments=[]; pos=0
        while pos<len(src):
            m=TOK.match(src,pos)
            if not m: raise PErr(f"lex {pos} {src[pos:pos+20]!r}")
            k=m.lastgroup
            if k in('lc','bc'):
                e=m.end()
                if k=='lc':
                    if src[e-1]=='\r': e-=1
                self.comments.append(N('line_comment' if k=='lc' else 'block_comment',True,pos,e,extra=True))
            elif k!='ws': self.toks.append((k,m.group(),pos,m.end()))
            pos=m.end()
        self.i=0
    # --- token helpers
    def t(self,k=0):
        j=self.i+k
        return self.toks[j] if j<len(self.toks) else ('eof','',len(self.src),len(self.src))
    def low(self,k=0): return self.t(k)[1].lower()
    def isop(self,s,k=0): t=self.t(k); return t[0]=='op' and t[1]==s
    def iskw(self,s,k=0): t=self.t(k); return t[0]=='id' and t[1].lower()==s.lower()
    def err(self,m=''):
        t=self.t(); raise PErr(f"parse {m} at {self.src.count(chr(10),0,t[2])+1}: {self.src[t[2]:t[2]+30]!r}")
    def leaf(self,kind,named=True,n=1):
        a=self.t()
        for _ in range(n): b=self.t(); self.i+=1
        return N(kind,named,a[2],b[3])
    def op(self,s):
        if not self.isop(s): self.err('op '+s)
        return self.leaf(s,False)
    def kw(self,s,kind=None):
        if not self.iskw(s): self.err('kw '+s)
        return self.leaf(kind or s,False)
    def ident(self,kind='identifier'):
        if self.t()[0]!='id': self.err('ident')
        return self.leaf(kind)
    def mk(self,kind,kids): 
        kids=[k for k in kids if k is not None]
        return N(kind,True,kids[0].s,kids[-1].e,kids)
    def f(self,name,n):
        n.field=name; return n
    def attempt(self,fn):
        i=self.i
        try: return fn()
        except PErr:
            self.i=i; return None
    # adjacency for > operators
    def adj(self,s,k=0):
        """the operator made of adjacent tokens starting here equals s"""
        j=self.i+k; p=None; acc=''; n=0
        while len(acc)<len(s):
            if j>=len(self.toks): return 0
            t=self.toks[j]
            if t[0]!='op' or (p is not None and t[2]!=p): return 0
            acc+=t[1]; p=t[3]; j+=1; n+=1
        return n if acc==s else 0
    # --- file
    def root(self):
        kids=[]
        while self.t()[0]!='eof': kids.append(self.rootmember())
        return N('parser_output',True,0,len(self.src),kids)
    def rootmember(self):
        if self.iskw('trigger'): return self.trigger()
        m=self.modifiers()
        if self.iskw('class'): return self.klass(m)
        if self.iskw('interface'): return self.interface(m)
        if self.iskw('enum'): return self.enum(m)
        self.err('root')
    def trigger(self):
        k=[self.kw('trigger'),self.f('name',self.ident()),self.kw('on'),self.f('object',self.ident()),self.op('(')]
        while True:
            w=self.low()+'_'+self.low(1)
            k.append(self.mk('trigger_event',[self.leaf(w,True,2)]))
            if self.isop(','): k.append(self.op(','))
            else: break
        k.append(self.op(')'))
        k.append(self.f('body',self.mk('trigger_body',[self.block()])))
        return self.mk('trigger_declaration',k)
    def modifiers(self):
        k=[]
        while True:
            if self.isop('@'): k.append(self.annotation())
            elif self.t()[0]=='id':
                w=self.low()
                if w in('with','without','inherited') and self.iskw('sharing',1): k.append(self.mk('modifier',[self.leaf(w+'_sharing',True,2)]))
                elif w in MODS and not(w=='static' and self.isop('{',1)): k.append(self.mk('modifier',[self.leaf(MODS[w])]))
                else: break
            else: break
        return self.mk('modifiers',k) if k else None
    def annotation(self):
        k=[self.op('@'),self.f('name',self.ident())]
        if self.isop('('):
            a=[self.op('(')]
            while not self.isop(')'):
                if self.isop(','): a.append(self.op(',')); continue
                if self.t()[0]=='id' and self.isop('=',1):
                    a.append(self.mk('annotation_key_value',[self.f('key',self.ident()),self.op('='),self.f('value',self.annval())]))
                else: a.append(self.f('value',self.annval()))
            a.append(self.op(')'))
            k.append(self.f('arguments',self.mk('annotation_argument_list',a)))
        return self.mk('annotation',k)
    def annval(self): return self.primary()
    def typeparams(self):
        k=[self.op('<')]
        while True:
            k.append(self.mk('type_parameter',[self.ident('type_identifier')]))
            if self.isop(','): k.append(self.op(','))
            else: break
        k.append(self.op('>')); return self.mk('type_parameters',k)
    def typelist(self):
        k=[self.type()]
        while self.isop(','): k+= [self.op(','),self.type()]
        return self.mk('type_list',k)
    def klass(self,m):
        k=[m,self.kw('class'),self.f('name',self.ident())]
        if self.isop('<'): k.append(self.f('type_parameters',self.typeparams()))
        if self.iskw('extends'): k.append(self.f('superclass',self.mk('superclass',[self.kw('extends'),self.type()])))
        if self.iskw('implements'): k.append(self.f('interfaces',self.mk('interfaces',[self.kw('implements'),self.typelist()])))
        k.append(self.f('body',self.classbody()))
        return self.mk('class_declaration',k)
    def interface(self,m):
        k=[m,self.kw('interface'),self.f('name',self.ident())]
        if self.isop('<'): k.append(self.f('type_parameters',self.typeparams()))
        if self.iskw('extends'): k.append(self.mk('extends_interfaces',[self.kw('extends'),self.typelist()]))
        b=[self.op('{')]
        while not self.isop('}'):
            if self.isop(';'): b.append(self.op(';')); continue
            b.append(self.member(True))
        b.append(self.op('}'))
        k.append(self.f('body',self.mk('interface_body',b)))
        return self.mk('interface_declaration',k)
    def enum(self,m):
        k=[m,self.kw('enum'),self.f('name',self.ident())]
        if self.iskw('implements'): k.append(self.f('interfaces',self.mk('interfaces',[self.kw('implements'),self.typelist()])))
        b=[self.op('{')]
        while not self.isop('}'):
            b.append(self.mk('enum_constant',[self.modifiers(),self.f('name',self.ident())]))
            if self.isop(','): b.append(self.op(','))
        b.append(self.op('}'))
        k.append(self.f('body',self.mk('enum_body',b)))
        return self.mk('enum_declaration',k)
    def classbody(self):
        b=[self.op('{')]
        while not self.isop('}'):
            if self.isop(';'): b.append(self.op(';')); continue
            b.append(self.member(False))
        b.append(self.op('}'))
        return self.mk('class_body',b)
    def member(self,inter):
        if self.isop('{'): return self.block()
        if self.iskw('static') and self.isop('{',1): return self.mk('static_initializer',[self.kw('static'),self.block()])
        m=self.modifiers()
        if self.iskw('class'): return self.klass(m)
        if self.iskw('interface'): return self.interface(m)
        if self.iskw('enum') : return self.enum(m)
        if self.t()[0]=='id' and self.isop('(',1):
            k=[m,self.f('name',self.ident()),self.f('parameters',self.params()),self.f('body',self.ctorbody())]
            return self.mk('constructor_declaration',k)
        ty=self.f('type',self.type())
        if self.isop('(',1):
            k=[m,ty,self.f('name',self.ident()),self.f('parameters',self.params())]
            if self.isop('{'): k.append(self.f('body',self.block()))
            else: k.append(self.op(';'))
            return self.mk('method_declaration',k)
        k=[m,ty]+self.declarators()
        if self.isop('{'): k.append(self.accessors())
        else: k.append(self.op(';'))
        return self.mk('constant_declaration' if inter else 'field_declaration',k)
    def declarators(self):
        k=[]
        while True:
            d=[self.f('name',self.ident())]
            if self.isop('['): d.append(self.f('dimensions',self.dims()))
            if self.isop('='):
                d.append(self.leaf('assignment_operator'))
                d.append(self.f('value',self.arrinit() if self.isop('{') else self.expr()))
            k.append(self.f('declarator',self.mk('variable_declarator',d)))
            if self.isop(','): k.append(self.op(','))
            else: return k
    def accessors(self):
        k=[self.op('{')]
        while not self.isop('}'):
            m=self.modifiers()
            a=[m,self.f('accessor',self.leaf(self.low(),False))]
            if self.isop('{'): a.append(self.f('body',self.block()))
            else: a.append(self.op(';'))
            k.append(self.mk('accessor_declaration',a))
        k.append(self.op('}'))
        return self.mk('accessor_list',k)
    def params(self):
        k=[self.op('(')]
        while not self.isop(')'):
            k.append(self.param())
            if self.isop(','): k.append(self.op(','))
        k.append(self.op(')'))
        return self.mk('formal_parameters',k)
    def param(self):
        return self.mk('formal_parameter',[self.modifiers(),self.f('type',self.type()),self.f('name',self.ident())])
    def ctorbody(self):
        k=[self.op('{')]
        if (self.iskw('this') or self.iskw('super')) and self.isop('(',1):
            c=[self.f('constructor',self.leaf(self.low())),self.f('arguments',self.args()),self.op(';')]
            k.append(self.mk('explicit_constructor_invocation',c))
        while not self.isop('}'): k.append(self.stmt())
        k.append(self.op('}'))
        return self.mk('constructor_body',k)
    # --- types
    def type(self):
        t=self.simpletype()
        while self.isop('[') and self.isop(']',1):
            t=self.mk('array_type',[self.f('element',t),self.f('dimensions',self.dims())])
        return t
    def dims(self):
        k=[]
        while self.isop('[') and self.isop(']',1): k+=[self.op('['),self.op(']')]
        return self.mk('dimensions',k)
    def simpletype(self):
        w=self.low()
        if self.t()[0]!='id': self.err('type')
        if w in STMTKW or w in EXPRKW or w in('class','return'): self.err('type kw')
        if w=='void' : return self.leaf('void_type')
        if w=='java' and self.isop(':',1):
            return self.mk('java_type',[self.kw('java'),self.op(':'),self.scoped()])
        return self.scoped()
    def scoped(self):
        w=self.low()
        t=self.leaf('boolean_type') if self.t()[1]=='boolean' and not self.isop('.',1) else self.ident('type_identifier')
        while True:
            if self.isop('<') and t.kind!='boolean_type':
                a=[self.op('<')]
                while not self.isop('>'):
                    a.append(self.type())
                    if self.isop(','): a.append(self.op(','))
                    elif not self.isop('>'): self.err('type args')
                a.append(self.op('>'))
                t=self.mk('generic_type',[t,self.mk('type_arguments',a)])
            elif self.isop('.') and self.t(1)[0]=='id' and self.low(1)!='class':
                t=self.mk('scoped_type_identifier',[t,self.op('.'),self.ident('type_identifier')])
            else: return t
    # --- statements
    def block(self):
        k=[self.op('{')]
        while not self.isop('}'): k.append(self.stmt())
        k.append(self.op('}'))
        return self.mk('block',k)
    def paren(self):
        return self.mk('parenthesized_expression',[self.op('('),self.expr(),self.op(')')])
    def vardecl(self):
        def go():
            m=self.modifiers(); ty=self.f('type',self.type())
            if self.t()[0]!='id' or self.low() in('instanceof',): self.err('decl')
            if not(self.isop('=',1) or self.isop(';',1) or self.isop(',',1) or self.isop('[',1)): self.err('decl')
            return [m,ty]
        k=self.attempt(go)
        if k is None: return None
        k+=self.declarators(); k.append(self.op(';'))
        return self.mk('local_variable_declaration',k)
    def stmt(self):
        w=self.low() if self.t()[0]=='id' else None
        if self.isop('{'): return self.block()
        if self.isop(';'): return self.op(';')
        if w=='if':
            k=[self.kw('if'),self.f('condition',self.paren()),self.f('consequence',self.stmt())]
            if self.iskw('else'): k+=[self.kw('else'),self.f('alternative',self.stmt())]
            return self.mk('if_statement',k)
        if w=='while': return self.mk('while_statement',[self.kw('while'),self.f('condition',self.paren()),self.f('body',self.stmt())])
        if w=='do': return self.mk('do_statement',[self.kw('do'),self.f('body',self.block()),self.kw('while'),self.f('condition',self.paren()),self.op(';')])
        if w=='for': return self.forst()
        if w=='try':
            k=[self.kw('try'),self.f('body',self.block())]
            while self.iskw('catch'):
                k.append(self.mk('catch_clause',[self.kw('catch'),self.op('('),self.param(),self.op(')'),self.f('body',self.block())]))
            if self.iskw('finally'): k.append(self.mk('finally_clause',[self.kw('finally'),self.block()]))
            return self.mk('try_statement',k)
        if w=='return':
            k=[self.kw('return')]
            if not self.isop(';'): k.append(self.expr())
            k.append(self.op(';')); return self.mk('return_statement',k)
        if w=='throw': return self.mk('throw_statement',[self.kw('throw'),self.expr(),self.op(';')])
        if w in('break','continue'):
            k=[self.kw(w)]
            if not self.isop(';'): k.append(self.ident())
            k.append(self.op(';')); return self.mk(w+'_statement',k)
        if w=='switch' and self.iskw('on',1): return self.switch()
        if w=='system' and self.isop('.',1) and self.iskw('runas',2):
            def go():
                k=[self.leaf('System.runAs',False,3),self.f('user',self.paren())]
                if not self.isop('{'): self.err('runas')
                k.append(self.block()); return self.mk('run_as_statement',k)
            r=self.attempt(go)
            if r: return r
        d=self.vardecl()
        if d: return d
        return self.mk('expression_statement',[self.expr(),self.op(';')])
    def forst(self):
        k=[self.kw('for'),self.op('(')]
        def go():
            m=self.modifiers(); ty=self.f('type',self.type()); n=self.f('name',self.ident()); c=self.op(':')
            return [m,ty,n,c]
        e=self.attempt(go)
        if e:
            k+=e+[self.f('value',self.expr()),self.op(')'),self.f('body',self.stmt())]
            return self.mk('enhanced_for_statement',k)
        d=self.vardecl()
        if d: k.append(self.f('init',d))
        else:
            while not self.isop(';'):
                k.append(self.f('init',self.expr()))
                if self.isop(','): k.append(self.op(','))
            k.append(self.op(';'))
        if not self.isop(';'): k.append(self.f('condition',self.expr()))
        k.append(self.op(';'))
        while not self.isop(')'):
            k.append(self.f('update',self.expr()))
            if self.isop(','): k.append(self.op(','))
        k+=[self.op(')'),self.f('body',self.stmt())]
        return self.mk('for_statement',k)
    def switch(self):
        k=[self.kw('switch'),self.kw('on'),self.f('condition',self.expr())]
        b=[self.op('{')]
        while not self.isop('}'):
            l=[self.kw('when')]
            if self.iskw('else'): l.append(self.kw('else'))
            else:
                def go():
                    t=self.type(); n=self.ident()
                    if not self.isop('{'): self.err('when')
                    return self.mk('when_sobject_type',[t,n])
                s=self.attempt(go)
                if s: l.append(s)
                else:
                    l.append(self.expr())
                    while self.isop(','): l+=[self.op(','),self.expr()]
            b.append(self.mk('switch_rule',[self.mk('switch_label',l),self.block()]))
        b.append(self.op('}'))
        k.append(self.f('body',self.mk('switch_block',b)))
        return self.mk('switch_expression',k)
    # --- expressions
    def expr(self):
        w=self.low() if self.t()[0]=='id' else None
        if w in('insert','update','delete','undelete','merge','upsert') and not(self.isop('.',1) or self.isop('=',1) or self.isop(';',1) or self.isop(')',1) or self.isop(',',1)): return self.dml()
        return self.assign()
    def dml(self):
        w=self.low()
        k=[self.mk('dml_type',[self.leaf(w)])]
        if self.iskw('as') and self.low(1) in('user','system'):
            k.append(self.mk('dml_security_mode',[self.kw('as'),self.leaf(self.low())]))
        k.append(self.f('target',self.expr()))
        if w=='upsert' and not self.isop(';'): k.append(self.f('upsert_key',self.type()))
        if w=='merge' and not self.isop(';'): k.append(self.f('merge_with',self.expr()))
        return self.mk('dml_expression',k)
    def assign(self):
        l=self.ternary()
        for o in ('>>>=','>>='):
            n=self.adj(o)
            if n: 
                return self.mk('assignment_expression',[self.f('left',l),self.f('operator',self.leaf('assignment_operator',True,n)),self.f('right',self.expr())])
        if self.t()[0]=='op' and self.t()[1] in ASSIGN:
            return self.mk('assignment_expression',[self.f('left',l),self.f('operator',self.leaf('assignment_operator')),self.f('right',self.expr())])
        return l
    def ternary(self):
        c=self.binary(0)
        if self.isop('?'):
            return self.mk('ternary_expression',[self.f('condition',c),self.op('?'),self.f('consequence',self.assign()),self.op(':'),self.f('alternative',self.assign())])
        return c
    def binop(self):
        for o in('>>>=','>>='):
            if self.adj(o): return None
        if self.isop('>') and self.isop('=',1): return '>=',2
        for o in('>>>','>>'):
            n=self.adj(o)
            if n: return o,n
        t=self.t()
        if t[0]=='op' and t[1] in PREC: return t[1],1
        return None
    def binary(self,p):
        l=self.unary()
        while True:
            if self.iskw('instanceof') and p<12:
                l=self.mk('instanceof_expression',[self.f('left',l),self.kw('instanceof'),self.f('right',self.type())]); continue
            o=self.binop()
            if not o or PREC[o[0]]<=p: return l
            ot=self.f('operator',self.leaf(o[0],False,o[1]))
            r=self.binary(PREC[o[0]])
            l=self.mk('binary_expression',[self.f('left',l),ot,self.f('right',r)])
    def unary(self):
        t=self.t()
        if t[0]=='op' and t[1] in('+','-','!','~'):
            return self.mk('unary_expression',[self.f('operator',self.leaf(t[1],False)),self.f('operand',self.unary())])
        if t[0]=='op' and t[1] in('++','--'):
            return self.mk('update_expression',[self.f('operator',self.leaf(t[1],False)),self.f('operand',self.unary())])
        if t[0]=='op' and t[1]=='(':
            def go():
                a=self.op('('); ty=self.type(); b=self.op(')')
                n=self.t()
                if not(n[0] in('id','str','num') or (n[0]=='op' and n[1] in('(','!','~','['))): self.err('cast')
                if n[0]=='id' and n[1].lower()=='instanceof': self.err('cast')
                return self.mk('cast_expression',[a,self.f('type',ty),b,self.f('value',self.unary())])
            c=self.attempt(go)
            if c: return c
        return self.postfix()
    def postfix(self):
        e=self.primary()
        while True:
            if self.isop('.') or self.isop('?.'):
                if self.isop('.') and self.iskw('class',1):
                    e=self.mk('class_literal',[self.totype(e),self.op('.'),self.kw('class')]); continue
                nav=self.op('.') if self.isop('.') else self.leaf('safe_navigation_operator')
                if self.t()[0]!='id': self.err('nav')
                if self.isop('(',1):
                    e=self.mk('method_invocation',[self.f('object',e),nav,self.f('name',self.ident()),self.f('arguments',self.args())])
                else:
                    w=self.low()
                    e=self.mk('field_access',[self.f('object',e),nav,self.f('field',self.leaf(w) if w=='this' else self.ident())])
            elif self.isop('[') and not self.isop(']',1):
                e=self.mk('array_access',[self.f('array',e),self.op('['),self.f('index',self.expr()),self.op(']')])
            elif self.isop('++') or self.isop('--'):
                e=self.mk('update_expression',[self.f('operand',e),self.f('operator',self.leaf(self.t()[1],False))])
            else: return e
    def totype(self,e):
        if e.kind=='identifier': e.kind='type_identifier'; return e
        if e.kind=='field_access':
            k=e.kids; o=self.totype(k[0]); o.field=None; k[2].kind='type_identifier'; k[2].field=None
            return self.mk('scoped_type_identifier',[o,k[1],k[2]])
        self.err('totype')
    def args(self):
        k=[self.op('(')]
        while not self.isop(')'):
            k.append(self.expr())
            if self.isop(','): k.append(self.op(','))
            elif not self.isop(')'): self.err('args')
        k.append(self.op(')'))
        return self.mk('argument_list',k)
    def arrinit(self):
        k=[self.op('{')]
        while not self.isop('}'):
            k.append(self.arrinit() if self.isop('{') else self.expr())
            if self.isop(','): k.append(self.op(','))
            elif not self.isop('}'): self.err('arrinit')
        k.append(self.op('}'))
        return self.mk('array_initializer',k)
    def primary(self):
        t=self.t()
        if t[0]=='str': return self.leaf('string_literal')
        if t[0]=='num':
            if '.' in t[1] or t[1][-1] in 'dDfF': return self.leaf('decimal_floating_point_literal')
            return self.leaf('int')
        if self.isop('('): return self.paren()
        if self.isop('['): return self.query()
        if t[0] not in('id','pv'): self.err('primary')
        w=t[1].lower()
        if w=='null': return self.leaf('null_literal')
        if w in('true','false'): return self.leaf('boolean')
        if w=='this': return self.leaf('this')
        if w=='super': return self.leaf('super')
        if w=='new': return self.new()
        if w=='java' and self.isop(':',1):
            a=[self.kw('java'),self.op(':')]
            e=self.ident()
            while self.isop('.') and not self.isop('(',2):
                e=self.mk('field_access',[self.f('object',e),self.op('.'),self.f('field',self.ident())])
            return self.mk('java_field_access',a+[e])
        if t[0]=='pv':
            a=self.leaf('Package.Version.',False)
            if self.iskw('request'): return self.mk('version_expression',[a,self.kw('request','Request')])
            n=self.leaf('decimal_floating_point_literal')
            return self.mk('version_expression',[a,self.f('version_num',n)])
        if w in STMTKW-{'insert','update','delete','undelete','merge','upsert'}: self.err('keyword')
        # generic class literal  List<A>.class
        if self.isop('<',1):
            def go():
                ty=self.type()
                if not(self.isop('.') and self.iskw('class',1)): self.err('cl')
                return self.mk('class_literal',[ty,self.op('.'),self.kw('class')])
            c=self.attempt(go)
            if c: return c
        if self.isop('[',1) and self.isop(']',2):
            ty=self.type()
            return self.mk('class_literal',[ty,self.op('.'),self.kw('class')])
        if w=='void' and self.isop('.',1):
            return self.mk('class_literal',[self.leaf('void_type'),self.op('.'),self.kw('class')])
        if self.isop('(',1):
            return self.mk('method_invocation',[self.f('name',self.ident()),self.f('arguments',self.args())])
        # generic scoped class literal such as A.B<C>.class is not needed
        return self.ident()
    def new(self):
        n=self.kw('new'); ty=self.f('type',self.simpletype())
        if self.isop('('):
            k=[n,ty,self.f('arguments',self.args())]
            if self.isop('{'): k.append(self.classbody())
            return self.mk('object_creation_expression',k)
        if self.isop('['):
            k=[n,ty]
            while self.isop('['):
                if self.isop(']',1): k.append(self.f('dimensions',self.dims()))
                else: k.append(self.f('dimensions',self.mk('dimensions_expr',[self.op('['),self.expr(),self.op(']')])))
            if self.isop('{'): k.append(self.f('value',self.arrinit()))
            return self.mk('array_creation_expression',k)
        if self.isop('{'):
            def go():
                k=[self.op('{')]
                while not self.isop('}'):
                    k.append(self.mk('map_key_initializer',[self.expr(),self.op('=>'),self.expr()]))
                    if self.isop(','): k.append(self.op(','))
                    elif not self.isop('}'): self.err('map')
                if len(k)==1: self.err('empty map')
                k.append(self.op('}'))
                return self.mk('map_initializer',k)
            m=self.attempt(go)
            if m: return self.mk('map_creation_expression',[n,ty,self.f('value',m)])
            return self.mk('array_creation_expression',[n,ty,self.f('value',self.arrinit())])
        self.err('new')
    # --- queries
    def query(self):
        a=self.op('[')
        b=self.sosl() if self.iskw('find') else self.soql()
        return self.mk('query_expression',[a,b,self.op(']')])
    def comma(self,fn):
        k=[fn()]
        while self.isop(','): k+=[self.op(','),fn()]
        return k
    def soql(self):
        k=[]
        s=[self.kw('select','SELECT')]
        if self.iskw('count') and self.isop('(',1) and self.isop(')',2):
            s.append(self.mk('count_expression',[self.f('function_name',self.ident()),self.op('('),self.op(')')]))
        else: s+=self.comma(self.selectable)
        k.append(self.f('select_clause',self.mk('select_clause',s)))
        k.append(self.f('from_clause',self.mk('from_clause',[self.kw('from','FROM')]+self.comma(self.storage))))
        if self.iskw('using'): k.append(self.f('using_clause',self.using()))
        if self.iskw('where'): k.append(self.f('where_clause',self.where()))
        if self.iskw('with'): k.append(self.f('with_clause',self.soqlwith()))
        if self.iskw('group'): k.append(self.f('group_by_clause',self.groupby()))
        if self.iskw('order'): k.append(self.f('order_by_clause',self.orderby()))
        if self.iskw('limit'): k.append(self.f('limit_clause',self.mk('limit_clause',[self.kw('limit','LIMIT'),self.limitval()])))
        if self.iskw('offset'): k.append(self.f('offset_clause',self.mk('offset_clause',[self.kw('offset','OFFSET'),self.limitval()])))
        while self.iskw('for') or self.iskw('update') or self.iskw('all'):
            if self.iskw('for'): k.append(self.mk('for_clause',[self.kw('for','FOR')]+self.comma(lambda:self.leaf('for_type'))))
            elif self.iskw('update'): k.append(self.f('update_clause',self.mk('update_clause',[self.kw('update','UPDATE')]+self.comma(lambda:self.leaf('update_type')))))
            else: k.append(self.f('all_rows_clause',self.mk('all_rows_clause',[self.kw('all','ALL'),self.kw('rows','ROWS')])))
        return self.mk('soql_query_body',k)
    def limitval(self):
        return self.bound() if self.isop(':') else self.leaf('int')
    def bound(self):
        return self.mk('bound_apex_expression',[self.op(':'),self.boundexpr()])
    def boundexpr(self): return self.unary()
    def dotted(self):
        k=[self.ident()]
        while self.isop('.'): k+=[self.op('.'),self.ident()]
        return k[0] if len(k)==1 else self.mk('dotted_identifier',k)
    def fieldid(self): return self.mk('field_identifier',[self.dotted()])
    def valueexpr(self):
        if self.t()[0]=='id' and self.isop('(',1):
            nm=self.low()
            k=[self.f('function_name',self.ident()),self.op('(')]
            def arg():
                if self.isop(':'): return self.bound()
                if self.t()[0]=='str': return self.leaf('string_literal')
                if self.iskw('geolocation') and self.isop('(',1):
                    return self.mk('geo_location_type',[self.ident(),self.op('('),self.leaf('decimal'),self.op(','),self.leaf('decimal'),self.op(')')])
                return self.valueexpr()
            if not self.isop(')'):
                a=self.comma(arg)
                if nm=='distance':
                    if a[2].kind!='geo_location_type': a[2]=self.mk('geo_location_type',[a[2]])
                k+=a
            k.append(self.op(')'))
            return self.mk('function_expression',k)
        return self.fieldid()
    def selectable(self):
        if self.isop('('): return self.subquery()
        if self.iskw('typeof'): self.err('typeof')
        if self.iskw('fields') and self.isop('(',1):
            return self.mk('fields_expression',[self.kw('fields','FIELDS'),self.op('('),self.leaf('fields_type'),self.op(')')])
        v=self.valueexpr()
        if self.t()[0]=='id' and self.low() not in('from',) and v.kind: 
            if self.low() not in KWQ: return self.mk('alias_expression',[v,self.ident()])
        return v
    def subquery(self): return self.mk('subquery',[self.op('('),self.soql(),self.op(')')])
    def storage(self):
        s=self.mk('storage_identifier',[self.dotted()])
        if self.iskw('as'): return self.mk('storage_alias',[s,self.kw('as','AS'),self.ident()])
        if self.t()[0]=='id' and self.low() not in KWQ: return self.mk('storage_alias',[s,self.ident()])
        return s
    def using(self):
        u=self.kw('using','USING')
        if self.iskw('scope'): return self.mk('using_clause',[u,self.mk('using_scope_clause',[self.kw('scope','SCOPE'),self.leaf('using_scope_type')])])
        if self.iskw('listview'): return self.mk('using_clause',[u,self.mk('using_listview_clause',[self.kw('listview','ListView'),self.op('='),self.ident()])])
        self.err('using')
    def where(self): return self.mk('where_clause',[self.kw('where','WHERE')]+self.boolexpr())
    def boolexpr(self):
        """list of nodes (parentheses are hidden)"""
        if self.iskw('not'):
            return [self.mk('not_expression',[self.kw('not','NOT')]+self.condition())]
        c=self.condition()
        for o in('and','or'):
            if self.iskw(o):
                while self.iskw(o):
                    c.append(self.kw(o,o.upper()))
                    if self.iskw('not'): c.append(self.mk('not_expression',[self.kw('not','NOT')]+self.condition()))
                    else: c+=self.condition()
                return [self.mk(o+'_expression',c)]
        return c
    def condition(self):
        if self.isop('('):
            return [self.op('(')]+self.boolexpr()+[self.op(')')]
        v=self.valueexpr()
        return [self.mk('comparison_expression',[v]+self.comptail())]
    def comptail(self):
        t=self.t()
        for o in('>=',):
            n=self.adj(o)
            if n: return [self.leaf('value_comparison_operator',True,n),self.soqlval()]
        if t[0]=='op' and t[1] in('=','!=','<>','<','>','<=') : return [self.leaf('value_comparison_operator'),self.soqlval()]
        if self.iskw('like'): return [self.leaf('value_comparison_operator'),self.soqlval()]
        n=2 if self.iskw('not') else 1
        if self.low(n-1) in('in','includes','excludes'):
            o=self.leaf('set_comparison_operator',True,n)
            if self.isop(':'): return [o,self.bound()]
            if self.isop('(') and self.iskw('select',1): return [o,self.subquery()]
            return [o,self.mk('comparable_list',[self.op('(')]+self.comma(self.soqlval)+[self.op(')')])]
        self.err('comparison')
    def soqlval(self):
        if self.isop(':'): return self.bound()
        t=self.t()
        if t[0]=='str': return self.leaf('string_literal')
        if t[0]=='date': return self.leaf('date' if 'T' not in t[1] else 'date_time')
        if t[0]=='num': return self.leaf('decimal' if '.' in t[1] else 'int')
        if t[0]=='op' and t[1]=='-': return self.leaf('int' if '.' not in self.t(1)[1] else 'decimal',True,2)
        w=self.low()
        if w in('true','false'): return self.leaf('boolean')
        if w=='null': return self.leaf('null_literal')
        if w in DATEPAR: return self.mk('date_literal_with_param',[self.leaf('date_literal'),self.op(':'),self.leaf('int')])
        if w in DATELITS: return self.leaf('date_literal')
        self.err('soql literal')
    def soqlwith(self):
        w=self.kw('with','WITH'); l=self.low()
        if l in('security_enforced','user_mode','system_mode'): return self.mk('with_clause',[w,self.leaf('with_type')])
        if l=='userid': return self.mk('with_clause',[w,self.mk('with_type',[self.mk('with_user_id_type',[self.kw('userid','UserId'),self.op('='),self.leaf('string_literal')])])])
        return self.mk('with_clause',[w,self.mk('with_type',[self.withtype()])])
    def groupby(self):
        k=[self.kw('group','GROUP'),self.kw('by','BY')]+self.comma(self.valueexpr)
        if self.iskw('having'): k.append(self.mk('having_clause',[self.kw('having','HAVING')]+self.boolexpr()))
        return self.mk('group_by_clause',k)
    def orderby(self):
        def o():
            k=[self.valueexpr()]
            if self.low() in('asc','desc'): k.append(self.leaf('order_direction'))
            if self.iskw('nulls'): k.append(self.leaf('order_null_direction',True,2))
            return self.mk('order_expression',k)
        return self.mk('order_by_clause',[self.kw('order','ORDER'),self.kw('by','BY')]+self.comma(o))
    # --- SOSL
    def sosl(self):
        k=[]; fk=self.kw('find','FIND')
        if self.isop(':'): k.append(self.mk('find_clause',[fk,self.bound()]))
        else:
            t=self.t(); self.i+=1
            k.append(self.mk('find_clause',[fk,N("'",False,t[2],t[2]+1),N('term',True,t[2]+1,t[3]-1),N("'",False,t[3]-1,t[3])]))
        if self.iskw('in'): k.append(self.mk('in_clause',[self.kw('in','IN'),self.leaf('in_type'),self.kw('fields','FIELDS')]))
        if self.iskw('returning'): k.append(self.mk('returning_clause',[self.kw('returning','RETURNING')]+self.comma(self.sobjret)))
        while True:
            if self.iskw('with'): k.append(self.mk('with_clause',[self.kw('with','WITH'),self.mk('with_type',[self.withtype()])]))
            elif self.iskw('using'):
                u=self.kw('using','USING')
                k.append(self.mk('sosl_using_clause',[u,self.leaf('using_'+self.low()+'_search',True,2)]))
            elif self.iskw('limit'): k.append(self.mk('limit_clause',[self.kw('limit','LIMIT'),self.limitval()]))
            elif self.iskw('offset'): k.append(self.mk('offset_clause',[self.kw('offset','OFFSET'),self.limitval()]))
            elif self.iskw('update'): k.append(self.mk('update_clause',[self.kw('update','UPDATE')]+self.comma(lambda:self.leaf('update_type'))))
            else: break
        return self.mk('sosl_query_body',k)
    def sobjret(self):
        k=[self.ident()]
        if self.isop('('):
            k.append(self.op('('))
            k.append(self.mk('selected_fields',self.comma(self.selectable)))
            if self.iskw('using'): k.append(self.using())
            if self.iskw('where'): k.append(self.where())
            if self.iskw('order'): k.append(self.orderby())
            if self.iskw('limit'): k.append(self.mk('limit_clause',[self.kw('limit','LIMIT'),self.limitval()]))
            if self.iskw('offset'): k.append(self.mk('offset_clause',[self.kw('offset','OFFSET'),self.limitval()]))
            k.append(self.op(')'))
        return self.mk('sobject_return',k)
    def withtype(self):
        l=self.low()
        if l=='highlight': return self.leaf('with_highlight')
        if l=='data':
            k=[self.kw('data','DATA'),self.kw('category','CATEGORY')]
            while True:
                f=[self.ident(),self.leaf('with_data_cat_filter_type')]
                if self.isop('('): f+=[self.op('(')]+self.comma(self.ident)+[self.op(')')]
                else: f.append(self.ident())
                k.append(self.mk('with_data_cat_filter',f))
                if self.iskw('and'): k.append(self.kw('and','AND'))
                else: break
            return self.mk('with_data_cat_expression',k)
        if l=='division': return self.mk('with_division_expression',[self.kw('division','DIVISION'),self.op('='),self.bound() if self.isop(':') else self.leaf('string_literal')])
        if l=='snippet':
            k=[self.kw('snippet','SNIPPET')]
            if self.isop('('): k+=[self.op('('),self.kw('target_length','TARGET_LENGTH'),self.op('='),self.leaf('int'),self.op(')')]
            return self.mk('with_snippet_expression',k)
        if l=='network': return self.mk('with_network_expression',[self.kw('network','NETWORK')]+self.comptail())
        if l=='metadata': return self.mk('with_metadata_expression',[self.kw('metadata','METADATA'),self.op('='),self.leaf('string_literal')])
        if l=='spell_correction': return self.mk('with_spell_correction_expression',[self.kw('spell_correction','SPELL_CORRECTION'),self.op('='),self.leaf('boolean')])
        if l=='pricebookid': return self.mk('with_pricebook_expression',[self.kw('pricebookid','PriceBookId'),self.op('='),self.leaf('string_literal')])
        self.err('with')

KWQ=set('from where with group order limit offset for update all using having as and or not in like asc desc nulls'.split())

def insert_comment(n,c):
    for k in n.kids:
        if k.s<=c.s<k.e and k.kids and not k.extra: return insert_comment(k,c)
    j=0
    while j<len(n.kids) and n.kids[j].s<c.s: j+=1
    n.kids.insert(j,c)

def parse(src):
    p=P(src); r=p.root()
    for c in p.comments: insert_comment(r,c)
    return r

def dump(src,root,out):
    b=[0]; r=[0]
    for ch in src: b.append(b[-1]+len(ch.encode())); r.append(r[-1]+(ch=='\n'))
    def esc(s): return s.replace('\\','\\\\').replace('\n','\\n').replace('\t','\\t').replace('\r','\\r')
    def go(n):
        out.append('\t'.join([n.kind,'1' if n.named else '0','1' if n.extra else '0',n.field or '-',str(r[n.s]),str(r[n.e]),str(b[n.s]),str(b[n.e]),str(len(n.kids)),esc(src[n.s:n.e])]))
        for k in n.kids: go(k)
    go(root)

if __name__=='__main__':
    import glob
    ok=0; bad=[]
    for d in('static','prettier80','comments'):
        for f in sorted(glob.glob(f'/repo/tests/{d}/*.in')):
            try: parse(open(f,newline='').read()); ok+=1
            except PErr as e: bad.append((f,str(e)))
            except RecursionError as e: bad.append((f,'rec'))
    print(ok,len(bad))
    for x in bad: print(x[0][13:],x[1])
