import re,random,sys
L=open('/repo/src/compiler/autogen_copy/asn_compiler.hpp').read().split('\n')
start=next(i for i,l in enumerate(L) if 'asn1_parser::symbol_type yylex(Context& context_)' in l and i>11000)
code=[]; labels={}
i=start
while True:
    l=L[i].strip(); i+=1
    if i>start+5 and l=='}' and L[i].strip()=='' and False: break
    if i-start>30000 or i>=len(L): break
    m=re.match(r'^(yy\d+):$',l)
    if m: labels[m.group(1)]=len(code); continue
    if l.startswith('#line') or l=='' : continue
    if l.startswith('goto ') and code and re.match(r'^(case .*|default):$',code[-1]): code[-1]+=' '+l; continue
    code.append(l)
def ch(s):
    if s.startswith('0x'): return int(s,16)
    s=s[1:-1]
    return {'\\t':9,'\\v':11,'\\f':12,'\\n':10,'\\r':13,"\\'":39,'\\\\':92,'\\b':8,'\\a':7}.get(s) if s.startswith('\\') else ord(s)
def run(buf):
    # returns (action, n) or 'ub'
    cur=0;mark=None;acc=0;yych=None
    pc=next(k for k,l in enumerate(code) if l=='yych = *context_.cursor;')
    def rd(k):
        if k>=len(buf): raise IndexError
        return buf[k]
    steps=0
    while True:
        steps+=1
        l=code[pc]
        if l=='yych = *context_.cursor;': yych=rd(cur);pc+=1
        elif l=='++context_.cursor;': cur+=1;pc+=1
        elif l=='yych = *++context_.cursor;': cur+=1;yych=rd(cur);pc+=1
        elif l=='yych = *(YYMARKER = ++context_.cursor);': cur+=1;mark=cur;yych=rd(cur);pc+=1
        elif re.match(r'yyaccept = (\d+);',l): acc=int(re.match(r'yyaccept = (\d+);',l).group(1));pc+=1
        elif l=='context_.cursor = YYMARKER;': cur=mark;pc+=1
        elif l.startswith('switch (yych)') or l.startswith('switch (yyaccept)'):
            v=yych if 'yych' in l else acc
            pc+=1;tgt=None;pending=False
            while True:
                c=code[pc]
                if c=='}': break
                m=re.match(r"case (0x[0-9A-Fa-f]+|'(?:\\.|[^\\])'|\d+):\s*(goto (yy\d+);)?$",c)
                if m:
                    k=m.group(1); k=int(k) if k.isdigit() and 'yyaccept' in l else ch(k)
                    if k==v: pending=True
                    if m.group(2):
                        if pending and tgt is None: tgt=m.group(3)
                        pending=False
                else:
                    m=re.match(r'default:\s*goto (yy\d+);',c); assert m,c
                    if tgt is None: tgt=m.group(1)
                pc+=1
            assert tgt,(l,v)
            pc=labels[tgt]
        elif l.startswith('goto '): pc=labels[l[5:-1]]
        elif l.startswith('if (yych'):
            m=re.match(r"if \(yych (==|<=|>=|!=) (0x[0-9A-Fa-f]+|'(?:\\.|[^\\])')\) goto (yy\d+);",l); assert m,l
            k=ch(m.group(2)); ok={'==':yych==k,'<=':yych<=k,'>=':yych>=k,'!=':yych!=k}[m.group(1)]
            pc=labels[m.group(3)] if ok else pc+1
        elif l.startswith('{'):
            m=re.search(r'make_(\w+)',l)
            return (m.group(1) if m else 'skip',cur)
        else: raise Exception('??'+l)
random.seed(int(sys.argv[1]))
kws=re.findall(r'^"([A-Za-z0-9_-]+)" ',open('/repo/src/compiler/asn_compiler.yacc').read(),re.M)
frag=['-','--','/*','*/','*','/',"'",'"','0','1','7','12','.','..','...',':','::=','=','&','a','b','_','Z','B','H','F','\\','\n','\r','\r\n',' ','\t','\x00','{','é','x-','-y','<','|','\x80','\xff','""']
out=open('in.txt','w');exp=open('exp.txt','w')
for k in range(int(sys.argv[2])):
    s=''.join(random.choice(frag) if random.random()<.75 else random.choice(kws)[:random.randint(1,16)] for _ in range(random.randint(0,5)))+'\0'
    b=s.encode('latin1')
    try: r=run(b)
    except IndexError: r=('ub',0)
    out.write(' '.join(map(str,b))+'\n'); exp.write('%s %d\n'%r)
