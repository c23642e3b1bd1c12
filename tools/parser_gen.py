#!/usr/bin/env python3
"""Reads the grammar (src/compiler/asn_compiler.yacc) and the tables bison made of it (src/compiler/autogen_copy/asn_compiler.hpp), checks
that they belong together, and writes lean/Verif/Model/ParserTables.lean, Proofs/ParserGrammar.lean and Proofs/ParserStates.lean."""
import re, sys, os
REPO = '/repo/src/compiler/'
OUT = os.path.join(os.path.dirname(os.path.abspath(__file__)), '..', 'lean', 'Verif')
h = open(REPO + 'autogen_copy/asn_compiler.hpp').read()
y = open(REPO + 'asn_compiler.yacc').read()

# ---- the tables -------------------------------------------------------------------------------------------------
def tab(name):
    return re.search(r'asn1_parser::' + name + r'\[\] =\s*\{(.*?)\};', h, re.S).group(1)
def tabline(name):
    return h[:re.search(r'asn1_parser::' + name + r'\[\] =\s*\{', h).start()].count('\n') + 1
def ints(n): return [int(x) for x in re.findall(r'-?\d+', tab(n))]
names = ['yypact_', 'yydefact_', 'yypgoto_', 'yydefgoto_', 'yytable_', 'yycheck_', 'yystos_', 'yyr1_', 'yyr2_']
T = {n: ints(n) for n in names}
tn = [s[1:-1].replace('\\"', '"').replace('\\\\', '\\') for s in re.findall(r'"(?:[^"\\]|\\.)*"', tab('yytname_'))]
const = {c: int(re.search(c + r' = (-?\d+)', h).group(1)) for c in ['yylast_', 'yynnts_', 'yyfinal_', 'yyntokens_']}
for c in ['yypact_ninf_', 'yytable_ninf_']:
    const[c] = int(re.search(r'asn1_parser::' + c + r' = (-?\d+)', h).group(1))
NT, LAST, PN, TN = const['yyntokens_'], const['yylast_'], const['yypact_ninf_'], const['yytable_ninf_']

# ---- the rules of the grammar -----------------------------------------------------------------------------------
head, body = y.split('%%')[0], y.split('%%')[1]
body = re.sub(r'/\*.*?\*/', lambda m: '\n' * m.group(0).count('\n'), body, flags=re.S)
body = re.sub(r'//[^\n]*', '', body)
toks, i, line = [], 0, head.count('\n') + 1
while i < len(body):
    c = body[i]
    if c == '\n': line += 1; i += 1; continue
    if c.isspace(): i += 1; continue
    if c == '"':
        m = re.match(r'"(?:[^"\\]|\\.)*"', body[i:]); toks.append((m.group(0), line)); i += m.end(); continue
    if c == '{':
        d, j = 0, i
        while True:
            if body[j] == '"':
                j += re.match(r'"(?:[^"\\]|\\.)*"', body[j:]).end(); continue
            d += {'{': 1, '}': -1}.get(body[j], 0)
            if d == 0: break
            j += 1
        toks.append((('ACT', body[i:j + 1]), line)); line += body[i:j + 1].count('\n'); i = j + 1; continue
    m = re.match(r'[%\w.-]+|[:|;]', body[i:])
    toks.append((m.group(0), line)); i += m.end()
rules, cur, k = [], None, 0
while k < len(toks):
    t, l = toks[k]
    if k + 1 < len(toks) and toks[k + 1][0] == ':' and isinstance(t, str):
        if cur is not None: rules.append((lhs, cur, act_, rline))
        lhs, cur, act_ = t, [], None; k += 2; rline = toks[k][1]; continue
    if t == '|':
        rules.append((lhs, cur, act_, rline)); cur, act_ = [], None; rline = toks[k + 1][1]
    elif isinstance(t, tuple): act_ = t[1]
    elif t not in (';', '%empty'): cur.append(t)
    k += 1
rules.append((lhs, cur, act_, rline))
nts = {r[0] for r in rules}
reach, ch = {rules[0][0]}, True
while ch:                      # bison drops unreachable rules
    ch = False
    for l, c, a, ln in rules:
        if l in reach:
            for s in c:
                if s in nts and s not in reach: reach.add(s); ch = True
rules = [r for r in rules if r[0] in reach]
alias = dict(re.findall(r'%token (\w+) ("(?:[^"\\]|\\.)*")', y))
alias = {a: b.replace("\\'", "'") for a, b in alias.items()}
name2sym = {}
for i, s in enumerate(tn): name2sym.setdefault(s, i)
def sym(x):
    x = alias.get(x, x)
    x = x.replace("\\'", "'") if x.startswith('"') else x
    if x in name2sym: return name2sym[x]
    if x == '"\\""': return name2sym['"""']
    return None
G = [None, (T['yyr1_'][1], [sym('ModuleDefinitionList'), 0])]
for l, c, a, ln in rules: G.append((sym(l), [sym(x) for x in c]))
RULE = [None, None] + rules
assert all(None not in c and l is not None for l, c in G[1:])
# the tables belong to this grammar
assert len(G) == len(T['yyr1_']) and all(G[r][0] == T['yyr1_'][r] and len(G[r][1]) == T['yyr2_'][r] for r in range(1, len(G)))
# and so do the actions
types = dict((n, t) for t, n in re.findall(r'%type<(.*)>\s+(\w+)', y))
seg = h[h.index('Perform the reduction'):]
blocks = re.split(r'\n  case (\d+):\n', seg)
for i in range(1, len(blocks), 2):
    r = int(blocks[i])
    m = re.match(r'#line (\d+) "[^"]*"[^\n]*\n(.*?)\n#line \d+ "', blocks[i + 1], re.S)
    if not m: continue
    L = len(G[r][1])
    a = re.sub(r'\s+', '', m.group(2))
    a = re.sub(r'yylhs\.value\.as<.*?>\(\)', '$$', a)
    a = re.sub(r'yystack_\[(\d+)\]\.value\.as<.*?>\(\)', lambda m: '$' + str(L - int(m.group(1))), a)
    if RULE[r][2] is None:     # the default action
        assert a == '{$$=$1;}' and types[RULE[r][0]] == types[RULE[r][1][0]], r
        RULE[r] = RULE[r][:2] + ('{ $$ = $1; }',) + RULE[r][3:]
    else: assert a == re.sub(r'\s+', '', RULE[r][2]), r

def act(s, t):
    n = T['yypact_'][s]
    if n != PN:
        n += t
        if 0 <= n <= LAST and T['yycheck_'][n] == t:
            n = T['yytable_'][n]
            if n <= 0: return ('err',) if n == TN else ('red', -n)
            return ('shift', n)
    n = T['yydefact_'][s]
    return ('err',) if n == 0 else ('red', n)
def goto(s, x):
    r = T['yypgoto_'][x - NT] + s
    return T['yytable_'][r] if 0 <= r <= LAST and T['yycheck_'][r] == s else T['yydefgoto_'][x - NT]

# ---- Model/ParserTables.lean ------------------------------------------------------------------------------------
HEAD = 'This file is made by tools/parser_gen.py from src/compiler/asn_compiler.yacc and src/compiler/autogen_copy/asn_compiler.hpp.\n'
def words(l):                  # little-endian 16-bit words
    return '0x' + ''.join('%04x' % (x % 65536) for x in reversed(l))
def write(name, text):
    p = os.path.join(OUT, name)
    if not os.path.exists(p) or open(p).read() != text: open(p, 'w').write(text)
kwmap = {}
for m in re.finditer(r'^"((?:[^"\\]|\\.)*)"\s+\{.*?make_(\w+) \(context_', y, re.M):
    kwmap[m.group(1).replace('\\.', '.')] = sym(m.group(2))
kwmap = {k: (v if v is not None else name2sym.get('"' + k + '"')) for k, v in kwmap.items()}
assert all(v is not None and v < NT for v in kwmap.values()), kwmap
KW = sorted(kwmap.items(), key=lambda kv: kv[1])
valued = {'number': 4, 'negativenumber': 5, 'realnumber': 6, 'bstring': 7, 'hstring': 9, 'cstring': 11, 'typefieldreference': 24,
          'valuefieldreference': 25, 'GENERIC_IDENTIFIER_UPPERCASE': 149, 'GENERIC_IDENTIFIER_LOWERCASE': 150}
for n, v in valued.items(): assert sym(n) == v, (n, sym(n))
lean = {'yypact_': 'yypact', 'yydefact_': 'yydefact', 'yypgoto_': 'yypgoto', 'yydefgoto_': 'yydefgoto', 'yytable_': 'yytable',
        'yycheck_': 'yycheck', 'yyr1_': 'yyr1', 'yyr2_': 'yyr2', 'yystos_': 'yystos'}
o = 'import Verif.Model.Lexer\n/-!\n# The tables of the parser\n\n' + HEAD + '''The tables are kept as one number each, made of 16-bit words in two's complement, the entry with index 0 in the least significant word.
-/
namespace FastBer.Parser
open FastBer Lexer

/-- Entry `i` of a table.  (`yypact_[i]` and so on, autogen_copy/asn_compiler.hpp:9900-11340) -/
def entry (table : Nat) (i : Nat) : Int :=
  let w := (table >>> (16 * i)) % 65536
  if w < 32768 then (w : Int) else (w : Int) - 65536

/-- Entry `i` of a table without negative entries.  (`yypact_[i]` and so on, autogen_copy/asn_compiler.hpp:9900-11340) -/
def entryNat (table : Nat) (i : Nat) : Nat := (table >>> (16 * i)) % 65536
'''
for n in names:
    assert all(-32768 <= x < 32768 for x in T[n])
    o += '\n/-- `%s` (autogen_copy/asn_compiler.hpp:%d), %d entries. -/\ndef %s : Nat :=\n  %s\n' % (n, tabline(n), len(T[n]), lean[n], words(T[n]))
def cline(c): return h[:h.index(re.search(r'(asn1_parser::)?' + c + r' = ', h).group(0))].count('\n') + 1
for c, nm in [('yylast_', 'yylast'), ('yyfinal_', 'yyfinal'), ('yyntokens_', 'yyntokens')]:
    o += '\n/-- `%s` (autogen_copy/asn_compiler.hpp:%d). -/\ndef %s : Nat := %d\n' % (c, cline(c), nm, const[c])
for c, nm in [('yypact_ninf_', 'yypactNinf'), ('yytable_ninf_', 'yytableNinf')]:
    o += '\n/-- `%s` (autogen_copy/asn_compiler.hpp:%d). -/\ndef %s : Int := %d\n' % (c, cline(c), nm, const[c])
o += '\n/-- The numbers of keywords and symbols: what `make_...` of the rule of the lexer returns (asn_compiler.yacc:1831-1973). -/\ndef symNumbers : List (String × Nat) :=\n  ['
line = ''
for i, (k, v) in enumerate(KW):
    s = '("%s", %d)' % (k, v) + (', ' if i + 1 < len(KW) else ']')
    if len(line) + len(s) > 120: o += line.rstrip() + '\n   '; line = ''
    line += s
o += line + '\n\nend FastBer.Parser\n'
write('Model/ParserTables.lean', o)

# ---- Model/ParserActions.lean -----------------------------------------------------------------------------------
klass = {'std::string': 'str', 'double': 'real', 'int64_t': 'int', 'int': 'int', 'DefinedValue': 'defined', 'EnumeratedType': 'enums',
         'EnumerationValue': 'enumItem', 'std::vector<Export>': 'none', 'std::vector<ClassField>': 'fields',
         'std::vector<std::string>': 'strs', 'ObjectClassAssignment': 'fields', 'Module': 'module_', 'std::vector<NamedType>': 'nameds',
         'std::vector<Assignment>': 'assignments', 'Assignment': 'assignment', 'std::vector<Type>': 'types', 'Class': 'cls',
         'NamedType': 'named', 'NamedNumber': 'num', 'std::vector<NamedNumber>': 'nums', 'ComponentType': 'comp',
         'ComponentTypeList': 'comps', 'Collection': 'collection', 'Value': 'value', 'BooleanValue': 'bool', 'TimeValue': 'time',
         'std::vector<Value>': 'values', 'std::vector<Import>': 'imports', 'Import': 'import_', 'TaggingMode': 'mode', 'Tag': 'tag',
         'ObjectIdComponentValue': 'oid', 'std::vector<ObjectIdComponentValue>': 'oids', 'std::vector<Parameter>': 'params',
         'Parameter': 'param', None: 'none'}
leafs = {'BitStringType': 'bitString', 'BooleanType': 'boolean', 'DateType': 'date', 'DateTimeType': 'dateTime', 'DurationType': 'duration',
         'EmbeddedPDVType': 'embeddedPDV', 'ExternalType': 'external', 'InstanceOfType': 'instanceOf', 'IntegerType': 'integer',
         'IRIType': 'iri', 'NullType': 'null', 'ObjectIdentifierType': 'objectIdentifier', 'OctetStringType': 'octetString',
         'RealType': 'real', 'RelativeIRIType': 'relativeIRI', 'RelativeOIDType': 'relativeOID', 'TimeType': 'time',
         'TimeOfDayType': 'timeOfDay', 'GeneralizedTimeType': 'generalizedTime', 'UTCTimeType': 'utcTime', 'AnyType': 'any',
         'ObjectDescriptorType': 'objectDescriptor'}
leafOf = leafs
klass.update({t: 'type' for t in list(leafs) + ['Type', 'BuiltinType', 'CharacterStringType', 'ChoiceType', 'ObjectClassFieldType',
    'SequenceType', 'SequenceOfType', 'SetType', 'SetOfType', 'PrefixedType', 'TaggedType', 'DefinedType']})
GET = {'str': 'asStr', 'int': 'asInt', 'real': 'asReal', 'defined': 'asDefined', 'type': 'asType', 'types': 'asTypes', 'named': 'asNamed',
       'nameds': 'asNameds', 'comp': 'asComp', 'comps': 'asComps', 'cls': 'asCls', 'mode': 'asMode', 'value': 'asValue', 'values': 'asValues',
       'bool': 'asBool', 'time': 'asTime', 'strs': 'asStrs', 'fields': 'asFields', 'assignment': 'asAssignment',
       'assignments': 'asAssignments', 'param': 'asParam', 'params': 'asParams', 'import_': 'asImport', 'imports': 'asImports',
       'oids': 'asOids', 'nums': 'asNums'}
tags = {'bmp_string': 30, 'general_string': 27, 'graphic_string': 25, 'ia5_string': 22, 'iso646_string': 26, 'numeric_string': 18,
        'printable_string': 19, 'teletex_string': 20, 't61_string': 20, 'universal_string': 28, 'utf8_string': 12, 'videotex_string': 21,
        'visible_string': 26, 'character_string': 29}
def g(k, cl): return '(arg v %s).%s' % (k, GET[cl])
def dflt(ty):
    cl = klass[ty]
    if cl == 'type':
        if ty in leafs: return '.type (.leaf .%s)' % leafs[ty]
        if ty == 'DefinedType': return '.type (.defined none "" [])'
        assert ty in ('Type', 'BuiltinType'), ty
        return '.type (.leaf .any)'
    return {'none': '.none', 'fields': '.fields []', 'str': '.str ""', 'module_': '.module_ [] []', 'imports': '.imports []',
            'defined': '.defined ""', 'value': '.value (.list [])', 'enums': '.enums [] false', 'int': '.int 0', 'oid': '.oid none none',
            'time': '.time ""'}[cl]
def selection(x, k):           # $$.value_selection = $k
    t = types.get(x)
    if x in ('GENERIC_IDENTIFIER_UPPERCASE', 'bstring', 'hstring', 'cstring'): return '.value (.str %s)' % g(k, 'str')
    if x == 'realnumber': return '.value (.real (stod %s))' % g(k, 'real')
    return {'int64_t': '.value (.int %s)' % g(k, 'int'), 'DefinedValue': '.value (.defined %s)' % g(k, 'defined'),
            'BooleanValue': '.value (.bool %s)' % g(k, 'bool'), 'TimeValue': '.value (.time %s)' % g(k, 'time'),
            'std::vector<Value>': '.value (.list %s)' % g(k, 'values')}[t]
def action(r):
    l, c, a, ln = RULE[r]
    ty, a = types.get(l), a or '{}'
    a = re.sub(r'feature_not_implemented\((?:[^()"]|"[^"]*")*\);', '', ' '.join(a.split()))
    a = re.sub(r'std::cerr <<(?:[^;"]|"[^"]*")*;', '', a)
    a = re.sub(r'\s+', '', a)
    cl = klass[ty]
    S = lambda e: 'sets fun v => ' + e
    C = lambda e: 'sets fun _ => ' + e
    if a == '{}': return C(dflt(ty))
    m = re.fullmatch(r'\{\$\$=\$(\d+);\}', a)
    if m:
        k = m.group(1)
        if l == 'ClassNumber': return S('.int (wrap32 %s)' % g(k, 'int'))
        if cl == 'oid': return S('let o := (arg v %s).asOid; .oid o.1 o.2' % k)
        if cl == 'enums': return S('arg v %s' % k)
        return S('.%s %s' % (cl, g(k, cl)))
    m = re.fullmatch(r'\{\$\$=CharacterStringType::(\w+);\}', a)
    if m: return C('.type (.leaf .t61String)' if m.group(1) == 't61_string' else '.type (.leaf (.charString %d))' % tags[m.group(1)])
    m = re.fullmatch(r'\{\$\$=TaggingMode::(\w+);\}', a)
    if m: return C('.mode .%s' % m.group(1))
    m = re.fullmatch(r'\{\$\$=Class::(\w+);\}', a)
    if m: return C('.cls .%s' % {'context_specific': 'contextSpecific'}.get(m.group(1), m.group(1)))
    m = re.fullmatch(r'\{\$\$=(\w+Type)(\(\)|\{\}|\{\{\}\});\}', a)
    if m:
        t = m.group(1)
        if t in leafs: return C('.type (.leaf .%s)' % leafs[t])
        return C('.type (.%s [] false)' % {'SequenceType': 'sequence', 'SetType': 'set'}[t])
    m = re.fullmatch(r'\{\$\$=(SetOf|SequenceOf)Type\{(true|false),(.*)\};\}', a)
    if m:
        k = re.search(r'\$(\d)', m.group(3)).group(1)
        c2 = 'setOf' if m.group(1) == 'SetOf' else 'seqOf'
        if m.group(2) == 'false': return S('.type (.%s none %s .smallBuffer)' % (c2, g(k, 'type')))
        return S('.type (.%s (some %s.name) %s.type .smallBuffer)' % (c2, g(k, 'named'), g(k, 'named')))
    m = re.fullmatch(r'\{\$\$=TaggedType\{\$1,TaggingMode::(\w+),\$(\d)\};\}', a)
    if m: return S('tagged (arg v 1).asTag .%s %s' % (m.group(1), g(m.group(2), 'type')))
    m = re.fullmatch(r'\{\$\$\.value_selection=\$(\d);\}', a)
    if m: return S(selection(c[int(m.group(1)) - 1], m.group(1)))
    m = re.fullmatch(r'\{\$\$\.push_back\(\$1\);\}', a)
    if m:
        e = {'strs': 'str', 'params': 'param', 'imports': 'import_', 'assignments': 'assignment', 'types': 'type', 'values': 'value',
             'oids': 'oid'}[cl]
        return S('.%s [%s]' % (cl, '(arg v 1).asOid' if e == 'oid' else g(1, e)))
    m = re.fullmatch(r'\{\$\$=\$(\d);\$\$\.push_back\(\$(\d)\);\}', a) or re.fullmatch(r'\{\$(\d)\.push_back\(\$(\d)\);\$\$=\$1;\}', a)
    if m:
        e = {'strs': 'str', 'params': 'param', 'imports': 'import_', 'assignments': 'assignment', 'types': 'type', 'values': 'value',
             'comps': 'comp', 'nameds': 'named', 'oids': 'oid', 'nums': 'num'}[cl]
        if e == 'oid': return S('.oids ((arg v %s).asOids ++ [(arg v %s).asOid])' % m.groups())
        if e == 'num': return S('.nums ((arg v %s).asNums ++ [(arg v %s).asNum])' % m.groups())
        return S('.%s (%s ++ [%s])' % (cl, g(m.group(1), cl), g(m.group(2), e)))
    def coll(m2):
        parts = re.findall(r'\$(\d+)', m2)
        return parts
    if cl == 'collection':
        e = 'true' if 'allow_extensions=true' in a else 'false'
        a2 = a.replace('$$.allow_extensions=true;', '')
        m = re.fullmatch(r'\{\$\$\.components=(\$\d+|\{\});((?:\$\$\.components\.insert\(\$\$\.components\.end\(\),\$(\d+)\.begin\(\),\$\3\.end\(\)\);)*)\}',
                         a2) if a2.count('insert') < 2 else True
        if a2.count('insert') == 2:
            assert a2 == '{$$.components=$1;$$.components.insert($$.components.end(),$6.begin(),$6.end());$$.components.insert($$.components.end(),$10.begin(),$10.end());}'
            return S('.collection ((arg v 1).asComps ++ (arg v 6).asComps ++ (arg v 10).asComps) %s' % e)
        assert m, a
        if m.group(1) == '{}': return C('.collection [] %s' % e)
        first = g(m.group(1)[1:], 'comps')
        return S('.collection (%s ++ %s) %s' % (first, g(m.group(3), 'comps'), e) if m.group(3) else '.collection %s %s' % (first, e))
    A = {
     '{$8.module_reference=$1;$8.tagging_default=$4;context_.asn1_tree.modules.push_back($8);}':
       'fun v st => (.none, { st with modules := st.modules ++ [⟨(arg v 1).asStr, (arg v 4).asMode, (arg v 8).asModule.1, (arg v 8).asModule.2⟩] })',
     '{$$="TYPE-IDENTIFIER";}': C('.str "TYPE-IDENTIFIER"'),
     '{$$=Assignment{$1,$3};}': S('.assignment { name := (arg v 1).asStr, body := .objectClass (arg v 3).asFields }'),
     '{$$={$3};}': S('.fields (arg v 3).asFields'),
     '{$$=$1;$$.insert($$.end(),$3.begin(),$3.end());}': S('.fields ((arg v 1).asFields ++ (arg v 3).asFields)'),
     '{for(conststd::string&name:$1)$$.push_back(ClassField{name,TypeField{}});}':
       S('.fields ((arg v 1).asStrs.map fun n => ⟨n, none⟩)'),
     '{$$.push_back(ClassField{$1,FixedTypeValueField{$2}});}': S('.fields [⟨(arg v 1).asStr, some (arg v 2).asType⟩]'),
     '{$$=Assignment{$1,ObjectSetAssignment{}};}': S('.assignment { name := (arg v 1).asStr, body := .objectSet }'),
     '{$$={DefinedType{{},},$3};}': S('.type (.objField none "" (arg v 3).asStrs)'),
     '{$$={DefinedType{{},$1},$3};}': S('.type (.objField none (arg v 1).asStr (arg v 3).asStrs)'),
     '{$$=Assignment{$1,TypeAssignment{$4},{},$2};}':
       S('.assignment { name := (arg v 1).asStr, body := .type (arg v 4).asType, params := (arg v 2).asParams }'),
     '{$$=Assignment{$1,ValueAssignment{}};}': S('.assignment { name := (arg v 1).asStr, body := .value (.leaf .any) (.list []) }'),
     '{$$=Assignment{$1,ObjectClassAssignment{}};}': S('.assignment { name := (arg v 1).asStr, body := .objectClass [] }'),
     '{$$=Parameter{$1,$3};}': S('.param ⟨some (arg v 1).asType, (arg v 3).asStr⟩'),
     '{$$=Parameter{{},$1};}': S('.param ⟨none, (arg v 1).asStr⟩'),
     '{$$=DefinedType{{},$1};}': S('.type (.defined none (arg v 1).asStr [])'),
     '{$$=Module{{},TaggingMode(),$1,$2,$3};}': S('.module_ (arg v 2).asImports (arg v 3).asAssignments'),
     '{$$=DefinedType{absl::nullopt,$1,{}};}': S('.type (.defined none (arg v 1).asStr [])'),
     '{$$=DefinedValue{$1};}': S('.defined (arg v 1).asStr'),
     '{$$=DefinedType{absl::nullopt,$1,$3};}': S('.type (.defined none (arg v 1).asStr (arg v 3).asTypes)'),
     '{$$=DefinedType{$1,$3,{}};}': S('.type (.defined (some (arg v 1).asStr) (arg v 3).asStr [])'),
     '{$$=Assignment{$1,TypeAssignment{$3},{}};}': S('.assignment { name := (arg v 1).asStr, body := .type (arg v 3).asType }'),
     '{$$=Assignment{$1,TypeAssignment{$2},{}};}': S('.assignment { name := (arg v 1).asStr, body := .type (arg v 2).asType }'),
     '{$$=Assignment{$1,ValueAssignment{$2,$4},{}};}':
       S('.assignment { name := (arg v 1).asStr, body := .value (arg v 2).asType (arg v 4).asValue }'),
     '{$$=NamedType{$1,$2};}': S('.named (.mk (arg v 1).asStr (arg v 2).asType)'),
     '{$$.value_selection=BitStringValue{$1};}': S('.value (.bits (arg v 1).asStr)'),
     '{$$.value_selection=HexStringValue{$1};}': S('.value (.hex (arg v 1).asStr)'),
     '{$$.value_selection=CharStringValue{$1};}': S('.value (.chars (arg v 1).asStr)'),
     '{$$.value_selection=NamedNumber{$1,$3};}': S('.value (.namedNumber (arg v 1).asStr (arg v 3).asInt)'),
     '{$$.value_selection=NullValue{};}': C('.value .null'),
     '{$$={true};}': C('.bool true'),
     '{$$={false};}': C('.bool false'),
     '{$$=IntegerType{$3};}': C('.type (.leaf .integer)'),
     '{$$={$1};}': S('.nums [(arg v 1).asNum]'),
     '{$$=NamedNumber{$1,$3};}': S('.num (arg v 1).asStr (arg v 3).asInt'),
     '{$$=NamedNumber{$1,0};}': S('.num (arg v 1).asStr 0'),
     '{$$=$1;$$.accept_anything=false;}': S('.enums (arg v 1).asEnums false'),
     '{$$=$1;$$.accept_anything=true;}': S('.enums (arg v 1).asEnums true'),
     '{$$=$1;$$.accept_anything=true;$$.enum_values.insert($$.enum_values.end(),$6.enum_values.begin(),$6.enum_values.end());}':
       S('.enums ((arg v 1).asEnums ++ (arg v 6).asEnums) true'),
     '{$$.enum_values.push_back($1);}': S('.enums [(arg v 1).asEnumItem] false'),
     '{$$=$1;$$.enum_values.push_back($3);}': S('.enums ((arg v 1).asEnums ++ [(arg v 3).asEnumItem]) false'),
     '{$$.name=$1;}': S('.enumItem (arg v 1).asStr none') if cl == 'enumItem' else S('.oid (some (arg v 1).asStr) none'),
     '{$$.name=$1.name;$$.value=$1.number;}': S('.enumItem (arg v 1).asNum.1 (some (arg v 1).asNum.2)'),
     '{$$.value=$1;}': S('.oid none (some (arg v 1).asInt)'),
     '{$$=$3;$$.name=$1;}': S('.oid (some (arg v 1).asStr) (arg v 3).asOid.2'),
     '{$$=SequenceType{$3};}': S('.type (.sequence (arg v 3).asCollection.1 (arg v 3).asCollection.2)'),
     '{$$=SetType{$3};}': S('.type (.set (arg v 3).asCollection.1 (arg v 3).asCollection.2)'),
     '{$$=ComponentTypeList{$1};}': S('.comps [(arg v 1).asComp]'),
     '{$$=ComponentType{{gen_anon_member_name(),$1},false,absl::nullopt,absl::nullopt,StorageMode::static_};}': 'anonComp false fun _ => none',
     '{$$=ComponentType{{gen_anon_member_name(),$1},true,absl::nullopt,absl::nullopt,StorageMode::static_};}': 'anonComp true fun _ => none',
     '{$$=ComponentType{{gen_anon_member_name(),$1},false,$3,absl::nullopt,StorageMode::static_};}':
       'anonComp false fun v => some (arg v 3).asValue',
     '{$$=ComponentType{$1,false,absl::nullopt,absl::nullopt,StorageMode::static_};}':
       S('.comp (.mk (arg v 1).asNamed.name (arg v 1).asNamed.type false none none .static_)'),
     '{$$=ComponentType{$1,true,absl::nullopt,absl::nullopt,StorageMode::static_};}':
       S('.comp (.mk (arg v 1).asNamed.name (arg v 1).asNamed.type true none none .static_)'),
     '{$$=ComponentType{$1,false,$3,absl::nullopt,StorageMode::static_};}':
       S('.comp (.mk (arg v 1).asNamed.name (arg v 1).asNamed.type false (some (arg v 3).asValue) none .static_)'),
     '{$$=ComponentType{{},false,absl::nullopt,$3,StorageMode::static_};}':
       S('.comp (.mk "" (.leaf .any) false none (some (arg v 3).asType) .static_)'),
     '{$$=ChoiceType{$3,StorageMode::static_};}': S('.type (.choice (arg v 3).asNameds .static_)'),
     '{$$=$1;$$.insert($$.begin(),$5.begin(),$5.end());}': S('.nameds ((arg v 5).asNameds ++ (arg v 1).asNameds)'),
     '{$$=std::vector<NamedType>{$1};}': S('.nameds [(arg v 1).asNamed]'),
     '{$$=PrefixedType($1);}': S('.type (arg v 1).asType'),
     '{$$=Tag{$3,$4};}': S('.tag (arg v 3).asCls (arg v 4).asInt'),
     '{$$=$2;std::reverse($$.begin(),$$.end());}': S('.oids (arg v 2).asOids.reverse'),
     '{$$=$3;std::reverse($$.begin(),$$.end());}': S('.oids (arg v 3).asOids.reverse'),
    }
    if l == 'SymbolsFromModule': return S('.import_ (importOf (arg v 3).asStr (arg v 1).asStrs)')
    return A[a]
ACT = {r: action(r) for r in range(2, len(G))}
CH = 24
o = 'import Verif.Model.ParserValues\n/-!\n# The actions of the parser\n\n' + HEAD + '''One action for every rule of the grammar, in the order of bison's rule numbers.  Messages to `std::cerr` are left out.
-/
namespace FastBer.Parser
open FastBer Ast
'''
nch = (len(G) + CH - 1) // CH
for c in range(nch):
    lo, hi = c * CH, min((c + 1) * CH, len(G))
    lns = [RULE[r][3] for r in range(lo, hi) if r >= 2]
    o += '\n/-- The actions of rules %d to %d (asn_compiler.yacc:%d-%d). -/\ndef actions%d (stod : Bytes → UInt64) : List Act := [\n' % (lo, hi - 1, lns[0], lns[-1], c)
    for r in range(lo, hi):
        if r < 2: o += '  sets fun _ => .none%s -- %d\n' % (',' if r + 1 < hi else ']', r); continue
        l, rhs, a, ln = RULE[r]
        o += '  -- %d (%d) %s: %s\n  %s%s\n' % (r, ln, l, ' '.join(rhs), ACT[r], ',' if r + 1 < hi else ']')
    if 'stod' not in o[o.rindex('List Act :='):]: o = o[:o.rindex('(stod :')] + '(_ :' + o[o.rindex('(stod :') + 7:]
o += '''
/-- The action of rule `r` (autogen_copy/asn_compiler.hpp, `switch (yyn)` in `parse`).  `stod`: `std::stod`, which makes a `double` of the text of a
real number (asn_compiler.yacc:1933). -/
def action (stod : Bytes → UInt64) (r : Nat) : Act :=
  ([%s].getD (r / %d) []).getD (r %% %d) (sets fun _ => .none)

end FastBer.Parser
''' % (', '.join('actions%d stod' % c for c in range(nch)), CH, CH)
write('Model/ParserActions.lean', o)

# ---- the refined grammar (tools/parser_notation.txt) --------------------------------------------------------------
ruleno = {}
for r in range(2, len(G)): ruleno.setdefault((G[r][0], tuple(G[r][1])), r)
SPEC = open(os.path.join(os.path.dirname(os.path.abspath(__file__)), 'parser_notation.txt')).read()
lines_ = [l.split('->') for l in SPEC.strip().split('\n') if l.strip()]
lhss = []
for a, b in lines_:
    if a.strip() not in lhss: lhss.append(a.strip())
base = lambda x: sym(x.split("'")[0]) if not x.startswith('"') else sym(x)
NSYM = NT + const['yynnts_']
REF = [x for x in lhss if "'" in x]
num = {x: (NSYM + REF.index(x) if x in REF else sym(x)) for x in lhss}
bof = lambda n: n if n < NSYM else base(REF[n - NSYM])
PROD = [(sym('$accept'), 1, [num['ModuleDefinitionList'], 0])]
NAMES = ['']
cnt = {}
for a, b in lines_:
    a, b = a.strip(), b.split()
    rhs = [num[x] if x in num else base(x) for x in b]
    assert None not in rhs and all(x in num or base(x) < NT for x in b), (a, b)
    r = ruleno[(base(a), tuple(base(x) for x in b))]
    assert (num[a], r, rhs) not in PROD
    PROD.append((num[a], r, rhs))
    cnt[a] = cnt.get(a, 0) + 1
    NAMES.append(a.replace("'", '_') + '_%d' % cnt[a])
BY = {}
for i, (l, r, c) in enumerate(PROD): BY.setdefault(l, []).append(i)
nul, first, ch = set(), {l: set() for l in BY}, True
while ch:
    ch = False
    for l, r, c in PROD[1:]:
        n0, an = len(first[l]), True
        for x in c:
            if x < NT: first[l].add(x); an = False; break
            first[l] |= first[x]
            if x not in nul: an = False; break
        if an and l not in nul: nul.add(l); ch = True
        if len(first[l]) != n0: ch = True
def fst(beta, la):
    out = set()
    for x in beta:
        if x < NT: out.add(x); return out
        out |= first[x]
        if x not in nul: return out
    return out | la
items, work, bad = {0: {(0, 0): set()}}, [0], []
while work:
    s = work.pop(); it = items[s]; ch = True
    while ch:
        ch = False
        for (i, d), la in list(it.items()):
            c = PROD[i][2]
            if d < len(c) and c[d] >= NT:
                f = fst(c[d + 1:], la)
                for q in BY[c[d]]:
                    if (q, 0) not in it: it[(q, 0)] = set(f); ch = True
                    elif not f <= it[(q, 0)]: it[(q, 0)] |= f; ch = True
    for (i, d), la in it.items():
        c = PROD[i][2]
        if d < len(c):
            if c[d] < NT:
                a = act(s, c[d])
                if a[0] != 'shift': bad.append((s, i, d, a)); continue
                s2 = a[1]
            else: s2 = goto(s, bof(c[d]))
            tgt = items.setdefault(s2, {})
            if (i, d + 1) not in tgt: tgt[(i, d + 1)] = set(la); work.append(s2)
            elif not la <= tgt[(i, d + 1)]: tgt[(i, d + 1)] |= la; work.append(s2)
for s, it in items.items():
    for (i, d), la in it.items():
        if d == len(PROD[i][2]) and i:
            for t in la:
                if act(s, t) != ('red', PROD[i][1]): bad.append((s, i, d, t))
assert not bad, bad
mask = lambda st: sum(1 << t for t in st)
MASKS = sorted({mask(la) for it in items.values() for la in it.values()})
maxitems = max(len(it) for it in items.values())
assert len(PROD) < 1023 and len(MASKS) < 1024
def wrap(entries, sep=', ', indent='   ', width=138):
    o, line = '', ''
    for i, e in enumerate(entries):
        e = e + (sep if i + 1 < len(entries) else '')
        if line and len(line) + len(e) > width: o += line.rstrip() + '\n' + indent; line = ''
        line += e
    return o + line
def chunks(l, n): return [l[i:i + n] for i in range(0, len(l), n)]
def ident(x):
    if x == 'Type': return 'Type_'
    x = x.replace("'", '_')
    return x
NSTATES = len(T['yypact_'])
o = 'import Verif.Model.Parser\n/-!\n# The notation the parser is shown to read\n\n' + HEAD.replace('from', 'from tools/parser_notation.txt,', 1) + '''
A grammar whose rules are rules of asn_compiler.yacc with some nonterminals split in two: `Type_closed`, for example, is a `Type` that does not
end with another type.  `productions` are its rules: the left-hand side, the number of the rule of asn_compiler.yacc, the right-hand side.
Symbols below %d are those of bison, the others are listed in `refined`.
-/
namespace FastBer.Parser
open FastBer

namespace Sym
''' % NSYM
for x in lhss: o += 'abbrev %s : Nat := %d\n' % (ident(x), num[x])
o += 'end Sym\n\n/-- What the nonterminals from %d are in asn_compiler.yacc. -/\ndef refined : List Nat := [%s]\n' % (NSYM, wrap([str(base(x)) for x in REF]))
o += '\n/-- The symbol of asn_compiler.yacc. -/\ndef baseSym (x : Nat) : Nat := if x < %d then x else refined.getD (x - %d) 0\n' % (NSYM, NSYM)
PCH = 20
for k, c in enumerate(chunks(PROD, PCH)):
    o += '\ndef productions%d : List (Nat × Nat × List Nat) := [\n   %s]\n' % (k, wrap(['(%d, %d, [%s])' % (l, r, ', '.join(map(str, rhs))) for l, r, rhs in c]))
o += '\ndef productions : List (List (Nat × Nat × List Nat)) := [%s]\n' % wrap(['productions%d' % k for k in range(len(chunks(PROD, PCH)))])
o += '\n/-- The number of rules. -/\ndef prodCount : Nat := %d\n' % len(PROD)
o += '''
/-- Rule `i`: left-hand side, rule number, right-hand side. -/
def prod (i : Nat) : Option (Nat × Nat × List Nat) :=
  if i < prodCount then (productions.getD (i / %d) [])[i %% %d]? else none
''' % (PCH, PCH)
allnt = list(range(NT, NSYM + len(REF)))
o += '\n/-- The rules of nonterminal `x`, from %d. -/\ndef rulesOf (x : Nat) : List Nat := (rulesTable.getD ((x - %d) / 20) []).getD ((x - %d) %% 20) []\nwhere\n  rulesTable : List (List (List Nat)) := [\n   %s]\n' % (
    NT, NT, NT, ',\n   '.join('[%s]' % wrap(['[%s]' % ', '.join(map(str, BY.get(x, []))) for x in c], indent='    ') for c in chunks(allnt, 20)))
FM = sorted({mask(first.get(x, set())) for x in allnt})
o += '\n/-- Terminals that may start nonterminal `x`, as a bit mask. -/\ndef firstOf (x : Nat) : Nat :=\n  if x < %d then 1 <<< x else firstMasks.getD ((firstTable.getD ((x - %d) / 20) []).getD ((x - %d) %% 20) 0) 0\nwhere\n  firstMasks : List Nat := [\n   %s]\n  firstTable : List (List Nat) := [\n   %s]\n' % (
    NT, NT, NT, wrap(['0x%x' % m for m in FM]), ',\n   '.join('[%s]' % wrap([str(FM.index(mask(first.get(x, set())))) for x in c]) for c in chunks(allnt, 20)))
o += '\n/-- Nonterminals that may be empty. -/\ndef nullable (x : Nat) : Bool := [%s].contains x\n' % wrap([str(x) for x in sorted(nul)])
o += '\nend FastBer.Parser\n'
write('Proofs/ParserGrammar.lean', o)

SCH = 30
def code(it):
    n = 0
    order = sorted(it.items(), key=lambda kv: (kv[0][1] == 0, kv[0]))
    for (i, d), la in reversed(order): n = n << 24 | (i + 1) << 14 | d << 10 | MASKS.index(mask(la))
    return '0x%x' % n
o = 'import Verif.Proofs.ParserGrammar\n/-!\n# Items of the states of the parser\n\n' + HEAD + '''
For every state the rules of `productions` the parser may be in the middle of, each with the position reached and the terminals that may follow it.
An item is 24 bits: the rule plus 1 (10 bits), the position (4), the index of the mask of terminals (10).
-/
namespace FastBer.Parser

def laMasks : List (List Nat) := [
   %s]

def laMask (k : Nat) : Nat := (laMasks.getD (k / 20) []).getD (k %% 20) 0
''' % ',\n   '.join('[%s]' % wrap(['0x%x' % m for m in c], indent='    ') for c in chunks(MASKS, 20))
stl = [code(items[s]) if s in items else '0' for s in range(NSTATES)]
for k, c in enumerate(chunks(stl, SCH)):
    o += '\ndef states%d : List Nat := [\n   %s]\n' % (k, wrap(c))
o += '''
def states : List (List Nat) := [%s]

/-- The items of a number. -/
def decodeItems : Nat → Nat → List (Nat × Nat × Nat)
  | 0, _ => []
  | fuel + 1, n =>
    if n = 0 then [] else ((n >>> 14) %% 1024 - 1, (n >>> 10) %% 16, n %% 1024) :: decodeItems fuel (n >>> 24)

/-- The items of state `s`: rule, position, mask. -/
def itemsOf (s : Nat) : List (Nat × Nat × Nat) :=
  if s < 900 then decodeItems %d ((states.getD (s / %d) []).getD (s %% %d) 0) else []

end FastBer.Parser
''' % (wrap(['states%d' % k for k in range(len(chunks(stl, SCH)))]), maxitems + 1, SCH, SCH)
write('Proofs/ParserStates.lean', o)

# ---- the states of the parser and the whole grammar ---------------------------------------------------------------
byl = {}
for r in range(1, len(G)): byl.setdefault(G[r][0], []).append(r)
def closure(k):
    k, w = set(k), list(k)
    while w:
        r, d = w.pop(); c = G[r][1]
        if d < len(c) and c[d] >= NT:
            for q in byl[c[d]]:
                if (q, 0) not in k: k.add((q, 0)); w.append((q, 0))
    return k
lr0, work, trans = {0: closure({(1, 0)})}, [0], {}
while work:
    s = work.pop(); sy = {}
    for r, d in lr0[s]:
        if d < len(G[r][1]): sy.setdefault(G[r][1][d], set()).add((r, d + 1))
    for x, k in sy.items():
        if x >= NT: t = goto(s, x)
        else:
            a = act(s, x)
            if a[0] != 'shift': continue       # a conflict, solved the other way
            t = a[1]
        cl = closure(k)
        if t in lr0: assert lr0[t] == cl
        else: lr0[t] = cl; work.append(t)
        trans[(s, x)] = t
assert len(lr0) == NSTATES
nul0, ch = set(), True
while ch:
    ch = False
    for r in range(1, len(G)):
        if G[r][0] not in nul0 and all(x in nul0 for x in G[r][1]): nul0.add(G[r][0]); ch = True
edges = {}
for p in lr0:
    for r, d in lr0[p]:
        if d == 0 and r > 1:
            q = p
            for x in G[r][1]:
                q = trans.get((q, x))
                if q is None: break
            if q is None: continue
            if sum(1 for x in G[r][1] if x not in nul0) <= (0 if G[r][0] in nul0 else 1): edges.setdefault(q, set()).add(trans[(p, G[r][0])])
sys.setrecursionlimit(10000)
rank = {}
def rk(u):
    if u in rank: assert rank[u] is not None; return rank[u]
    rank[u] = None
    rank[u] = max([rk(v) + 1 for v in edges.get(u, ())], default=0)
    return rank[u]
for s in lr0: rk(s)
assert max(rank.values()) <= 15
def code0(it):
    n = 0
    for r, d in reversed(sorted(it)): n = n << 16 | r << 4 | d
    return '0x%x' % n
o = 'import Verif.Model.Parser\n/-!\n# The grammar and the states of the parser\n\n' + HEAD + '''
`rhsOf r`: the right-hand side of rule `r` of asn_compiler.yacc, in bison's numbering of the symbols.  `kernelOf s`: the rules the parser may be in
the middle of in state `s`, with the position reached; 16 bits each, the rule (12 bits) and the position (4).  `startsOf s`: the rules that may start there.  `rankOf s`: how many reductions the parser may
make from state `s` without taking a symbol that is never empty off its stack.
-/
namespace FastBer.Parser
'''
for k, c in enumerate(chunks(G, CH)):
    o += '\ndef rhs%d : List (List Nat) := [\n   %s]\n' % (k, wrap(['[%s]' % ', '.join(map(str, (x or (0, []))[1])) for x in c]))
o += '\n/-- The right-hand side of rule `r`. -/\ndef rhsOf (r : Nat) : List Nat := ([%s].getD (r / %d) []).getD (r %% %d) []\n' % (
    wrap(['rhs%d' % k for k in range(len(chunks(G, CH)))]), CH, CH)
ker = [code0({x for x in lr0[s] if x[1] > 0}) for s in range(NSTATES)]
sta = [code0({(x[0], 0) for x in lr0[s] if x[1] == 0}) for s in range(NSTATES)]
for nm, stl in (('kernels', ker), ('starts', sta)):
    for k, c in enumerate(chunks(stl, SCH)):
        o += '\ndef %s%d : List Nat := [\n   %s]\n' % (nm, k, wrap(c))
o += '''
def kernelTable : List (List Nat) := [%s]

def startTable : List (List Nat) := [%s]

def decodePositions : Nat → Nat → List (Nat × Nat)
  | 0, _ => []
  | fuel + 1, n => if n = 0 then [] else ((n >>> 4) %% 4096, n %% 16) :: decodePositions fuel (n >>> 16)

def decodeStarts : Nat → Nat → List Nat
  | 0, _ => []
  | fuel + 1, n => if n = 0 then [] else (n >>> 4) %% 4096 :: decodeStarts fuel (n >>> 16)

/-- Rules begun in state `s` and the positions reached in them. -/
def kernelOf (s : Nat) : List (Nat × Nat) :=
  if s < 876 then decodePositions %d ((kernelTable.getD (s / %d) []).getD (s %% %d) 0) else []

/-- Rules that may start in state `s`. -/
def startsOf (s : Nat) : List Nat :=
  if s < 876 then decodeStarts %d ((startTable.getD (s / %d) []).getD (s %% %d) 0) else []

def rankTable : Nat :=
  0x%s

def rankOf (s : Nat) : Nat := (rankTable >>> (4 * s)) %% 16

/-- Symbols that may be empty. -/
def mayBeEmpty (x : Nat) : Bool := [%s].contains x

end FastBer.Parser
''' % (wrap(['kernels%d' % k for k in range(len(chunks(stl, SCH)))]), wrap(['starts%d' % k for k in range(len(chunks(stl, SCH)))]),
       max(len(x) for x in lr0.values()) + 1, SCH, SCH, max(len(x) for x in lr0.values()) + 1, SCH, SCH,
       ''.join('%x' % rank[s] for s in reversed(range(NSTATES))), wrap([str(x) for x in sorted(nul0)]))
write('Proofs/ParserPositions.lean', o)

# ---- one theorem per production -------------------------------------------------------------------------------------------------
inv = {v: k for k, v in KW}
assert len(inv) == len(KW) or True
VT = {4: ('n', 'Int', 'number', 'int'), 5: ('n', 'Int', 'negative', 'int'), 6: ('s', 'Bytes', 'real', 'real'), 7: ('s', 'Bytes', 'bstring', 'text'),
      9: ('s', 'Bytes', 'hstring', 'text'), 11: ('s', 'Bytes', 'cstring', 'text'), 24: ('n', 'List Char', 'typeField', 'name'),
      25: ('n', 'List Char', 'valueField', 'name'), 149: ('n', 'List Char', 'upper', 'name'), 150: ('n', 'List Char', 'lower', 'name')}
symname = {v: ident(k) for k, v in num.items() if v >= NTOK} if 'NTOK' in globals() else {v: ident(k) for k, v in num.items()}
o = '''import Verif.Proofs.ParserSafe
/-!
# One theorem for each rule of the notation

''' + HEAD + '''
-/
namespace FastBer.Parser
open FastBer Lexer

/-- `w` is derived from `x` with value `v` and no effect. -/
def D (stod : Bytes → UInt64) (x : Nat) (w : List Tok) (v : Val) : Prop := ∀ st, Derives stod x w st v st

def DAll (stod : Bytes → UInt64) (γ : List Nat) (w : List Tok) (vs : List Val) : Prop := ∀ st, DerivesAll stod γ w st vs st

theorem DAll.nil {stod : Bytes → UInt64} : DAll stod [] [] [] := fun st => .nil st

theorem DAll.cons {stod : Bytes → UInt64} {x : Nat} {γ : List Nat} {w w' : List Tok} {v : Val} {vs : List Val} (h : D stod x w v)
    (h' : DAll stod γ w' vs) : DAll stod (x :: γ) (w ++ w') (v :: vs) := fun st => .cons (h st) (h' st)

theorem DAll.last {stod : Bytes → UInt64} {x : Nat} {w : List Tok} {v : Val} (h : D stod x w v) : DAll stod [x] w [v] := fun st => by
  have := DerivesAll.cons (h st) (.nil st)
  rwa [List.append_nil] at this

theorem DAll.tok {stod : Bytes → UInt64} {x : Nat} {γ : List Nat} {t : Tok} {w' : List Tok} {vs : List Val} (ht : terminal t = x)
    (h' : DAll stod γ w' vs) : DAll stod (x :: γ) (t :: w') (tokenValue t :: vs) := fun st => by
  have := DerivesAll.cons (.tok t st) (h' st)
  rwa [ht] at this

theorem D.of {stod : Bytes → UInt64} {i x r : Nat} {γ : List Nat} {w : List Tok} {vs : List Val} {v : Val} (hi : i ≠ 0)
    (hp : prod i = some (x, r, γ)) (h : DAll stod γ w vs) (hv : ∀ st, action stod r vs st = (v, st)) : D stod x w v :=
  fun st => .rule hi hp (h st) (hv st)

'''
ACTS = {}
for m in re.finditer(r'  -- (\d+) \(\d+\) [^\n]*\n  (.*?)(?=,?\n  -- |\]\n)', open(os.path.join(OUT, 'Model/ParserActions.lean')).read(), re.S):
    ACTS[int(m.group(1))] = re.sub(r'\s+', ' ', m.group(2)).strip()
used = sorted({x for l, r, c in PROD[1:] for x in c if x in inv})
for t in used:
    o += 'theorem tok%d : terminal (.sym "%s") = %d := by decide +kernel\n' % (t, inv[t], t)
o += '\n'
for i, (l, r, c) in enumerate(PROD):
    if i == 0 or symname[l] in ('ModuleDefinition', 'ModuleDefinitionList'): continue
    params = ''; word = []; vals = []; proof = 'DAll.nil' ; parts = []
    for k, x in enumerate(c, 1):
        if x in inv:
            word.append(('t', '.sym "%s"' % inv[x])); vals.append('.none'); parts.append(('t', 'tok%d' % x))
        elif x in VT:
            a, ty, con, kind = VT[x]
            params += ' (a%d : %s)' % (k, ty)
            word.append(('t', '.%s a%d' % (con, k)))
            vals.append({'int': '.int a%d', 'real': '.real a%d', 'text': '.str (text a%d)', 'name': '.str (String.ofList a%d)'}[kind] % k)
            parts.append(('t', 'rfl'))
        else:
            params += ' {w%d : List Tok} {v%d : Val} (h%d : D stod Sym.%s w%d v%d)' % (k, k, k, symname[x], k, k)
            word.append(('w', 'w%d' % k)); vals.append('v%d' % k); parts.append(('w', 'h%d' % k))
    wd = ''
    for j, (k, s) in enumerate(reversed(word)):
        if j == 0: wd = '[%s]' % s if k == 't' else s
        elif k == 't': wd = '(%s :: %s)' % (s, wd)
        else: wd = '(%s ++ %s)' % (s, wd)
    if not word: wd = '[]'
    pf = '.nil'
    for j, (k, s) in enumerate(reversed(parts)):
        if k == 't': pf = '(.tok %s %s)' % (s, pf)
        elif j == 0: pf = '(.last %s)' % s
        else: pf = '(.cons %s %s)' % (s, pf)
    body = ACTS[r]
    assert body.startswith('sets fun '), body
    body = body.split('=>', 1)[1].strip()
    body = re.sub(r'\(arg v (\d+)\)', lambda m: '(%s : Val)' % vals[int(m.group(1)) - 1] if not vals[int(m.group(1)) - 1].startswith('v') else vals[int(m.group(1)) - 1], body)
    body = re.sub(r'arg v (\d+)', lambda m: vals[int(m.group(1)) - 1], body)
    o += 'theorem by_%s {stod : Bytes → UInt64}%s :\n    D stod Sym.%s %s (%s) :=\n  D.of (i := %d) (by decide) rfl %s (fun _ => rfl)\n' % (
        NAMES[i], params, symname[l], wd, body, i, pf)
o += '\nend FastBer.Parser\n'
write('Proofs/ParserProductions.lean', o)
