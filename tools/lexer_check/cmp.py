m={'::=':'DEFINED_AS','...':'ELIPSIS','..':'RANGE','{':'OPEN_BRACE','}':'CLOSE_BRACE','(':'OPEN_PARENTHESIS',')':'CLOSE_PARENTHESIS','[':'OPEN_SQUARE_BRACKET',']':'CLOSE_SQUARE_BRACKET',':':'COLON',';':'SEMICOLON',',':'COMMA','-':'HYPHEN_MINUS','.':'FULL_STOP','|':'VERTICAL_LINE','!':'EXCLAMATION_MARK','<':'LESS_THAN','^':'ACCENT','@':'AT','NULL':'ASN_NULL'}
g=open('/tmp/lexv/got.txt').read().split('\n'); e=open('/tmp/lexv/exp.txt').read().split('\n'); ii=open('/tmp/lexv/in.txt').read().split('\n')
bad=0
for a,b,c in zip(g,e,ii):
    if not a: continue
    n,k=a.rsplit(' ',1); n=m.get(n,n.replace('-','_') if n not in m else n)
    if n+' '+k!=b: bad+=1; print(a,'|',b,'|',bytes(map(int,c.split()))) if bad<10 else None
print('bad',bad,len(g),len(e))
