import json,sys
p='/verif/tools/status.json'
d=json.load(open(p))
a=sys.argv[1:]
for i in range(0,len(a),3): d[a[i]]=[a[i+1],a[i+2]]
json.dump(d,open(p,'w'),indent=1)
