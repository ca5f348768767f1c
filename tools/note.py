"""usage: note.py Cnn status 'note'"""
import json,sys,os
p=os.path.join(os.path.dirname(os.path.abspath(__file__)),'notes.json')
d=json.load(open(p)); d[sys.argv[1]]=[sys.argv[2],sys.argv[3]]
json.dump(dict(sorted(d.items())),open(p,'w'),indent=0)
