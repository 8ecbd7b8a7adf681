"""Extract inputs and expected values from the tests of pvfactors (argument: its source directory)."""
import csv, datetime, re, sys
repo = sys.argv[1] + '/pvfactors/tests/'
t = open(repo + 'test_viewfactors/test_data/__init__.py').read()
t = t[t.index('vf_left_cut_from_vectorized = '):]
v = re.findall(r'\d+\.\d*', t)
open('vf_expected.txt', 'w').write(' '.join(str(round(float(x) * 1000)) for x in v))
out = []
for r in csv.DictReader(open(repo + 'test_files/file_test_inputs_MET_clearsky_tucson.csv')):
    ts = datetime.datetime.fromisoformat(list(r.values())[0])
    out.append(' '.join([str(ts.timetuple().tm_yday)] + [
        r[c] if r[c] != '' else 'nan'
        for c in ['dni', 'dhi', 'solar_zenith', 'solar_azimuth', 'surface_tilt', 'surface_azimuth']]))
open('met.txt', 'w').write('\n'.join(out))
