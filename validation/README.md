# Validation of the model against the tests of pvfactors

`run.sh` rewrites the text of `lean/Verif/Model/*.lean` so that real numbers become floating point
numbers (`tofloat.py`: the type, the functions of `Shim.lean.in`, `Prop` flags become `Bool`, the
matrix inverse becomes Gauss-Jordan elimination), compiles it in a temporary directory, runs it on
inputs of the tests of pvfactors and compares the results with the numbers that those tests expect.
Functions of pvlib that are external to the model (Perez, extraterrestrial irradiance, air mass, total
irradiance) are written out in `Main.lean.in`.  No proof depends on any of this; it only shows that the
definitions compute what the program computes.

All values agree (`ok`, to the digits that the tests give):

| test of pvfactors | values |
|---|---|
| `test_calculator.py::test_vfcalculator_vectorized` | view factor matrix, 19 x 19 |
| `test_calculator.py::test_ts_view_factors` | fast mode view factors at 5 time steps |
| `test_calculator.py::test_vfcalculator_aoi_methods`, `test_aoi_methods.py::test_vf_aoi_pvrow_to_sky` | view factors with losses by reflection |
| `test_timeseries.py::test_vf_pvrow_to_gnd_surf_obstruction_hottel` | 4 pairs of view factors |
| `test_models.py::test_hybridperez_ordered_front`, `_back` | irradiance vectors, 40 surfaces |
| `test_engine.py`: `float_inputs_iso`, `float_inputs_perez`, `ts_inputs_perez`, fast mode isotropic / Perez / segments / back shading, transparency full / fast, shading continuity, tilt zero | incident and absorbed irradiance |
| `test_engine.py::test_fast_mode_8760` | a year of hourly steps, fast mode |
| `test_engine.py::test_engine_variable_albedo` | 100 hourly steps, full mode |
| `test_utils.py` | disk and horizon band shading |
