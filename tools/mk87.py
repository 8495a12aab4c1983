import json
r={"mods":["Verif.NN.UnitTests","Verif.NN.PropsUnitTests"],"props":[["C87","What the unit tests of activations and layers sample holds for all inputs",
"The derivative checks of test/act_test.cpp (step 1e-6, tolerance 1e-6) hold, in exact arithmetic, for all 13 activations at every argument further than the step from a kink, and for every step eps the error is at most an explicit multiple of eps; at the kinks of relu, absolute and hardtanh they fail for every step below 1. layer_random_init_weights holds exactly for every layer size, every requested deviation and all non-degenerate draws; layer_dimension_test for every size, parameter and contents.",
"all arguments, all steps, all layer sizes, parameters, draws and contents",
"the tests evaluate each activation at one point with one step and one layer of each kind.",
["test/act_test.cpp","test/layer_unit_test.cpp","src/act.cpp","src/layer/layer.cpp"]]],
"notes":{"C87":["proved","Exact arithmetic: the difference quotient of the tests is computed in double there. The value checks at 6.6, 0 and -6.6 are literals and not generalised (C26, C72 give ranges)."]},
"design":"(C87) The expressions of the tests as functions of their literals (UnitTests.lean); the difference quotient is bounded by comparing the derivative of its error with a quadratic, using Lipschitz constants of the derivatives; the layer tests by evaluating the constructors and passes of the model."}
json.dump(r,open('/tmp/gen/r87.json','w'))
