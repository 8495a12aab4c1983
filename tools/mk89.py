import json
r={"mods":["Verif.NN.PropsCtor"],"props":[["C89","Constructors and setters give the layer that was asked for",
"For all non-negative sizes, rates, spreads, penalties and activations every constructor of Layer, OutputLayer and the four kinds of outputs succeeds and returns a layer with q nodes, weights and gradient of p+1 rows and q columns, exactly the rate, penalty, activation and cost functions asked for, no results yet, and weights that are the random draws times one factor and have the spread asked for (the constructors without a spread use 1). The LayerParam constructors use the caller's activation, the others the one of the kind (sigmoid for cross entropy, identity otherwise). Sizes p < -1 or q < 0 throw, all others do not. getpnnodes() is p+1, never p. setw replaces the weights; setlambda(r) changes no result and adds (r-lambda)*W to the next gradient; setlrate(r) makes the next update W - r*grad.",
"all sizes, parameters, activations, draws, inputs and deltas",
"a test constructs a few layers of fixed sizes.",
["src/layer/layer.cpp","src/layer/layer.h","src/layer/outputlayer.cpp","src/layer/inputlayer.cpp","src/layer/normlayer.cpp","src/output/*.cpp"]]],
"notes":{"C89":["proved","C89_getpnnodes_refuted records that getpnnodes() is not the constructor's argument. An allocation failure for huge sizes is not modelled."]},
"design":"(C89) The constructors of the model are evaluated for symbolic sizes and compared with a specification of a fresh layer; the setters by evaluating the next pass."}
json.dump(r,open('/tmp/gen/r89.json','w'))
