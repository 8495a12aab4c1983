import json
r={"mods":["Verif.NN.PropsReload"],"props":[["C86","Outputs and predictions of a reloaded network",
"A network of dense layers is saved and loaded into a network of the same architecture. For every input of bounded size, each output of the loaded network differs from that of the saved one by at most an explicit bound computed from the slopes of the activations, the sums of the absolute weights of the units and the precision of the file (5 parts in a million); a sample whose largest output leads by more than twice the bound is predicted to be of the same class. More generally, changing every weight by at most a fraction and every input by at most a given amount changes the outputs by at most the bound. Without the margin the predicted class can change.",
"all dense architectures, all real weights, all inputs, all activations with a Lipschitz constant (all 13 of the library)",
"the bound must hold for every network, every weight and every input; a test reloads one network.",
["src/neuralnet.cpp: save, load, forwardprop, predict","src/layer/layer.cpp: forwardprop","src/act.cpp"]]],
"notes":{"C86":["proved","C86_outputs and C86_class: perturbed weights and inputs; C86_reload: save and load with the six digits of the library's format; C86_closed: closed form for activations with slope at most 1 and values in [-1, 1]; C86_slopes: Lipschitz constants of all 13 activations; C86_margin_needed: a network whose every prediction changes when it is saved and loaded. Exact arithmetic (rounding of the forward pass: C77)."]},
"design":"(C86) Over exact arithmetic, by induction on the layers: a recursive bound on the difference of the outputs of two networks whose weights differ by a fraction; combined with the precision of the file format from C35; Lipschitz constants from the derivatives of C25."}
json.dump(r,open('/tmp/gen/r86.json','w'))
